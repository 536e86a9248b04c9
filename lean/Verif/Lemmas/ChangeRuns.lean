import Verif.Lemmas.ChangeWeights

/-!
Whole runs with other names, another unit of length or other attributes.
-/

namespace Flee

open Spec

namespace Change

variable {X : Change} {c : Cfg}

theorem runs_eq (h : X.Ok c) (P : Eco → Prop) : ∀ (ops : List Op) (_ : ∀ o ∈ ops, ∀ e, P e → Safe X c e o)
    (_ : ∀ o ∈ ops, ∀ e e', P e → o.exec c e = .ok e' → P e') (e : Eco), P e →
    (ops.map X.op).foldlM (fun e (op : Op) => op.exec (X.cfg c) e) (X.eco e) = (ops.foldlM (fun e (op : Op) => op.exec c e) e).map X.eco
  | [], _, _, _, _ => rfl
  | o :: ops, hs, hp, e, he => by
    rw [List.map_cons, List.foldlM_cons, List.foldlM_cons]
    refine Except.bind_map_eq (exec_eq h e o (hs o (by simp) e he)) fun e' h1 => ?_
    exact runs_eq h P ops (fun o ho => hs o (by simp [ho])) (fun o ho => hp o (by simp [ho])) e' (hp o (by simp) e e' he h1)

theorem agree_map {R : Eco → Eco → Prop} {k : Eco → Eco} (h : ∀ e, R e (k e)) {x y : Except Err Eco} (hy : y = x.map k) :
    AgreeOn R x y := by
  subst hy
  cases x with
  | error e => rfl
  | ok e => exact h e

theorem forall2_map {α : Type} {R : α → α → Prop} {k : α → α} (h : ∀ a, R a (k a)) : ∀ l : List α, List.Forall₂ R l (l.map k)
  | [] => .nil
  | a :: l => .cons (h a) (forall2_map h l)

theorem sameRun (e : Eco) : SameRun e (X.eco e) where
  time := rfl
  nLoc := rfl
  nLink := rfl
  numLoc _ := rfl
  numLink _ := rfl
  pop _ := rfl
  roads _ := ⟨rfl, rfl⟩
  kinds _ := ⟨rfl, rfl, rfl⟩
  draws := rfl
  spawn := rfl
  agents := forall2_map (fun _ => ⟨rfl, rfl, rfl, rfl, rfl, rfl⟩) _

theorem empty_eq (h0 : X.f "" = "") (d : Nat → ℚ) : X.eco (Eco.empty d) = Eco.empty d := by
  simp [eco, Eco.empty, world, loc, link, str, h0]

/-- Only names. -/
def names (f : String → String) : Change := ⟨f, 1, 1, id⟩

theorem names_cfg (f : String → String) : (names f).cfg c = c := by simp [names, cfg]

theorem names_ok {f : String → String} (hf : Function.Injective f) : (names f).Ok c where
  inj := hf
  pos := zero_lt_one
  kpos := zero_lt_one
  scale := ⟨1, one_ne_zero, fun x => by simp [names], fun x => by simp [names]⟩
  age _ _ := rfl
  gender _ _ _ := rfl
  aware _ _ _ := rfl

theorem names_op (f : String → String) (o : Op) : (names f).op o = renamedOp f o := by
  cases o <;> first
    | rfl
    | (simp only [op, renamedOp, names, one_mul, Option.map_id']; done)

theorem names_fair (f : String → String) (w : World) : AllFair (names f) c w := fun _ _ _ _ _ => .inl rfl

theorem renamed {f : String → String} (e : Eco) : Renamed f e ((names f).eco e) where
  toSameRun := sameRun e
  names _ := rfl
  lengths _ := one_mul _
  ways := forall2_map (fun a => ⟨one_mul _, rfl, by
    refine List.map_congr_left fun z _ => ?_
    cases z <;> rfl⟩) _

/-- Only the unit of length. -/
def unit (c : Cfg) (lam : ℚ) : Change := ⟨id, lam, c.weightPow (c.distPow lam)⁻¹, id⟩

theorem unit_ok {lam : ℚ} (hc : NonNegWeights c) (hl : 0 < lam) : (unit c lam).Ok c where
  inj := Function.injective_id
  pos := hl
  kpos := hc.weight.pos _ (inv_pos.2 (hc.dist.pos _ hl))
  scale := ⟨c.distPow lam, (hc.dist.pos _ hl).ne', fun x => hc.dist.mul _ _ hl, fun x => by
    rw [div_eq_inv_mul]
    exact hc.weight.mul _ _ (inv_pos.2 (hc.dist.pos _ hl))⟩
  age _ _ := rfl
  gender _ _ _ := rfl
  aware _ _ _ := rfl

theorem str_id {lam k : ℚ} {g : List (String × String) → List (String × String)} (n : PyStr) : (⟨id, lam, k, g⟩ : Change).str n = n := rfl

theorem closure_id {lam k : ℚ} {g : List (String × String) → List (String × String)} (r : Closure) :
    (⟨id, lam, k, g⟩ : Change).closure r = r := by
  unfold closure
  split <;> rfl

theorem closures_id {lam k : ℚ} {g : List (String × String) → List (String × String)} (rs : List Closure) :
    rs.map (⟨id, lam, k, g⟩ : Change).closure = rs :=
  (List.map_congr_left fun r _ => closure_id r).trans (List.map_id rs)

theorem table_id {lam k : ℚ} {g : List (String × String) → List (String × String)} (t : LevelTable) :
    (⟨id, lam, k, g⟩ : Change).table t = t := by
  simp [table]

theorem unit_op (lam : ℚ) (o : Op) : (unit c lam).op o = rescaledOp lam o := by
  cases o <;> first
    | rfl
    | (simp only [op, rescaledOp, unit, table_id]; done)
    | (simp [op, rescaledOp, unit, closures_id]; done)

theorem rescaled {lam : ℚ} (e : Eco) : Rescaled lam e ((unit c lam).eco e) where
  toSameRun := sameRun e
  names _ := rfl
  lengths _ := rfl
  ways := forall2_map (fun a => ⟨rfl, rfl, rfl, rfl, by
    refine (List.map_congr_left fun z _ => ?_).trans (List.map_id _)
    cases z <;> rfl⟩) _

/-- Only attributes. -/
def dress (g : List (String × String) → List (String × String)) : Change := ⟨id, 1, 1, g⟩

theorem dress_cfg (g : List (String × String) → List (String × String)) : (dress g).cfg c = c := by simp [dress, cfg]

theorem dress_ok {g : List (String × String) → List (String × String)} (h : ∀ key, readsAttr c key → ∀ at', attrIn (g at') key = attrIn at' key) :
    (dress g).Ok c where
  inj := Function.injective_id
  pos := zero_lt_one
  kpos := zero_lt_one
  scale := ⟨1, one_ne_zero, fun x => by simp [dress], fun x => by simp [dress]⟩
  age h1 := h "age" (.inl ⟨rfl, h1⟩)
  gender h1 h2 := h "gender" (.inr (.inl ⟨rfl, h1, h2⟩))
  aware h1 h2 := h "floodawareness" (.inr (.inr ⟨rfl, h1, h2⟩))

theorem dress_op (g : List (String × String) → List (String × String)) (o : Op) : (dress g).op o = redressedOp g o := by
  cases o <;> first
    | rfl
    | (simp only [op, redressedOp, dress, table_id]; done)
    | (simp [op, redressedOp, dress, closures_id]; done)

theorem dress_fair (g : List (String × String) → List (String × String)) (w : World) : AllFair (dress g) c w :=
  fun _ _ _ _ _ => .inl rfl

theorem redressed {g : List (String × String) → List (String × String)} (e : Eco) : Redressed g e ((dress g).eco e) where
  toSameRun := sameRun e
  names _ := rfl
  lengths _ := one_mul _
  ways := forall2_map (fun a => ⟨one_mul _, rfl, by
    refine (List.map_congr_left fun z _ => ?_).trans (List.map_id _)
    cases z <;> rfl⟩) _

theorem noNeg_empty (d : Nat → ℚ) : NoNeg (Eco.empty d).w where
  score _ := zero_le_one
  routes _ _ hr := by simp [Eco.empty] at hr
  dist _ := le_refl 0

end Change

end Flee
