import Verif.Spec.Multiscale
import Verif.Lemmas.Exchange
import Verif.Lemmas.Kinds
import Verif.Lemmas.Input
import Verif.Lemmas.Step

/-!
Lemmas about the set-up of coupled models.
-/

namespace Flee

open Spec

/-- Add a coupled location with this name unless there is one. -/
def addName (w : World) (o i : Bool) (cs : List Coupled) (n : String) : List Coupled :=
  if n ∈ cs.map (·.locName) then cs else cs ++ [{ name := n.toList, loc := w.nameIdx n, locName := n, hasOut := o, hasIn := i }]

theorem coupleLoc_inout (w : World) (cs : List Coupled) (i : Nat) :
    coupleLoc w "inout" cs i = addName w true true cs (w.loc i).name.val := by
  have h1 : contains "out".toList "inout".toList = true := by decide +kernel
  have h2 : contains "in".toList "inout".toList = true := by decide +kernel
  simp only [coupleLoc, addCoupled, addName, h1, h2]

theorem coupleLoc_out (w : World) (cs : List Coupled) (i : Nat) :
    coupleLoc w "out" cs i = addName w true false cs (w.loc i).name.val := by
  have h1 : contains "out".toList "out".toList = true := by decide +kernel
  have h2 : contains "in".toList "out".toList = false := by decide +kernel
  simp only [coupleLoc, addCoupled, addName, h1, h2]

theorem coupleLoc_in (w : World) (cs : List Coupled) (i : Nat) :
    coupleLoc w "in" cs i = addName w false true cs (w.loc i).name.val := by
  have h1 : contains "out".toList "in".toList = false := by decide +kernel
  have h2 : contains "in".toList "in".toList = true := by decide +kernel
  simp only [coupleLoc, addCoupled, addName, h1, h2]

theorem addName_twice (w : World) (o i : Bool) (cs : List Coupled) (n : String) :
    addName w o i (addName w o i cs n) n = addName w o i cs n := by
  by_cases h : n ∈ cs.map (·.locName)
  · simp [addName, h]
  · have : n ∈ (addName w o i cs n).map (·.locName) := by rw [addName, if_neg h]; simp
    rw [addName, if_pos this]

theorem addName_known (w : World) (o i : Bool) (cs : List Coupled) (n : String) : n ∈ (addName w o i cs n).map (·.locName) := by
  unfold addName
  split
  · assumption
  · simp

/-- Locations of one name are coupled at most once. -/
theorem same_name_fold {w : World} {o i : Bool} {n : String} {q : Nat → Prop} [DecidablePred q]
    {step : List Coupled → Nat → List Coupled} (hs : ∀ cs k, (w.loc k).name.val = n → step cs k = if q k then addName w o i cs n else cs) :
    ∀ (ks : List Nat) (cs : List Coupled), (∀ k ∈ ks, (w.loc k).name.val = n) →
      ks.foldl step cs = if ∃ k ∈ ks, q k then addName w o i cs n else cs
  | [], cs, _ => by simp
  | k :: ks, cs, h => by
    rw [List.foldl_cons, hs cs k (h k (by simp)), same_name_fold hs ks _ fun x hx => h x (List.mem_cons_of_mem _ hx)]
    by_cases hk : q k
    · have : ∃ x ∈ k :: ks, q x := ⟨k, by simp, hk⟩
      rw [if_pos hk, if_pos this, addName_twice]
      split <;> rfl
    · rw [if_neg hk]
      by_cases hx : ∃ x ∈ ks, q x
      · obtain ⟨x, hx1, hx2⟩ := hx
        rw [if_pos ⟨x, hx1, hx2⟩, if_pos ⟨x, List.mem_cons_of_mem _ hx1, hx2⟩]
      · rw [if_neg hx, if_neg]
        rintro ⟨x, hx1, hx2⟩
        rcases List.mem_cons.1 hx1 with rfl | hx1
        · exact hk hx2
        · exact hx ⟨x, hx1, hx2⟩

/-- The names of a list that satisfy a condition are coupled. -/
theorem names_fold {w : World} {o i : Bool} (p : String → Prop) [DecidablePred p] :
    ∀ (ns : List String) (cs : List Coupled),
      ns.foldl (fun cs n => if p n then addName w o i cs n else cs) cs =
        (ns.filter fun n => p n).foldl (addName w o i) cs
  | [], cs => rfl
  | n :: ns, cs => by
    rw [List.foldl_cons, names_fold p ns]
    by_cases h : p n
    · rw [if_pos h, List.filter_cons_of_pos (by simpa using h), List.foldl_cons]
    · rw [if_neg h, List.filter_cons_of_neg (by simpa using h)]

open Classical in
theorem addGhosts_eq (w : World) (names : List String) (cs : List Coupled) :
    addGhosts w names cs = (names.filter fun n => decide (DeadEnd w n)).foldl (addName w true false) cs := by
  rw [← names_fold (DeadEnd w)]
  unfold addGhosts
  congr 1
  funext cs n
  rw [same_name_fold (w := w) (o := true) (i := false) (n := n) (q := fun k => (w.loc k).links.length = 0) ?_ (w.idxs n) cs
    fun k hk => (mem_idxs.1 hk).2]
  · refine if_congr ?_ rfl rfl
    refine ⟨fun ⟨k, hk, hl⟩ => ⟨k, (mem_idxs.1 hk).1, (mem_idxs.1 hk).2, List.length_eq_zero_iff.1 hl⟩, fun ⟨k, h1, h2, h3⟩ =>
      ⟨k, mem_idxs.2 ⟨h1, h2⟩, by simp [h3]⟩⟩
  · intro cs k hk
    rw [coupleLoc_out, hk]
    by_cases h1 : (w.loc k).links.length = 0
    · by_cases h2 : n ∈ cs.map (·.locName)
      · simp only [h1, true_and, if_true, addName, h2, not_true_eq_false, if_false]
      · simp only [h1, true_and, if_true, addName, h2, not_false_eq_true, if_false]
    · simp only [h1, false_and, if_false]

open Classical in
theorem addMicroConflicts_eq (w : World) (names : List String) (cs : List Coupled) :
    addMicroConflicts w names cs = (names.filter fun n => decide (HasPlace w n)).foldl (addName w false true) cs := by
  rw [← names_fold (HasPlace w)]
  unfold addMicroConflicts
  congr 1
  funext cs n
  rw [same_name_fold (w := w) (o := false) (i := true) (n := n) (q := fun _ => True) ?_ (w.idxs n) cs fun k hk => (mem_idxs.1 hk).2]
  · refine if_congr ?_ rfl rfl
    exact ⟨fun ⟨k, hk, _⟩ => ⟨k, (mem_idxs.1 hk).1, (mem_idxs.1 hk).2⟩, fun ⟨k, h1, h2⟩ => ⟨k, mem_idxs.2 ⟨h1, h2⟩, trivial⟩⟩
  · intro cs k hk
    rw [coupleLoc_in, hk, if_pos trivial]

theorem nameIdx_has {w : World} {n : String} (h : HasPlace w n) : w.nameIdx n < w.nLoc ∧ (w.loc (w.nameIdx n)).name.val = n := by
  obtain ⟨i, hi, hn⟩ := h
  unfold World.nameIdx World.lastIdx
  cases hf : (List.range w.nLoc).reverse.find? (fun i => decide ((w.loc i).name.val = n)) with
  | none =>
    have := List.find?_eq_none.1 hf i (by simpa using hi)
    simp [hn] at this
  | some j =>
    have h1 := List.find?_some hf
    have h2 := List.mem_of_find?_eq_some hf
    exact ⟨by simpa using h2, by simpa using h1⟩

theorem lastIdx_has {w : World} {n : String} : (∃ i, w.lastIdx n = some i) ↔ HasPlace w n := by
  unfold World.lastIdx
  constructor
  · rintro ⟨i, h⟩
    exact ⟨i, by simpa using List.mem_of_find?_eq_some h, by simpa using List.find?_some h⟩
  · rintro ⟨i, hi, hn⟩
    cases hf : (List.range w.nLoc).reverse.find? (fun i => decide ((w.loc i).name.val = n)) with
    | none =>
      have := List.find?_eq_none.1 hf i (by simpa using hi)
      simp [hn] at this
    | some j => exact ⟨j, rfl⟩

theorem lastIdx_name {w : World} {n : String} {i : Nat} (h : w.lastIdx n = some i) : (w.loc i).name.val = n := by
  simpa using List.find?_some h

/-- Coupling further names: they send and take in as asked, those coupled before stay as they are. -/
theorem addNames_as {w : World} {o i : Bool} : ∀ (ns : List String) (cs : List Coupled) (s t : String → Prop), (∀ n ∈ ns, HasPlace w n) →
    CoupledAs w cs s t →
    CoupledAs w (ns.foldl (addName w o i) cs) (fun n => s n ∨ (o = true ∧ n ∈ ns ∧ n ∉ cs.map (·.locName)))
      (fun n => t n ∨ (i = true ∧ n ∈ ns ∧ n ∉ cs.map (·.locName)))
  | [], cs, s, t, _, h => by simpa using h
  | n :: ns, cs, s, t, hp, h => by
    rw [List.foldl_cons]
    have hp' : ∀ m ∈ ns, HasPlace w m := fun m hm => hp m (List.mem_cons_of_mem _ hm)
    by_cases hn : n ∈ cs.map (·.locName)
    · have hx : addName w o i cs n = cs := by rw [addName, if_pos hn]
      rw [hx]
      have := addNames_as ns cs s t hp' h (o := o) (i := i)
      refine ⟨this.belongs, this.once, fun m => ?_, fun m => ?_⟩
      · rw [this.out m]
        refine or_congr Iff.rfl (and_congr Iff.rfl ⟨fun ⟨a, b⟩ => ⟨List.mem_cons_of_mem _ a, b⟩, fun ⟨a, b⟩ => ⟨?_, b⟩⟩)
        rcases List.mem_cons.1 a with rfl | a
        · exact absurd hn b
        · exact a
      · rw [this.inn m]
        refine or_congr Iff.rfl (and_congr Iff.rfl ⟨fun ⟨a, b⟩ => ⟨List.mem_cons_of_mem _ a, b⟩, fun ⟨a, b⟩ => ⟨?_, b⟩⟩)
        rcases List.mem_cons.1 a with rfl | a
        · exact absurd hn b
        · exact a
    · have hx : addName w o i cs n = cs ++ [{ name := n.toList, loc := w.nameIdx n, locName := n, hasOut := o, hasIn := i }] := by
        rw [addName, if_neg hn]
      have h1 : CoupledAs w (addName w o i cs n) (fun m => s m ∨ (o = true ∧ m = n)) (fun m => t m ∨ (i = true ∧ m = n)) := by
        rw [hx]
        refine ⟨fun c hc => ?_, ?_, fun m => ?_, fun m => ?_⟩
        · rcases List.mem_append.1 hc with hc | hc
          · exact h.belongs c hc
          · rw [List.mem_singleton] at hc
            subst hc
            exact ⟨(nameIdx_has (hp n (by simp))).1, (nameIdx_has (hp n (by simp))).2, rfl⟩
        · rw [List.map_append, List.map_singleton, List.nodup_append]
          exact ⟨h.once, by simp, fun a ha b hb => by rw [List.mem_singleton] at hb; subst hb; rintro rfl; exact hn ha⟩
        · rw [← h.out m]
          simp only [List.mem_append, List.mem_singleton, or_and_right, exists_or, exists_eq_left]
          exact or_congr Iff.rfl ⟨fun ⟨a, b⟩ => ⟨b, a.symm⟩, fun ⟨a, b⟩ => ⟨b.symm, a⟩⟩
        · rw [← h.inn m]
          simp only [List.mem_append, List.mem_singleton, or_and_right, exists_or, exists_eq_left]
          exact or_congr Iff.rfl ⟨fun ⟨a, b⟩ => ⟨b, a.symm⟩, fun ⟨a, b⟩ => ⟨b.symm, a⟩⟩
      have h2 := addNames_as ns _ _ _ hp' h1 (o := o) (i := i)
      have key : ∀ (x : Bool) (u : String → Prop) (m : String),
          ((u m ∨ (x = true ∧ m = n)) ∨ (x = true ∧ m ∈ ns ∧ m ∉ (addName w o i cs n).map (·.locName))) ↔
            u m ∨ (x = true ∧ m ∈ n :: ns ∧ m ∉ cs.map (·.locName)) := by
        intro x u m
        have hl : (addName w o i cs n).map (·.locName) = cs.map (·.locName) ++ [n] := by rw [hx]; simp
        rw [hl, or_assoc]
        refine or_congr Iff.rfl ?_
        simp only [List.mem_append, List.mem_singleton, List.mem_cons, not_or]
        constructor
        · rintro (⟨a, rfl⟩ | ⟨a, b, c, _⟩)
          · exact ⟨a, .inl rfl, hn⟩
          · exact ⟨a, .inr b, c⟩
        · rintro ⟨a, b | b, c⟩
          · exact .inl ⟨a, b⟩
          · by_cases hm : m = n
            · exact .inl ⟨a, hm⟩
            · exact .inr ⟨a, b, c, hm, by simp⟩
      exact ⟨h2.belongs, h2.once, fun m => by rw [h2.out m, key], fun m => by rw [h2.inn m, key]⟩

theorem coupleNamed_eq {w : World} : ∀ (ns : List String) (cs : List Coupled),
    coupleNamed w cs ns = .ok (ns.foldl (addName w true true) cs) ∧ (∀ n ∈ ns, HasPlace w n) ∨
      coupleNamed w cs ns = .error .keyError ∧ ∃ n ∈ ns, ¬ HasPlace w n
  | [], cs => .inl ⟨rfl, by simp⟩
  | n :: ns, cs => by
    unfold coupleNamed
    cases h : w.lastIdx n with
    | none =>
      refine .inr ⟨rfl, n, by simp, fun hn => ?_⟩
      obtain ⟨i, hi⟩ := lastIdx_has.2 hn
      rw [h] at hi; cases hi
    | some i =>
      simp only [coupleLoc_inout, lastIdx_name h, List.foldl_cons]
      rcases coupleNamed_eq ns (addName w true true cs n) with ⟨h1, h2⟩ | ⟨h1, m, hm, h2⟩
      · exact .inl ⟨h1, List.forall_mem_cons.2 ⟨lastIdx_has.1 ⟨i, h⟩, h2⟩⟩
      · exact .inr ⟨h1, m, List.mem_cons_of_mem _ hm, h2⟩

theorem coupled_nil (w : World) : CoupledAs w [] (fun _ => False) (fun _ => False) :=
  ⟨by simp, by simp, by simp, by simp⟩

theorem Spec.CoupledAs.congr {w : World} {cs : List Coupled} {s t s' t' : String → Prop} (h : CoupledAs w cs s t) (hs : ∀ n, s n ↔ s' n)
    (ht : ∀ n, t n ↔ t' n) : CoupledAs w cs s' t' :=
  ⟨h.belongs, h.once, fun n => (h.out n).trans (hs n), fun n => (h.inn n).trans (ht n)⟩

theorem named_as {w : World} {ns : List String} (h : ∀ n ∈ ns, HasPlace w n) :
    CoupledAs w (ns.foldl (addName w true true) []) (· ∈ ns) (· ∈ ns) :=
  (addNames_as (o := true) (i := true) ns [] _ _ h (coupled_nil w)).congr (by simp) (by simp)

theorem named_names {w : World} {ns : List String} (h : ∀ n ∈ ns, HasPlace w n) (n : String) :
    n ∈ (ns.foldl (addName w true true) []).map (·.locName) ↔ n ∈ ns := by
  have hall : ∀ (ns : List String) (cs : List Coupled) (m : String), m ∈ (ns.foldl (addName w true true) cs).map (·.locName) ↔
      m ∈ cs.map (·.locName) ∨ m ∈ ns := by
    intro ns
    induction ns with
    | nil => simp
    | cons a ns ih =>
      intro cs m
      rw [List.foldl_cons, ih]
      have : m ∈ (addName w true true cs a).map (·.locName) ↔ m ∈ cs.map (·.locName) ∨ m = a := by
        unfold addName
        split
        · exact ⟨.inl, fun hx => hx.elim id fun hx => by rw [hx]; assumption⟩
        · simp
      rw [this, List.mem_cons, or_assoc]
  rw [hall]
  simp

/-- The set-up of the macro model. -/
theorem setUpMacro_as {w : World} {file : Bool} {g : Geo} {ns names : List String} {cs : List Coupled} (hn : conflictNames file g = .ok names)
    (h : setUpMacro w file g ns = .ok cs) :
    (∀ n ∈ ns, HasPlace w n) ∧ CoupledAs w cs (fun n => n ∈ ns ∨ n ∈ names ∧ DeadEnd w n) (· ∈ ns) := by
  classical
  simp only [setUpMacro, Except.bind_eq_ok, Except.pure_eq_ok, hn] at h
  obtain ⟨cs0, h0, names', h1, h2⟩ := h
  cases h1
  rcases coupleNamed_eq (w := w) ns [] with ⟨h3, h4⟩ | ⟨h3, -⟩
  swap
  · rw [h3] at h0; cases h0
  rw [h3] at h0
  cases h0
  refine ⟨h4, ?_⟩
  subst h2
  rw [addGhosts_eq]
  refine Spec.CoupledAs.congr (addNames_as _ _ _ _ (fun n hn => ?_) (named_as h4)) (fun n => ?_) (fun n => ?_)
  · obtain ⟨i, hi, hx, -⟩ := of_decide_eq_true (List.mem_filter.1 hn).2
    exact ⟨i, hi, hx⟩
  · rw [named_names h4, List.mem_filter, decide_eq_true_eq]
    by_cases hx : n ∈ ns <;> simp [hx]
  · simp

/-- The set-up of the micro model. -/
theorem setUpMicro_as {w : World} {file : Bool} {g : Geo} {ns names : List String} {cs : List Coupled} (hn : conflictNames file g = .ok names)
    (h : setUpMicro w file g ns = .ok cs) :
    (∀ n ∈ ns, HasPlace w n) ∧ CoupledAs w cs (· ∈ ns) (fun n => n ∈ ns ∨ n ∈ names ∧ HasPlace w n) := by
  classical
  simp only [setUpMicro, Except.bind_eq_ok, Except.pure_eq_ok, hn] at h
  obtain ⟨cs0, h0, names', h1, h2⟩ := h
  cases h1
  rcases coupleNamed_eq (w := w) ns [] with ⟨h3, h4⟩ | ⟨h3, -⟩
  swap
  · rw [h3] at h0; cases h0
  rw [h3] at h0
  cases h0
  refine ⟨h4, ?_⟩
  subst h2
  rw [addMicroConflicts_eq]
  refine Spec.CoupledAs.congr (addNames_as _ _ _ _ (fun n hn => ?_) (named_as h4)) (fun n => ?_) (fun n => ?_)
  · exact of_decide_eq_true (List.mem_filter.1 hn).2
  · simp
  · rw [named_names h4, List.mem_filter, decide_eq_true_eq]
    by_cases hx : n ∈ ns <;> simp [hx]


theorem names_of_sends {w : World} {cs : List Coupled} {s t : String → Prop} (h : CoupledAs w cs s t) (m : List Char) :
    m ∈ sentNames cs ↔ ∃ n, m = n.toList ∧ s n := by
  simp only [sentNames, List.mem_map, List.mem_filter]
  constructor
  · rintro ⟨c, ⟨hc, ho⟩, rfl⟩
    exact ⟨c.locName, (h.belongs c hc).name, (h.out _).1 ⟨c, hc, rfl, ho⟩⟩
  · rintro ⟨n, rfl, hs⟩
    obtain ⟨c, hc, rfl, ho⟩ := (h.out n).2 hs
    exact ⟨c, ⟨hc, ho⟩, (h.belongs c hc).name⟩

theorem names_of_takes {w : World} {cs : List Coupled} {s t : String → Prop} (h : CoupledAs w cs s t) (m : List Char) :
    m ∈ takenNames cs ↔ ∃ n, m = n.toList ∧ t n := by
  simp only [takenNames, List.mem_map, List.mem_filter]
  constructor
  · rintro ⟨c, ⟨hc, ho⟩, rfl⟩
    exact ⟨c.locName, (h.belongs c hc).name, (h.inn _).1 ⟨c, hc, rfl, ho⟩⟩
  · rintro ⟨n, rfl, hs⟩
    obtain ⟨c, hc, rfl, ho⟩ := (h.inn n).2 hs
    exact ⟨c, ⟨hc, ho⟩, (h.belongs c hc).name⟩

theorem matching_iff {w v : World} {cs ds : List Coupled} {s t s' t' : String → Prop} (h : CoupledAs w cs s t) (h' : CoupledAs v ds s' t') :
    Matching cs ds ↔ ∀ n, s n ↔ t' n := by
  have inj : ∀ {a b : String}, a.toList = b.toList → a = b := fun h => String.toList_injective h
  unfold Matching
  simp only [names_of_sends h, names_of_takes h']
  constructor
  · intro hx n
    constructor
    · intro hs
      obtain ⟨m, hm, ht⟩ := (hx n.toList).1 ⟨n, rfl, hs⟩
      rw [inj hm]; exact ht
    · intro hs
      obtain ⟨m, hm, ht⟩ := (hx n.toList).2 ⟨n, rfl, hs⟩
      rw [inj hm]; exact ht
  · intro hx m
    exact exists_congr fun n => and_congr Iff.rfl (hx n)

theorem coupleIn_known {new : Numbers} : ∀ (cs : List Coupled) (e e' : Eco), cs.foldlM (coupleIn new) e = .ok e' →
    ∀ c ∈ cs, c.hasIn = true → (new.lookup c.name).isSome = true
  | [], _, _, _, c, hc, _ => by simp at hc
  | x :: cs, e, e', h, c, hc, hi => by
    rw [List.foldlM_cons, Except.bind_eq_ok] at h
    obtain ⟨e1, h1, h2⟩ := h
    rcases List.mem_cons.1 hc with rfl | hc
    · rw [coupleIn, if_pos hi] at h1
      split at h1
      · cases h1
      · rename_i n hn; rw [hn]; rfl
    · exact coupleIn_known cs e1 e' h2 c hc hi

theorem couple_known {cfg : Cfg} {cs : List Coupled} {new : Numbers} {e e' : Eco} (h : couple cfg cs new e = .ok e') :
    ∀ c ∈ cs, c.hasIn = true → (new.lookup c.name).isSome = true := by
  simp only [couple, Except.bind_eq_ok] at h
  obtain ⟨e1, -, h2⟩ := h
  exact coupleIn_known cs e1 e' h2

/-! ### Logs -/

theorem joined_cells : ∀ (cells : List (List Char)), cells ≠ [] → (∀ c ∈ cells, ',' ∉ c) → splitAt' ',' ((cells.intersperse [',']).flatten) = cells
  | [c], _, h => by simpa using splitAt_none (h c (by simp))
  | c :: d :: cells, _, h => by
    have ih := joined_cells (d :: cells) (by simp) fun x hx => h x (List.mem_cons_of_mem _ hx)
    rw [List.intersperse_cons_cons, List.flatten_cons, List.flatten_cons, List.singleton_append, splitAt_first _ (h c (by simp)), ih]

theorem cells_unique {line : List Char} {cells : List (List Char)} (h : Cells line cells) : cells = splitAt' ',' line := by
  obtain ⟨h1, h2, rfl⟩ := h
  exact (joined_cells cells h1 h2).symm

theorem header_joined (cs : List Coupled) : exchangeHeader cs = ((("day".toList :: sentNames cs)).intersperse [',']).flatten := by
  have key : ∀ (a : List Char) (l : List (List Char)), ((a :: l).intersperse [',']).flatten = a ++ l.flatMap fun n => ',' :: n := by
    intro a l
    induction l generalizing a with
    | nil => simp
    | cons b l ih => rw [List.intersperse_cons_cons, List.flatten_cons, List.flatten_cons, ih b]; simp
  rw [key, exchangeHeader, sentNames, List.flatMap_map]

theorem universal_append_plain : ∀ {s : List Char} (t : List Char), '\r' ∉ s → universal (s ++ t) = s ++ universal t
  | [], t, _ => rfl
  | c :: s, t, h => by
    simp only [List.mem_cons, not_or] at h
    have ih := universal_append_plain (s := s) t h.2
    rw [List.cons_append]
    rw [universal.eq_def]
    split
    · rename_i heq; cases heq
    · rename_i heq; rw [List.cons.injEq] at heq; exact absurd heq.1.symm h.1
    · rename_i c' cs' hne heq
      obtain ⟨rfl, rfl⟩ := List.cons.inj heq
      rw [if_neg (Ne.symm h.1), ih]; rfl

theorem universal_end (s t : List Char) (h : '\r' ∉ s) : universal (s ++ ['\r', '\n'] ++ t) = s ++ '\n' :: universal t := by
  rw [List.append_assoc, universal_append_plain _ h]
  rfl

/-- Reading a line of numbers. -/
theorem numbers_line (row : List Int) (h : row ≠ []) :
    '\r' ∉ ((row.map intChars).intersperse [',']).flatten ∧ '\n' ∉ ((row.map intChars).intersperse [',']).flatten ∧
      (splitAt' ',' ((row.map intChars).intersperse [',']).flatten).mapM intText = .ok row := by
  have hmem : ∀ (l : List (List Char)) (x : Char), x ∈ (l.intersperse [',']).flatten → x = ',' ∨ ∃ c ∈ l, x ∈ c := by
    intro l
    induction l with
    | nil => simp
    | cons a l ih =>
      intro x hx
      cases l with
      | nil => exact .inr ⟨a, by simp, by simpa using hx⟩
      | cons b l =>
        rw [List.intersperse_cons_cons, List.flatten_cons, List.flatten_cons, List.mem_append, List.mem_append, List.mem_singleton] at hx
        rcases hx with hx | hx | hx
        · exact .inr ⟨a, by simp, hx⟩
        · exact .inl hx
        · rcases ih x hx with hx | ⟨c, hc, hx⟩
          · exact .inl hx
          · exact .inr ⟨c, List.mem_cons_of_mem _ hc, hx⟩
  refine ⟨fun hx => ?_, fun hx => ?_, ?_⟩
  · rcases hmem _ _ hx with hx | ⟨c, hc, hx⟩
    · exact absurd hx (by decide)
    · obtain ⟨n, -, rfl⟩ := List.mem_map.1 hc
      exact (intChars_plain n _ hx).2.2.2 rfl
  · rcases hmem _ _ hx with hx | ⟨c, hc, hx⟩
    · exact absurd hx (by decide)
    · obtain ⟨n, -, rfl⟩ := List.mem_map.1 hc
      exact (intChars_plain n _ hx).2.2.1 rfl
  · rw [joined_cells _ (by simpa using h) fun c hc hx => by
      obtain ⟨n, -, rfl⟩ := List.mem_map.1 hc
      exact (intChars_plain n _ hx).2.1 rfl]
    clear h hmem
    induction row with
    | nil => rfl
    | cons n row ih =>
      rw [List.map_cons, List.mapM_cons, intText_intChars, ih]
      rfl

/-- The lines of the log of a run. -/
theorem log_lines {cs : List Coupled} (hs : ∀ c ∈ cs, NoSeparators c.name) : ∀ (rows : List (List Int)), (∀ r ∈ rows, r ≠ []) →
    splitAt' '\n' (universal (exchangeLog [] cs rows)) =
      exchangeHeader cs :: (rows.map fun r => ((r.map intChars).intersperse [',']).flatten) ++ [[]] := by
  intro rows hr
  have hplain : ∀ x : Char, x ≠ ',' → (∀ c ∈ cs, x ∉ c.name) → x ∉ "day".toList → x ∉ exchangeHeader cs := by
    intro x h1 h2 h3 hx
    rw [exchangeHeader, List.mem_append] at hx
    rcases hx with hx | hx
    · exact h3 hx
    · obtain ⟨c, hc, hx⟩ := List.mem_flatMap.1 hx
      rcases List.mem_cons.1 hx with hx | hx
      · exact h1 hx
      · exact h2 c (List.mem_filter.1 hc).1 hx
  have hret := hplain '\r' (by decide) (fun c hc => (hs c hc).ret) (by decide)
  have hline := hplain '\n' (by decide) (fun c hc => (hs c hc).line) (by decide)
  have hrows : ∀ rows : List (List Int), (∀ r ∈ rows, r ≠ []) → splitAt' '\n' (universal (rows.flatMap numbersLine)) =
      (rows.map fun r => ((r.map intChars).intersperse [',']).flatten) ++ [[]] := by
    intro rows
    induction rows with
    | nil => intro _; rfl
    | cons r rows ih =>
      intro h
      obtain ⟨h1, h2, -⟩ := numbers_line r (h r (by simp))
      rw [List.flatMap_cons, numbersLine, universal_end _ _ h1, splitAt_first _ h2, ih fun x hx => h x (List.mem_cons_of_mem _ hx)]
      rfl
  rw [exchangeLog, List.nil_append, universal_append_plain _ hret]
  have : universal ('\n' :: rows.flatMap numbersLine) = '\n' :: universal (rows.flatMap numbersLine) := by
    rw [universal.eq_def]
    simp
  rw [this, splitAt_first _ hline, hrows rows hr]
  rfl

/-! ### The geography of the micro model -/

theorem toOption_bind {α β : Type} (x : Except Err α) (f : α → Except Err β) : (x >>= f).toOption = x.toOption.bind fun a => (f a).toOption := by
  cases x <;> rfl

theorem toOption_foldlM {α β : Type} {f g : β → α → Except Err β} : ∀ (l : List α) (b : β), (∀ a ∈ l, ∀ b, (f b a).toOption = (g b a).toOption) →
    (l.foldlM f b).toOption = (l.foldlM g b).toOption
  | [], b, _ => rfl
  | a :: l, b, h => by
    rw [List.foldlM_cons, List.foldlM_cons, toOption_bind, toOption_bind, h a (by simp)]
    congr 1
    funext b'
    exact toOption_foldlM l b' fun x hx => h x (List.mem_cons_of_mem _ hx)

theorem microPop_eq (n : Numerals) (scale : ℚ) (s : String) : (microPop n scale s).toOption = (popOf n scale s).toOption := by
  unfold microPop popOf Numerals.parseInt
  split
  · rfl
  · cases n.int s with
    | none => rfl
    | some k => rfl

theorem intensity_plain (n : Numerals) (ty : String) : intensityOf n ty [] = .ok 1 := by
  unfold intensityOf
  split <;> rfl

/-- A row of the documented layout is stored as the row of the older layout is by the reader of the micro model. -/
theorem microLocation_eq (c : Cfg) (n : Numerals) (scale : ℚ) (cols : Option (List String)) (oid : Nat) (e : Eco)
    {name region country x y ty date pop home : String} (hh : countryOf country = home) (hc : ¬ (hasSub "conflict" ty = true ∧ hasSub "camp" ty = true)) :
    (storeMicroLocation c n scale oid e (olderLayout [name, region, country, x, y, ty, date, pop])).toOption =
      (storeLocation c n scale cols home oid e [name, region, country, x, y, ty, date, pop]).toOption := by
  subst hh
  have h1 : ∀ s, (microPop n scale s).toOption = (popOf n scale s).toOption := microPop_eq n scale
  have hty : ∀ t, storedType n ty date = .ok t → hasSub "camp" t = hasSub "camp" ty := by
    intro t ht
    unfold storedType at ht
    split at ht
    · rename_i hx
      simp only [Except.bind_eq_ok, Except.pure_eq_ok] at ht
      obtain ⟨d, -, rfl⟩ := ht
      have hcamp : hasSub "camp" ty = false := by
        cases hz : hasSub "camp" ty with
        | false => rfl
        | true => exact absurd ⟨hx, hz⟩ hc
      split
      · rw [hcamp]; decide +kernel
      · rfl
    · cases ht; rfl
  simp only [storeMicroLocation, storeLocation, olderLayout, cell, List.getElem?_cons_zero, List.getElem?_cons_succ, pure_bind, toOption_bind,
    h1, rowAttrs, List.length_cons, List.length_nil]
  simp only [show ∀ s : String, (Except.ok s : Except Err String).toOption = some s from fun _ => rfl, Option.bind_some]
  congr 1
  funext p
  congr 1
  funext x'
  congr 1
  funext y'
  cases hst : storedType n ty date with
  | error err => rfl
  | ok t =>
    simp only [show ∀ s : String, (Except.ok s : Except Err String).toOption = some s from fun _ => rfl, Option.bind_some]
    simp only [show ¬ (8 < 0 + 1 + 1 + 1 + 1 + 1 + 1 + 1 + 1) by omega, if_false,
      show (Except.ok [] : Except Err Attrs).toOption = some [] from rfl, Option.bind_some, intensity_plain,
      show ∀ s : ℚ, (Except.ok s : Except Err ℚ).toOption = some s from fun _ => rfl]
    unfold locArgs
    rw [hty t hst]
    congr 2
    split <;> simp

theorem microLocations_eq (c : Cfg) (n : Numerals) (scale : ℚ) (g : Geo) (home : String) (ids : Nat → Nat) (hm : g.majorRoutes = []) :
    ∀ (rows : List Row) (k : Nat) (e : Eco), (∀ r ∈ rows, r.length = 8 ∧ (∀ s, r[2]? = some s → countryOf s = home) ∧
      ∀ s, r[5]? = some s → ¬ (hasSub "conflict" s = true ∧ hasSub "camp" s = true)) →
    (storeMicroLocations c n scale ids k e (rows.map olderLayout)).toOption = (storeLocations c n scale g home ids k e rows).toOption
  | [], k, e, _ => rfl
  | r :: rows, k, e, h => by
    obtain ⟨h1, h2, h3⟩ := h r (by simp)
    obtain ⟨name, region, country, x, y, ty, date, pop, rfl⟩ : ∃ a b c d e f g h, r = [a, b, c, d, e, f, g, h] := by
      match r, h1 with
      | [a, b, c, d, e, f, g, h], _ => exact ⟨a, b, c, d, e, f, g, h, rfl⟩
    have h2 := h2 country rfl
    have h3 := h3 ty rfl
    rw [List.map_cons, storeMicroLocations, storeLocations, toOption_bind]
    simp only [hm, storeMajor]
    rw [toOption_bind, microLocation_eq c n scale g.columns (ids k) e h2 h3]
    congr 1
    funext e'
    exact microLocations_eq c n scale g home ids hm rows (k + 1) e' fun x hx => h x (List.mem_cons_of_mem _ hx)

theorem microLink_eq (c : Cfg) (n : Numerals) (cols : Option (List String)) (e : Eco) {a b d f ty : String} (hf : f ≠ "") :
    storeMicroLink c n e [a, b, d, f, ty] = storeLink c n cols e [a, b, d, f] := by
  have hl : ¬ f.length = 0 := fun h => hf (by simpa using h)
  simp [storeMicroLink, storeLink, cell, rowAttrs, numAttr, flagOf, hl]
  rfl

theorem addNames_flags {w : World} {o i : Bool} : ∀ (ns : List String) (cs : List Coupled), ∀ c ∈ ns.foldl (addName w o i) cs,
    c ∈ cs ∨ c.hasOut = o ∧ c.hasIn = i
  | [], cs, c, hc => .inl hc
  | n :: ns, cs, c, hc => by
    rw [List.foldl_cons] at hc
    rcases addNames_flags ns _ c hc with h | h
    · unfold addName at h
      split at h
      · exact .inl h
      · rcases List.mem_append.1 h with h | h
        · exact .inl h
        · rw [List.mem_singleton] at h
          exact .inr ⟨by rw [h], by rw [h]⟩
    · exact .inr h

/-- All coupled locations of the macro model send agents. -/
theorem setUpMacro_sends {w : World} {file : Bool} {g : Geo} {ns : List String} {cs : List Coupled} (h : setUpMacro w file g ns = .ok cs) :
    ∀ c ∈ cs, c.hasOut = true ∨ c.hasIn = true := by
  classical
  simp only [setUpMacro, Except.bind_eq_ok, Except.pure_eq_ok] at h
  obtain ⟨cs0, h0, names', h1, rfl⟩ := h
  intro c hc
  rcases coupleNamed_eq (w := w) ns [] with ⟨h3, -⟩ | ⟨h3, -⟩
  swap
  · rw [h3] at h0; cases h0
  rw [h3] at h0
  cases h0
  rw [addGhosts_eq] at hc
  rcases addNames_flags _ _ c hc with h | h
  · rcases addNames_flags _ _ c h with h | h
    · simp at h
    · exact .inl h.1
  · exact .inl h.1

end Flee
