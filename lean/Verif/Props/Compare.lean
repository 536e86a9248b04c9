import Verif.Lemmas.ChangeRuns
import Verif.Lemmas.Sample

/-!
Properties that compare two runs: other names, another unit of length, other attributes (C194-C196).
-/

namespace Flee

open Spec

/-! ### C194: names are only labels -/

/-- The full claim of C194: if locations get other names, different ones for different locations, in everything that is done, the run is the
same, with the other names. -/
def C194_claim : Prop :=
  ∀ (c : Cfg) (draws : Nat → ℚ) (f : String → String) (ops : List Op), Function.Injective f → f "" = "" →
    AgreeOn (Renamed f) (outcome c draws ops) (outcome c draws (ops.map (renamedOp f)))

/-- Names A and B stay, X and the name of the road from A to B change places. -/
private def roadName (n : String) : String := if n = "X" then "L:A:B" else if n = "L:A:B" then "X" else n

private theorem roadName_injective : Function.Injective roadName := by
  intro x y h
  unfold roadName at h
  (repeat' split at h) <;> simp_all

/-- An agent on the road from A to B; then all agents at X leave the simulation. -/
private def clearX : List Op :=
  [.addLocation { name := ⟨"A", 0⟩ }, .addLocation { name := ⟨"B", 1⟩ }, .addLocation { name := ⟨"X", 2⟩ }, .linkUp "A" "B" 500 false none 0,
   .addAgent 0 [], .evolve 5, .clearLocations ["X"]]

/-- C194 is false of the code: a road has a name too, made from the names of its ends, and a location can have that name. Taking
agents out of the locations on a list then takes them from the road. -/
theorem C194_labels_false : ¬ C194_claim := by
  intro h
  have := h {} Sample.zeros roadName clearX roadName_injective (by decide)
  rw [show outcome {} Sample.zeros clearX = .error .typeError from by
      have : (outcome {} Sample.zeros clearX).toOption = none := by decide +kernel
      have h2 : (match outcome {} Sample.zeros clearX with | .error e => some e | .ok _ => none) = some .typeError := by decide +kernel
      split at h2
      · rename_i e he; rw [he, Option.some.inj h2]
      · cases h2] at this
  have h2 : (outcome {} Sample.zeros (clearX.map (renamedOp roadName))).isOk = true := by decide +kernel
  obtain ⟨e, he⟩ := Sample.isOk h2
  rw [he] at this
  exact this

/-- C194 for runs in which agents are not taken out of the locations on a list. Missing from the full claim: `clearLocationsFromAgents`,
for which it is false (`C194_labels_false`). -/
theorem C194_labels_partial (c : Cfg) (draws : Nat → ℚ) {f : String → String} (hf : Function.Injective f) (h0 : f "" = "") {ops : List Op}
    (ho : ∀ op ∈ ops, clears op = false) : AgreeOn (Renamed f) (outcome c draws ops) (outcome c draws (ops.map (renamedOp f))) := by
  refine Change.agree_map (k := (Change.names f).eco) (fun e => Change.renamed e) ?_
  have := Change.runs_eq (X := Change.names f) (c := c) (Change.names_ok hf) (fun _ => True) ops (fun o hm e _ => ?_)
    (fun _ _ _ _ _ _ => trivial) (Eco.empty draws) trivial
  · rw [Change.empty_eq h0, Change.names_cfg, List.map_congr_left fun o _ => Change.names_op f o] at this
    exact this
  · cases o with
    | evolve fuel => exact fun w _ => Change.names_fair f w
    | clearLocations ns => exact absurd (ho _ hm) (by simp [clears])
    | _ => exact trivial

/-- Two towns, a camp with a name like a town, roads that open and close, fighting, and agents. -/
private def longRun : List Op :=
  [.addLocation { name := ⟨"A", 0⟩, pop := 10 }, .addLocation { name := ⟨"B", 1⟩, country := "N" }, .addLocation { name := ⟨"C", 2⟩, ty := some "camp", capacity := 2, foreign := true },
   .linkUp "A" "B" 90 false none 0, .linkUp "B" "C" 150 true (some 100) 0, .addMajorRoute 0 ["B", "C"], .addAgent 0 [("age", "10")], .addAgent 0 [], .addConflictZone "A" 1 true, .evolve 9,
   .setClosures [{ kind := "link", source := ⟨"A", 5⟩, dest := ⟨"B", 6⟩, start := 1, stop := 3 }], .enactClosures 9 1 true, .setFloodLevels [("A", [1, 2, 3])] 1,
   .evolve 9, .closeCamp "C", .evolve 9]

private def coin (n : Nat) : ℚ := if n % 2 = 0 then 0 else 9 / 10

example : Function.Injective (fun n : String => if n = "" then "" else n ++ "ville") ∧ (∀ op ∈ longRun, clears op = false) ∧
    ((outcome { maxMoveSpeed := 70 } coin longRun).toOption.map fun e => e.agents.map (·.place)) = some [.link 0, .link 0] := by
  refine ⟨fun x y h => ?_, by decide, by decide +kernel⟩
  have app : ∀ z : String, (z ++ "ville" : String).toList = z.toList ++ "ville".toList := fun z => String.toList_append
  dsimp only at h
  split at h <;> split at h
  · simp_all
  · exact absurd (congrArg (fun s => s.toList.length) h) (by simp [app])
  · exact absurd (congrArg (fun s => s.toList.length) h) (by simp [app])
  · have := congrArg String.toList h
    rw [app, app] at this
    exact String.ext (List.append_cancel_right this)

/-! ### C195: the unit of length -/

/-- C195: in another unit of length (kilometres for miles, say) the run is the same, with all lengths in that unit. -/
theorem C195_unit {c : Cfg} (hc : NonNegWeights c) (draws : Nat → ℚ) {lam : ℚ} (hl : 0 < lam) {ops : List Op} (ho : ∀ op ∈ ops, longLinks op) :
    AgreeOn (Rescaled lam) (outcome c draws ops) (outcome (rescaledCfg lam c) draws (ops.map (rescaledOp lam))) := by
  refine Change.agree_map (k := (Change.unit c lam).eco) (fun e => Change.rescaled e) ?_
  have := Change.runs_eq (X := Change.unit c lam) (c := c) (Change.unit_ok hc hl) (fun e => Change.NoNeg e.w) ops (fun o hm e he => ?_)
    (fun o hm e e' he h => he.exec hc (ho o hm) h) (Eco.empty draws) (Change.noNeg_empty draws)
  · rw [Change.empty_eq rfl, List.map_congr_left fun o _ => Change.unit_op (c := c) lam o] at this
    exact this
  · cases o with
    | evolve fuel => exact fun w hw => (he.updateScores hc hw).allFair hc _
    | clearLocations ns => exact rfl
    | _ => exact trivial

private theorem linear : IsPower fun x : ℚ => x := ⟨fun _ _ _ => rfl, fun _ h => h, fun _ h => h⟩

/-- The usual settings satisfy the hypothesis, and so do inverse squares of distances. -/
example : NonNegWeights {} ∧ NonNegWeights { distPow := fun x => x ^ 2, flood := { enabled := true, locWeights := some [1, 1 / 2] } } := by
  have no : nonNegTable none := fun _ h => nomatch h
  have h1 : ∀ x : ℚ, 1 ≤ x → 0 ≤ x := fun x h => zero_le_one.trans h
  refine ⟨⟨linear, linear, by norm_num, le_rfl, zero_le_one, zero_le_one, fun _ => zero_le_one, h1, nofun, no, no, no⟩,
    ⟨⟨fun x y _ => mul_pow x y 2, fun x hx => pow_pos hx 2, fun x _ => sq_nonneg x⟩, linear, by norm_num, le_rfl, zero_le_one, zero_le_one,
      fun _ => zero_le_one, h1, nofun, ?_, no, no⟩⟩
  intro l h x hx
  cases h
  rcases List.mem_cons.1 hx with rfl | hx
  · norm_num
  · rw [List.mem_singleton.1 hx]; norm_num

example : (∀ op ∈ longRun, longLinks op) ∧
    ((outcome { maxMoveSpeed := 70 } coin longRun).toOption.map fun e => e.agents.map (·.travelled)) = some [180, 180] ∧
    ((outcome (rescaledCfg (8 / 5) { maxMoveSpeed := 70 }) coin (longRun.map (rescaledOp (8 / 5)))).toOption.map
      fun e => e.agents.map (·.travelled)) = some [288, 288] := by
  refine ⟨?_, by decide +kernel, by decide +kernel⟩
  intro op h
  simp only [longRun, List.mem_cons, List.not_mem_nil, or_false] at h
  rcases h with rfl | rfl | rfl | rfl | rfl | rfl | rfl | rfl | rfl | rfl | rfl | rfl | rfl | rfl | rfl | rfl <;> norm_num [longLinks]

/-! ### C196: attributes that no rule reads -/

/-- C196: what attributes agents have does not matter, apart from those that a rule that is on reads. -/
theorem C196_attributes {c : Cfg} (draws : Nat → ℚ) {g : List (String × String) → List (String × String)}
    (hg : ∀ key, readsAttr c key → ∀ at', attrIn (g at') key = attrIn at' key) (ops : List Op) :
    AgreeOn (Redressed g) (outcome c draws ops) (outcome c draws (ops.map (redressedOp g))) := by
  refine Change.agree_map (k := (Change.dress g).eco) (fun e => Change.redressed e) ?_
  have := Change.runs_eq (X := Change.dress g) (c := c) (Change.dress_ok hg) (fun _ => True) ops (fun o _ e _ => ?_)
    (fun _ _ _ _ _ _ => trivial) (Eco.empty draws) trivial
  · rw [Change.empty_eq rfl, Change.dress_cfg, List.map_congr_left fun o _ => Change.dress_op g o] at this
    exact this
  · cases o with
    | evolve fuel => exact fun w _ => Change.dress_fair g w
    | clearLocations ns => exact rfl
    | _ => exact trivial

/-- With the rule for children on, an added attribute does not matter. -/
example : (∀ key, readsAttr { childrenAvoidHazards := true } key →
      ∀ at', attrIn ((fun l => ("religion", "none") :: l) at') key = attrIn at' key) ∧
    ((outcome { childrenAvoidHazards := true, maxMoveSpeed := 90, numOf := fun _ => some 10 } Sample.zeros
      [.addLocation { name := ⟨"A", 0⟩ }, .addLocation { name := ⟨"B", 1⟩ }, .linkUp "A" "B" 500 false none 0, .addAgent 0 [("age", "10")],
       .evolve 9]).toOption.map fun e => e.agents.map (·.place)) = some [.link 0] := by
  refine ⟨fun key hk at' => ?_, by decide +kernel⟩
  rcases hk with ⟨rfl, -⟩ | ⟨-, -, h⟩ | ⟨-, h, -⟩
  · simp [attrIn]
  · exact absurd h (by decide)
  · exact absurd h (by decide)

end Flee
