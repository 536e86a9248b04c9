import Mathlib.Data.List.Nodup
import Verif.Lemmas.Validation
import Verif.Model.ReadLogs
import Verif.Spec.ReadLogs

/-!
Properties of the drawing of logs of coupled models: C235.
-/

namespace Flee

open Spec

/-- C235: after a coupled run, the numbers of agents that are drawn for each location that sends agents are the logged ones. -/
def C235_claim : Prop :=
  ∀ {cs : List Coupled} {days : List Int} {nums : Counts}, nums ≠ [] → days ≠ [] →
    ∃ curves, plotLocations cs (logsOf cs days nums) = .ok (days, curves) ∧
      ∀ c, Sends cs c → (c.name, historyOf days nums c.loc) ∈ curves

/-- After a run of a single day nothing is ever drawn. -/
theorem C235_short {cs : List Coupled} {days : List Int} {nums : Counts} (hn : nums ≠ []) (hd : days.length ≤ 1) :
    plotLocations cs (logsOf cs days nums) = .error .indexError := by
  cases nums with
  | nil => exact absurd rfl hn
  | cons num nums =>
    match days, hd with
    | [], _ => rfl
    | [t], _ => rfl

example : ([fun _ _ => 3] : Counts) ≠ [] ∧ ([4] : List Int).length ≤ 1 := by decide

/-- A run in which no location sends agents has a log with days only, and nothing is drawn. -/
theorem C235_silent {cs : List Coupled} {days : List Int} {nums : Counts} (hn : nums ≠ []) (h : ∀ c ∈ cs, c.hasOut = false) :
    plotLocations cs (logsOf cs days nums) = .error .indexError := by
  have hf : cs.filter (·.hasOut) = [] := by
    rw [List.filter_eq_nil_iff]
    intro c hc
    simp [h c hc]
  cases nums with
  | nil => exact absurd rfl hn
  | cons num nums =>
    match days with
    | [] => rfl
    | [t] => rfl
    | t :: u :: rest =>
      have hl : loadLog ((t :: u :: rest).map fun t => exchangeRow cs t (num t)) = .error .indexError := by
        simp only [List.map_cons, loadLog, exchangeRow, hf, List.map_nil, List.length_cons, List.length_nil]
        rw [if_neg (by simp), if_pos (by omega)]
      unfold plotLocations readLogs
      simp only [logsOf, List.map_cons, List.mapM_cons]
      simp only [List.map_cons] at hl
      rw [hl]
      rfl

private def placeNamed (s : String) (i : Nat) (o : Bool) : Coupled := { name := s.toList, loc := i, locName := s, hasOut := o, hasIn := true }

example : ([fun _ _ => 3] : Counts) ≠ [] ∧ ∀ c ∈ [placeNamed "A" 0 false], c.hasOut = false := by decide

theorem C235_false : ¬ C235_claim := by
  intro h
  obtain ⟨curves, hc, -⟩ := h (cs := [placeNamed "A" 0 true]) (days := [0]) (nums := [fun _ _ => 3]) (by simp) (by simp)
  rw [C235_short (by simp) (by simp)] at hc
  exact nomatch hc

/-- Also in longer runs: a location that is coupled twice has two columns and one heading, so that the next location is drawn with
its numbers. -/
theorem C235_twice_false :
    ¬ ∀ {cs : List Coupled} {days : List Int} {nums : Counts}, nums ≠ [] → 2 ≤ days.length → (∃ c, Sends cs c) →
      ∃ curves, plotLocations cs (logsOf cs days nums) = .ok (days, curves) ∧
        ∀ c, Sends cs c → (c.name, historyOf days nums c.loc) ∈ curves := by
  intro h
  obtain ⟨curves, hc, h'⟩ := h (cs := [placeNamed "A" 0 true, placeNamed "A" 0 true, placeNamed "B" 1 true]) (days := [0, 1])
    (nums := [fun _ i => i]) (by simp) (by simp) ⟨placeNamed "A" 0 true, by simp [Sends, placeNamed]⟩
  have e : plotLocations [placeNamed "A" 0 true, placeNamed "A" 0 true, placeNamed "B" 1 true]
      (logsOf [placeNamed "A" 0 true, placeNamed "A" 0 true, placeNamed "B" 1 true] [0, 1] [fun _ i => i]) =
      .ok ([0, 1], [("A".toList, [[0, 0]]), ("B".toList, [[0, 0]])]) := by decide +kernel
  rw [e] at hc
  cases (Prod.mk.inj (Except.ok.inj hc)).2
  exact absurd (h' (placeNamed "B" 1 true) (by simp [Sends, placeNamed])) (by decide +kernel)

private theorem loadLog_logs {cs : List Coupled} {days : List Int} {num : Int → Nat → Int} (hd : 2 ≤ days.length) (hs : ∃ c, Sends cs c) :
    loadLog (days.map fun t => exchangeRow cs t (num t)) = .ok (days.map fun t => exchangeRow cs t (num t)) := by
  have hlen : ∀ t, (exchangeRow cs t (num t)).length = (cs.filter (·.hasOut)).length + 1 := fun t => by simp [exchangeRow]
  have hpos : 0 < (cs.filter (·.hasOut)).length := by
    obtain ⟨c, hc, ho⟩ := hs
    exact List.length_pos_of_mem (List.mem_filter.2 ⟨hc, ho⟩)
  match days, hd with
  | t :: u :: rest, _ =>
    simp only [List.map_cons, loadLog, hlen]
    rw [if_neg, if_neg (by omega)]
    simp only [List.any_cons, hlen, bne_self_eq_false, Bool.false_or, List.any_map, List.any_eq_true, Function.comp]
    rintro ⟨x, -, hx⟩
    exact absurd hx (by simp)

private theorem logColumn_logs {cs : List Coupled} {c : Coupled} {j : Nat} {num : Int → Nat → Int}
    (hj : (cs.filter (·.hasOut))[j]? = some c) :
    ∀ days : List Int, logColumn j (days.map fun t => exchangeRow cs t (num t)) = .ok (days.map fun t => num t c.loc)
  | [] => rfl
  | t :: days => by
    have ih := logColumn_logs (num := num) hj days
    unfold logColumn at ih ⊢
    simp only [List.map_cons, List.mapM_cons, ih]
    simp [exchangeRow, hj]
    rfl

private theorem mapM_map_ok {α β γ : Type} {f : β → Except Err γ} {g : α → β} {k : α → γ} :
    ∀ {l : List α}, (∀ a ∈ l, f (g a) = .ok (k a)) → (l.map g).mapM f = .ok (l.map k)
  | [], _ => rfl
  | a :: l, h => by
    rw [List.map_cons, List.mapM_cons, h a (by simp), mapM_map_ok (l := l) fun x hx => h x (by simp [hx])]
    rfl

private theorem eraseDups_nodup {α : Type} [BEq α] [LawfulBEq α] : ∀ {l : List α}, l.Nodup → l.eraseDups = l
  | [], _ => rfl
  | a :: l, h => by
    have hf : l.filter (fun b => !b == a) = l := by
      rw [List.filter_eq_self]
      intro b hb
      have : b ≠ a := fun e => (List.nodup_cons.1 h).1 (e ▸ hb)
      simpa using this
    rw [List.eraseDups_cons, hf, eraseDups_nodup (List.nodup_cons.1 h).2]

/-- The numbers are drawn if the run has at least two days, some location sends agents and no two of them have the same name: then the
days and, in the order of coupling, each such location with the numbers of all instances are drawn, and nothing else. Missing from the full
claim: runs of one day, and locations coupled twice. -/
theorem C235_partial {cs : List Coupled} {days : List Int} {nums : Counts} (hn : nums ≠ []) (hd : 2 ≤ days.length)
    (hs : ∃ c, Sends cs c) (hdist : ((cs.filter (·.hasOut)).map (·.name)).Nodup) :
    ∃ curves, plotLocations cs (logsOf cs days nums) = .ok (days, curves) ∧
      (∀ c, Sends cs c → (c.name, historyOf days nums c.loc) ∈ curves) ∧
      ∀ x ∈ curves, ∃ c, Sends cs c ∧ x = (c.name, historyOf days nums c.loc) := by
  have h1 : (logsOf cs days nums).mapM loadLog = .ok (logsOf cs days nums) := mapM_map_ok fun num _ => loadLog_logs hd hs
  have h2 : (plotHeader cs).eraseDups = plotHeader cs := eraseDups_nodup hdist
  have h3 : (plotHeader cs).zipIdx = (cs.filter (·.hasOut)).zipIdx.map fun x => (x.1.name, x.2) := by
    rw [plotHeader, List.zipIdx_map]
    rfl
  have h4 : ((plotHeader cs).zipIdx.mapM fun x => (do
      let cs' ← (logsOf cs days nums).mapM (logColumn x.2)
      return (x.1, cs') : Except Err (List Char × List (List Int)))) =
      .ok ((cs.filter (·.hasOut)).zipIdx.map fun x => (x.1.name, historyOf days nums x.1.loc)) := by
    rw [h3]
    refine mapM_map_ok fun x hx => ?_
    have hj : (cs.filter (·.hasOut))[x.2]? = some x.1 := List.mem_zipIdx_iff_getElem?.1 hx
    have := mapM_map_ok (f := logColumn x.2) (g := fun num : Int → Nat → Int => days.map fun t => exchangeRow cs t (num t))
      (k := fun num => days.map fun t => num t x.1.loc) (l := nums) fun num _ => logColumn_logs hj days
    simp only [logsOf, this]
    rfl
  refine ⟨(cs.filter (·.hasOut)).zipIdx.map fun x => (x.1.name, historyOf days nums x.1.loc), ?_, fun c hc => ?_, fun x hx => ?_⟩
  · unfold plotLocations readLogs
    rw [h1, h2]
    simp only [Except.bind_eq_ok, Except.pure_eq_ok]
    refine ⟨_, rfl, _, h4, ?_⟩
    cases nums with
    | nil => exact absurd rfl hn
    | cons num nums => simp [logsOf, exchangeRow, Function.comp_def]
  · obtain ⟨j, hj⟩ := List.getElem?_of_mem ((List.mem_filter (p := (·.hasOut))).2 ⟨hc.1, hc.2⟩)
    exact List.mem_map.2 ⟨(c, j), List.mem_zipIdx_iff_getElem?.2 hj, rfl⟩
  · obtain ⟨y, hy, rfl⟩ := List.mem_map.1 hx
    have hm := List.mem_filter.1 (List.mem_of_getElem? (List.mem_zipIdx_iff_getElem?.1 hy))
    exact ⟨y.1, ⟨hm.1, hm.2⟩, rfl⟩

example : ([fun _ _ => 3, fun t i => t + i] : Counts) ≠ [] ∧ 2 ≤ ([0, 1, 2] : List Int).length ∧
    (∃ c, Sends [placeNamed "A" 0 true, placeNamed "C" 2 false, placeNamed "B" 1 true] c) ∧
    (([placeNamed "A" 0 true, placeNamed "C" 2 false, placeNamed "B" 1 true].filter (·.hasOut)).map (·.name)).Nodup :=
  ⟨by simp, by decide, ⟨placeNamed "A" 0 true, by simp [Sends, placeNamed]⟩, by decide⟩

end Flee
