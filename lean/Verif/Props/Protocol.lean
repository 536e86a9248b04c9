import Verif.Lemmas.Protocol
import Verif.Props.Coupling

/-!
What can happen when coupled models exchange files at any speed, C175 to C178. The coupling is `fileCoupling`; the instances take steps in
any order.
-/

namespace Flee

open Spec

/-- Town A is coupled in both directions. -/
def bothWays : List Coupled := [{ name := "A".toList, loc := 0, locName := "A", hasOut := true, hasIn := true }]

/-- As `bothWays`, and town B takes agents in. -/
def alsoB : List Coupled := bothWays ++ [{ name := "B".toList, loc := 1, locName := "B", hasOut := false, hasIn := true }]

/-- The rest of the day does nothing. -/
def idle : Bool → Nat → Eco → Except Err Eco := fun _ _ e => .ok e

/-- A whole day of an instance if it does not have to wait, with `n` instances of the other model. -/
def wholeDay (n : Nat) (b : Bool) (i : Nat) : List (Bool × Nat × Nat) := List.replicate (5 + n) (b, i, 99)

/-- Two towns and `n` agents in the first. -/
def townsWith (n : Nat) : List Op := Sample.twoTowns.dropLast ++ List.replicate n (.addAgent 0 [])

/-! ### C175: waiting -/

/-- The full claim of C175: when nothing more can happen, every instance has finished or failed; none waits for files for ever. -/
def C175_claim : Prop :=
  ∀ (cfg : Cfg) (n days : Nat) (cs : Bool → List Coupled) (day : Bool → Nat → Eco → Except Err Eco) (draws : Bool → Nat → Nat → ℚ)
    (start : Bool → Nat → Eco) (s : Sys Eco), (∀ b i, Reach cfg (draws b i) (start b i)) →
    Evolves (fileCoupling cfg n days cs day) (Sys.init start noFiles) s → Halted (fileCoupling cfg n days cs day) s →
    ∀ b, ∀ i < n, (s.inst b i).day = days ∨ (s.inst b i).stage = .failed

/-- A run in which the other model sends nothing for town B. -/
def unmatchedRun (e : Eco) : Sys Eco :=
  (fileCoupling {} 1 2 (fun b => if b then alsoB else bothWays) idle).turns (Sys.init (fun _ _ => e) noFiles)
    (wholeDay 1 true 0 ++ wholeDay 1 false 0 ++ wholeDay 1 true 0 ++ wholeDay 1 false 0)

/-- C175 is false of the code: if an instance ends by an exception, here because the other model sends nothing for one of its locations,
its partner waits for the file of the next day for ever. -/
theorem C175_waits_false : ¬ C175_claim := by
  intro h
  obtain ⟨e, he, h1, h2, h3, h4⟩ := (show Sample.Ends {} Sample.zeros Sample.twoTowns (fun e =>
    ((unmatchedRun e).inst true 0).stage = .failed ∧ ((unmatchedRun e).inst false 0).stage = .waiting ∧
    ((unmatchedRun e).inst false 0).day = 1 ∧ (unmatchedRun e).file true 0 1 = none) by
      decide +kernel).reach (P := fun _ => True) fun _ _ => trivial
  have hev : Evolves (fileCoupling {} 1 2 (fun b => if b then alsoB else bothWays) idle) (Sys.init (fun _ _ => e) noFiles) (unmatchedRun e) :=
    turns_evolves _ .start
  generalize unmatchedRun e = s at *
  have hh : Halted (fileCoupling {} 1 2 (fun b => if b then alsoB else bothWays) idle) s := halted_of fun b i hi => by
    obtain rfl : i = 0 := by simpa [fileCoupling] using hi
    cases b
    · exact .inr (.inr ⟨h2, 0, by decide, by rw [h3]; exact h4⟩)
    · exact .inl h1
  rcases h _ _ _ _ _ _ _ _ (fun _ _ => he) hev hh false 0 (by decide) with this | this
  · rw [h3] at this; omega
  · rw [h2] at this; exact nomatch this

/-- C175 as far as it holds: if no instance has failed, nothing more can happen only when all instances have finished, whatever files
were in the directory and whatever the instances compute. Missing from the full claim: instances that wait for an instance that failed
(`C175_waits_false`). -/
theorem C175_no_deadlock_partial {σ : Type} {x : Coupling σ} {start : Bool → Nat → σ} {old : Bool → Nat → Nat → Option (List Char)} {s : Sys σ}
    (h : Evolves x (Sys.init start old) s) (hs : Halted x s) (hf : ∀ b, ∀ i < x.n, (s.inst b i).stage ≠ .failed) :
    ∀ b, ∀ i < x.n, (s.inst b i).day = x.days := stuck_finished (evolves_linked h) hs hf

/-- C175, steps: there is no infinite sequence of steps. -/
theorem C175_ends {σ : Type} (x : Coupling σ) (f : Nat → Sys σ) : ¬ ∀ m, ∃ b i k, x.step (f m) b i k = some (f (m + 1)) := by
  intro h
  have := (steps_wf x).has_min (Set.range f) ⟨_, 0, rfl⟩
  obtain ⟨_, ⟨m, rfl⟩, hm⟩ := this
  exact hm _ ⟨m + 1, rfl⟩ (h m)

/-- Two instances finish one day. -/
example : ∃ e, Reach {} Sample.zeros e ∧
    let s := (fileCoupling {} 1 1 (fun _ => bothWays) idle).turns (Sys.init (fun _ _ => e) noFiles)
      (wholeDay 1 true 0 ++ wholeDay 1 false 0 ++ wholeDay 1 true 0)
    ((s.inst true 0).day, (s.inst false 0).day) = (1, 1) := by
  obtain ⟨e, he, h⟩ := (show Sample.Ends {} Sample.zeros Sample.twoTowns (fun e =>
    let s := (fileCoupling {} 1 1 (fun _ => bothWays) idle).turns (Sys.init (fun _ _ => e) noFiles)
      (wholeDay 1 true 0 ++ wholeDay 1 false 0 ++ wholeDay 1 true 0)
    ((s.inst true 0).day, (s.inst false 0).day) = (1, 1)) by decide +kernel).reach (P := fun _ => True) fun _ _ => trivial
  exact ⟨e, he, h⟩

/-! ### C176: days apart -/

/-- The full claim of C176: the days of two instances never differ by more than one. -/
def C176_claim : Prop :=
  ∀ (cfg : Cfg) (n days : Nat) (cs : Bool → List Coupled) (day : Bool → Nat → Eco → Except Err Eco) (draws : Bool → Nat → Nat → ℚ)
    (start : Bool → Nat → Eco) (s : Sys Eco), (∀ b i, Reach cfg (draws b i) (start b i)) →
    Evolves (fileCoupling cfg n days cs day) (Sys.init start noFiles) s →
    ∀ b b', ∀ i < n, ∀ j < n, (s.inst b i).day ≤ (s.inst b' j).day + 1

/-- A run in which instance 1 of one model has written its file of the first day and then does nothing more. -/
def slowRun (e : Eco) : Sys Eco :=
  (fileCoupling {} 2 2 (fun _ => bothWays) idle).turns (Sys.init (fun _ _ => e) noFiles)
    ([(true, 1, 0), (true, 1, 99), (true, 1, 99)] ++ wholeDay 2 true 0 ++ wholeDay 2 false 0 ++ wholeDay 2 false 1 ++ wholeDay 2 true 0 ++
      wholeDay 2 true 0 ++ wholeDay 2 false 0 ++ wholeDay 2 false 1 ++ wholeDay 2 true 0)

/-- C176 is false of the code: one instance can be two days ahead of another instance of the same model. -/
theorem C176_two_days_false : ¬ C176_claim := by
  intro h
  obtain ⟨e, he, h1, h2⟩ := (show Sample.Ends {} Sample.zeros Sample.twoTowns (fun e =>
    ((slowRun e).inst true 0).day = 2 ∧ ((slowRun e).inst true 1).day = 0) by
      decide +kernel).reach (P := fun _ => True) fun _ _ => trivial
  have hev : Evolves (fileCoupling {} 2 2 (fun _ => bothWays) idle) (Sys.init (fun _ _ => e) noFiles) (slowRun e) := turns_evolves _ .start
  have := h _ _ _ _ _ _ _ _ (fun _ _ => he) hev true true 0 (by decide) 1 (by decide)
  rw [h1, h2] at this
  omega

/-- C176 as far as it holds: instances of different models are at most one day apart, instances of the same model at most two, if there
were no files in the directory. Missing from the full claim: two days for instances of one model (`C176_two_days_false`). -/
theorem C176_days_apart_partial {σ : Type} {x : Coupling σ} {start : Bool → Nat → σ} {s : Sys σ} (h : Evolves x (Sys.init start noFiles) s)
    {b : Bool} {i j : Nat} (hi : i < x.n) (hj : j < x.n) :
    (s.inst b i).day ≤ (s.inst (!b) j).day + 1 ∧ (s.inst b i).day ≤ (s.inst b j).day + 2 := by
  have h1 := evolves_near h (b := b) hi hj
  have h2 := evolves_near h (b := b) hi hi
  have h3 := evolves_near h (b := !b) hi hj
  rw [Bool.not_not] at h3
  exact ⟨h1, by omega⟩

/-! ### C177: timing -/

/-- The full claim of C177: what instances compute does not depend on their speed: at the beginning of each day the state of an instance is the
one it has if all instances exchange whole messages of the same day. -/
def C177_claim : Prop :=
  ∀ (cfg : Cfg) (n days : Nat) (cs : Bool → List Coupled) (day : Bool → Nat → Eco → Except Err Eco) (draws : Bool → Nat → Nat → ℚ)
    (start : Bool → Nat → Eco) (s : Sys Eco), (∀ b i, Reach cfg (draws b i) (start b i)) →
    Evolves (fileCoupling cfg n days cs day) (Sys.init start noFiles) s →
    ∀ b, ∀ i < n, InStep (fileCoupling cfg n days cs day) start (s.inst b i).day b i (s.inst b i).state

/-- The state in step after one day, with one instance on each side. -/
theorem inStep_one {σ : Type} {x : Coupling σ} (hn : x.n = 1) {start : Bool → Nat → σ} {b : Bool} {st st' : σ} (h : InStep x start 1 b 0 st)
    (hr : x.recv b 0 0 (start b 0) [x.send (!b) 0 0 (start (!b) 0)] = .ok st') : st = st' := by
  refine inStep_unique h (.day (others := start (!b)) (.start b 0) (fun j _ => .start _ j) ?_)
  rw [hn]
  exact hr

/-- One instance on each side, for a day. -/
def onePair : Coupling Eco := fileCoupling {} 1 1 (fun _ => bothWays) idle

/-- A run in which the file is read when three of its characters are written. -/
def hastyRun (e : Eco) : Sys Eco := onePair.turns (Sys.init (fun _ _ => e) noFiles) ([(true, 0, 0), (true, 0, 2)] ++ wholeDay 1 false 0)

/-- C177 is false of the code: the reader waits only until the file exists, not until it is complete; of the text "A,12" it may see "A,1"
and take in one agent instead of twelve. -/
theorem C177_half_file_false : ¬ C177_claim := by
  intro h
  obtain ⟨e, he, h1, h2, h3⟩ := (show Sample.Ends {} Sample.zeros (townsWith 12) (fun e =>
    ((hastyRun e).inst false 0).day = 1 ∧ ((hastyRun e).inst false 0).state.agents.length = 1 ∧
    (onePair.recv false 0 0 e [onePair.send true 0 0 e]).toOption.map (·.agents.length) = some 12) by
      decide +kernel).reach (P := fun _ => True) fun _ _ => trivial
  obtain ⟨e', h4, h5⟩ := Option.map_eq_some_iff.1 h3
  have hev : Evolves onePair (Sys.init (fun _ _ => e) noFiles) (hastyRun e) := turns_evolves _ .start
  have := h _ _ _ _ _ _ _ _ (fun _ _ => he) hev false 0 (by decide)
  rw [h1] at this
  rw [inStep_one rfl this (Sample.of_toOption h4), h5] at h2
  omega

/-- C177 as far as it holds: if no file is read while it is being written and there were no files in the directory, the state of an instance
at the beginning of a day is the one it has if all instances exchange whole messages of the same day. Missing from the full claim: files
that are read too early (`C177_half_file_false`). -/
theorem C177_in_step_partial {σ : Type} {x : Coupling σ} {start : Bool → Nat → σ} {s : Sys σ} (h : EvolvesApart x (Sys.init start noFiles) s)
    {b : Bool} {i : Nat} (hi : i < x.n) : InStep x start (s.inst b i).day b i (s.inst b i).state :=
  (evolvesApart_exchanged (fun _ _ _ _ _ => rfl) h).state b i hi

/-- C177, the same for two executions: instances on the same day have the same state. Missing from the full claim: files that are read too
early (`C177_half_file_false`). -/
theorem C177_any_speed_partial {σ : Type} {x : Coupling σ} {start : Bool → Nat → σ} {s s' : Sys σ}
    (h : EvolvesApart x (Sys.init start noFiles) s) (h' : EvolvesApart x (Sys.init start noFiles) s') {b : Bool} {i : Nat} (hi : i < x.n)
    (hd : (s.inst b i).day = (s'.inst b i).day) : (s.inst b i).state = (s'.inst b i).state := by
  have h1 := C177_in_step_partial h (b := b) hi
  rw [hd] at h1
  exact inStep_unique h1 (C177_in_step_partial h' hi)

/-- C177 for one instance of each model: on the same day, their states are those of two simulations that exchange agents every day as in C61.
Missing from the full claim: files that are read too early (`C177_half_file_false`). -/
theorem C177_one_pair_partial {cfg : Cfg} {days : Nat} {cs : Bool → List Coupled} {day : Bool → Nat → Eco → Except Err Eco}
    {start : Bool → Nat → Eco} {s : Sys Eco} (h : EvolvesApart (fileCoupling cfg 1 days cs day) (Sys.init start noFiles) s)
    (hd : (s.inst true 0).day = (s.inst false 0).day) :
    Together cfg (cs true) (cs false) (day true) (day false) (start true 0) (start false 0) (s.inst true 0).day (s.inst true 0).state
      (s.inst false 0).state := by
  have key : ∀ t a b, InStep (fileCoupling cfg 1 days cs day) start t true 0 a → InStep (fileCoupling cfg 1 days cs day) start t false 0 b →
      Together cfg (cs true) (cs false) (day true) (day false) (start true 0) (start false 0) t a b := by
    intro t
    induction t with
    | zero => intro a b ha hb; cases ha; cases hb; exact .start
    | succ t ih =>
      intro a b ha hb
      cases ha with | day ha1 ha2 ha3 =>
      cases hb with | day hb1 hb2 hb3 =>
      have e1 := inStep_unique (ha2 0 Nat.one_pos) hb1
      have e2 := inStep_unique (hb2 0 Nat.one_pos) ha1
      simp only [fileCoupling, List.range_one, List.map_cons, List.map_nil, Bool.not_true, Bool.not_false, Except.bind_eq_ok] at ha3 hb3
      obtain ⟨dA, rA, a1, cA, yA⟩ := ha3
      obtain ⟨dB, rB, b1, cB, yB⟩ := hb3
      rw [e1] at rA
      rw [e2] at rB
      refine .day (ih _ _ ha1 hb1) ?_ yA yB
      simp only [exchange, writeOutput, List.nil_append, Except.bind_eq_ok]
      exact ⟨dA, rA, a1, cA, dB, rB, b1, cB, rfl⟩
  exact key _ _ _ (C177_in_step_partial h Nat.one_pos) (hd ▸ C177_in_step_partial h Nat.one_pos)

/-- Twelve agents arrive if the file is written before it is read. -/
example : ∃ e s, Reach {} Sample.zeros e ∧ EvolvesApart (fileCoupling {} 1 1 (fun _ => bothWays) idle) (Sys.init (fun _ _ => e) noFiles) s ∧
    (s.inst false 0).day = 1 ∧ (s.inst false 0).state.agents.length = 12 := by
  obtain ⟨e, he, h1, h2, h3⟩ := (show Sample.Ends {} Sample.zeros (townsWith 12) (fun e =>
    let x := fileCoupling {} 1 1 (fun _ => bothWays) idle
    let ts := [(true, 0, 0), (true, 0, 2), (true, 0, 99), (true, 0, 0)] ++ wholeDay 1 false 0
    let s := x.turns (Sys.init (fun _ _ => e) noFiles) ts
    noClash x (Sys.init (fun _ _ => e) noFiles) ts = true ∧ (s.inst false 0).day = 1 ∧ (s.inst false 0).state.agents.length = 12) by
      decide +kernel).reach (P := fun _ => True) fun _ _ => trivial
  exact ⟨e, _, he, turns_apart .start h1, h2, h3⟩

/-! ### C178: files of an earlier run -/

/-- The full claim of C178: files that an earlier run left in the directory have no influence, if no file is read while it is being written. -/
def C178_claim : Prop :=
  ∀ (cfg : Cfg) (n days : Nat) (cs : Bool → List Coupled) (day : Bool → Nat → Eco → Except Err Eco) (draws : Bool → Nat → Nat → ℚ)
    (start : Bool → Nat → Eco) (old : Bool → Nat → Nat → Option (List Char)) (s : Sys Eco), (∀ b i, Reach cfg (draws b i) (start b i)) →
    EvolvesApart (fileCoupling cfg n days cs day) (Sys.init start old) s →
    ∀ b, ∀ i < n, InStep (fileCoupling cfg n days cs day) start (s.inst b i).day b i (s.inst b i).state

/-- The other model left a file of the first day. -/
def leftFile : Bool → Nat → Nat → Option (List Char) := fun b i t => if b = true ∧ i = 0 ∧ t = 0 then some "A,5\n".toList else none

/-- A run of one instance before the other one starts. -/
def earlyRun (e : Eco) : Sys Eco := onePair.turns (Sys.init (fun _ _ => e) leftFile) (wholeDay 1 false 0)

/-- C178 is false of the code: an instance that starts first finds the old file, does not wait, and takes in five agents instead of one. -/
theorem C178_old_file_false : ¬ C178_claim := by
  intro h
  obtain ⟨e, he, h1, h2, h3, h4⟩ := (show Sample.Ends {} Sample.zeros Sample.twoTowns (fun e =>
    noClash onePair (Sys.init (fun _ _ => e) leftFile) (wholeDay 1 false 0) = true ∧
    ((earlyRun e).inst false 0).day = 1 ∧ ((earlyRun e).inst false 0).state.agents.length = 5 ∧
    (onePair.recv false 0 0 e [onePair.send true 0 0 e]).toOption.map (·.agents.length) = some 1) by
      decide +kernel).reach (P := fun _ => True) fun _ _ => trivial
  obtain ⟨e', h5, h6⟩ := Option.map_eq_some_iff.1 h4
  have hev : EvolvesApart onePair (Sys.init (fun _ _ => e) leftFile) (earlyRun e) := turns_apart .start h1
  have := h _ _ _ _ _ _ _ _ _ (fun _ _ => he) hev false 0 (by decide)
  rw [h2] at this
  rw [inStep_one rfl this (Sample.of_toOption h5), h6] at h3
  omega

/-- C178 as far as it holds: files of later days or of further instances have no influence. Missing from the full claim: files of the
instances and days of this run (`C178_old_file_false`). -/
theorem C178_other_files_partial {σ : Type} {x : Coupling σ} {start : Bool → Nat → σ} {old : Bool → Nat → Nat → Option (List Char)} {s : Sys σ}
    (hold : ∀ b i t, (old b i t).isSome → x.n ≤ i ∨ x.days ≤ t) (h : EvolvesApart x (Sys.init start old) s) {b : Bool} {i : Nat}
    (hi : i < x.n) : InStep x start (s.inst b i).day b i (s.inst b i).state := by
  refine (evolvesApart_exchanged (fun b i hi t ht => ?_) h).state b i hi
  cases ho : old b i t with
  | none => rfl
  | some v =>
    rcases hold b i t (by rw [ho]; rfl) with h | h <;> omega

/-- A file of the second day of an earlier run is in the directory of a run of one day. -/
example : ∃ e s, Reach {} Sample.zeros e ∧ EvolvesApart (fileCoupling {} 1 1 (fun _ => bothWays) idle)
    (Sys.init (fun _ _ => e) (fun _ _ t => if t = 1 then some "A,5\n".toList else none)) s ∧ (s.inst false 0).day = 1 ∧
    (s.inst false 0).state.agents.length = 1 := by
  obtain ⟨e, he, h1, h2, h3⟩ := (show Sample.Ends {} Sample.zeros Sample.twoTowns (fun e =>
    let x := fileCoupling {} 1 1 (fun _ => bothWays) idle
    let ts := wholeDay 1 true 0 ++ wholeDay 1 false 0
    let s₀ : Sys Eco := Sys.init (fun _ _ => e) (fun _ _ t => if t = 1 then some "A,5\n".toList else none)
    noClash x s₀ ts = true ∧ ((x.turns s₀ ts).inst false 0).day = 1 ∧ ((x.turns s₀ ts).inst false 0).state.agents.length = 1) by
      decide +kernel).reach (P := fun _ => True) fun _ _ => trivial
  exact ⟨e, _, he, turns_apart .start h1, h2, h3⟩

end Flee
