import Mathlib.Data.DFinsupp.WellFounded
import Verif.Lemmas.Step
import Verif.Spec.Protocol

/-!
Lemmas on coupled models that exchange files.
-/

namespace Flee

open Spec

variable {σ : Type} {x : Coupling σ}

theorem setInst_same (s : Sys σ) (b : Bool) (i : Nat) (p : Instance σ) : (s.setInst b i p).inst b i = p := by simp [Sys.setInst]

theorem setInst_other {s : Sys σ} {b b' : Bool} {i i' : Nat} {p : Instance σ} (h : ¬ (b' = b ∧ i' = i)) :
    (s.setInst b i p).inst b' i' = s.inst b' i' := by simp [Sys.setInst, h]

theorem setInst_file (s : Sys σ) (b : Bool) (i : Nat) (p : Instance σ) : (s.setInst b i p).file = s.file := rfl

theorem setFile_inst (s : Sys σ) (b : Bool) (i t : Nat) (text : List Char) : (s.setFile b i t text).inst = s.inst := rfl

theorem setFile_same (s : Sys σ) (b : Bool) (i t : Nat) (text : List Char) : (s.setFile b i t text).file b i t = some text := by
  simp [Sys.setFile]

theorem setFile_other {s : Sys σ} {b b' : Bool} {i i' t t' : Nat} {text : List Char} (h : ¬ (b' = b ∧ i' = i ∧ t' = t)) :
    (s.setFile b i t text).file b' i' t' = s.file b' i' t' := by simp [Sys.setFile, h]

/-- What a step does to the instance that takes it and to its file. -/
inductive Effect (x : Coupling σ) (s : Sys σ) (b : Bool) (i : Nat) : Instance σ → Option (List Char) → Prop
  | opened (h : (s.inst b i).stage = .opening) :
      Effect x s b i { s.inst b i with stage := .writing (x.send b i (s.inst b i).day (s.inst b i).state) }
        (some ((s.file b i (s.inst b i).day).getD []))
  | closed (h : (s.inst b i).stage = .writing []) : Effect x s b i { s.inst b i with stage := .waiting } (s.file b i (s.inst b i).day)
  | wrote {ch : Char} {rest : List Char} (k : Nat) (h : (s.inst b i).stage = .writing (ch :: rest)) :
      Effect x s b i { s.inst b i with stage := .writing ((ch :: rest).drop (k + 1)) }
        (some ((s.file b i (s.inst b i).day).getD [] ++ (ch :: rest).take (k + 1)))
  | waited (h : (s.inst b i).stage = .waiting) (hf : ∀ j < x.n, (s.file (!b) j (s.inst b i).day).isSome) :
      Effect x s b i { s.inst b i with stage := .reading [] } (s.file b i (s.inst b i).day)
  | read {got : List (List Char)} (h : (s.inst b i).stage = .reading got) (hl : got.length < x.n) :
      Effect x s b i { s.inst b i with stage := .reading (got ++ [(s.file (!b) got.length (s.inst b i).day).getD []]) }
        (s.file b i (s.inst b i).day)
  | took {got : List (List Char)} {st : σ} (h : (s.inst b i).stage = .reading got) (hl : ¬ got.length < x.n)
      (hr : x.recv b i (s.inst b i).day (s.inst b i).state got = .ok st) :
      Effect x s b i { day := (s.inst b i).day + 1, stage := .opening, state := st } (s.file b i (s.inst b i).day)
  | failed {got : List (List Char)} {e : Err} (h : (s.inst b i).stage = .reading got) (hl : ¬ got.length < x.n)
      (hr : x.recv b i (s.inst b i).day (s.inst b i).state got = .error e) :
      Effect x s b i { s.inst b i with stage := .failed } (s.file b i (s.inst b i).day)

/-- A step changes one instance and at most one file. -/
theorem step_effect {s s' : Sys σ} {b : Bool} {i k : Nat} (h : x.step s b i k = some s') :
    i < x.n ∧ (s.inst b i).day < x.days ∧ Effect x s b i (s'.inst b i) (s'.file b i (s.inst b i).day) ∧
      (∀ b' i', ¬ (b' = b ∧ i' = i) → s'.inst b' i' = s.inst b' i') ∧
      ∀ b' i' t, ¬ (b' = b ∧ i' = i ∧ t = (s.inst b i).day) → s'.file b' i' t = s.file b' i' t := by
  unfold Coupling.step at h
  dsimp only at h
  split at h
  case isFalse => exact nomatch h
  rename_i hc
  refine ⟨hc.1, hc.2, ?_⟩
  split at h
  · rename_i hs
    cases h
    rw [setInst_same, setInst_file, setFile_same]
    exact ⟨.opened hs, fun b' i' hn => setInst_other hn, fun b' i' t hn => setFile_other hn⟩
  · rename_i hs
    cases h
    rw [setInst_same, setInst_file]
    exact ⟨.closed hs, fun b' i' hn => setInst_other hn, fun b' i' t hn => rfl⟩
  · rename_i ch rest hs
    cases h
    rw [setInst_same, setInst_file, setFile_same]
    exact ⟨.wrote k hs, fun b' i' hn => setInst_other hn, fun b' i' t hn => setFile_other hn⟩
  · rename_i hs
    split at h
    case isFalse => exact nomatch h
    rename_i hf
    cases h
    rw [setInst_same, setInst_file]
    refine ⟨.waited hs fun j hj => ?_, fun b' i' hn => setInst_other hn, fun b' i' t hn => rfl⟩
    exact List.all_eq_true.1 hf j (List.mem_range.2 hj)
  · rename_i got hs
    split at h
    · rename_i hl
      cases h
      rw [setInst_same, setInst_file]
      exact ⟨.read hs hl, fun b' i' hn => setInst_other hn, fun b' i' t hn => rfl⟩
    · rename_i hl
      split at h
      · rename_i st hr
        cases h
        rw [setInst_same, setInst_file]
        exact ⟨.took hs hl hr, fun b' i' hn => setInst_other hn, fun b' i' t hn => rfl⟩
      · rename_i e hr
        cases h
        rw [setInst_same, setInst_file]
        exact ⟨.failed hs hl hr, fun b' i' hn => setInst_other hn, fun b' i' t hn => rfl⟩
  · exact nomatch h

/-- An instance that has not finished, has not failed and does not wait can do something. -/
theorem step_enabled {s : Sys σ} {b : Bool} {i : Nat} (hi : i < x.n) (hd : (s.inst b i).day < x.days)
    (hf : (s.inst b i).stage ≠ .failed) (hw : (s.inst b i).stage = .waiting → ∀ j < x.n, (s.file (!b) j (s.inst b i).day).isSome) :
    (x.step s b i 0).isSome := by
  unfold Coupling.step
  dsimp only
  rw [if_pos ⟨hi, hd⟩]
  split
  · rfl
  · rfl
  · rfl
  · rename_i hs
    rw [if_pos]
    · rfl
    · exact List.all_eq_true.2 fun j hj => hw hs j (List.mem_range.1 hj)
  · split
    · rfl
    · split <;> rfl
  · rename_i hs
    exact absurd hs hf

/-- Has the file of a day been opened? -/
def Opened (s : Sys σ) (b : Bool) (i t : Nat) : Prop := t < (s.inst b i).day ∨ t = (s.inst b i).day ∧ (s.inst b i).stage ≠ .opening

theorem effect_opened {s s' : Sys σ} {b : Bool} {i k : Nat} (h : x.step s b i k = some s') {b' : Bool} {i' t : Nat}
    (ho : Opened s b' i' t) : Opened s' b' i' t := by
  obtain ⟨-, -, he, ho', -⟩ := step_effect h
  by_cases hb : b' = b ∧ i' = i
  · obtain ⟨rfl, rfl⟩ := hb
    unfold Opened at ho ⊢
    generalize hp : s'.inst b' i' = p at he
    generalize s'.file b' i' (s.inst b' i').day = f at he
    cases he with
    | opened hs => exact ho.imp id fun h => ⟨h.1, nofun⟩
    | closed hs => exact ho.imp id fun h => ⟨h.1, nofun⟩
    | wrote k hs => exact ho.imp id fun h => ⟨h.1, nofun⟩
    | waited hs hf => exact ho.imp id fun h => ⟨h.1, nofun⟩
    | read hs hl => exact ho.imp id fun h => ⟨h.1, nofun⟩
    | took hs hl hr => left; dsimp only; omega
    | failed hs hl hr => exact ho.imp id fun h => ⟨h.1, nofun⟩
  · unfold Opened
    rw [ho' _ _ hb]
    exact ho

theorem effect_file {s s' : Sys σ} {b : Bool} {i k : Nat} (h : x.step s b i k = some s') {b' : Bool} {i' t : Nat}
    (hf : (s.file b' i' t).isSome) : (s'.file b' i' t).isSome := by
  obtain ⟨-, -, he, -, ho⟩ := step_effect h
  by_cases hb : b' = b ∧ i' = i ∧ t = (s.inst b i).day
  · obtain ⟨rfl, rfl, rfl⟩ := hb
    generalize s'.inst b' i' = p at he
    generalize hg : s'.file b' i' (s.inst b' i').day = f at he
    cases he <;> first | rfl | exact hf
  · rw [ho _ _ _ hb]
    exact hf

/-- What holds in every state, whatever files were left. -/
structure Linked (x : Coupling σ) (s : Sys σ) : Prop where
  bound : ∀ b i, (s.inst b i).day ≤ x.days
  opened : ∀ b i t, Opened s b i t → (s.file b i t).isSome
  reading : ∀ b i got, (s.inst b i).stage = .reading got → ∀ j < x.n, (s.file (!b) j (s.inst b i).day).isSome
  met : ∀ b i t, i < x.n → t < (s.inst b i).day → ∀ j < x.n, (s.file (!b) j t).isSome
  within : ∀ b i got, (s.inst b i).stage = .reading got → got.length ≤ x.n

theorem linked_step {s s' : Sys σ} {b : Bool} {i k : Nat} (hi : Linked x s) (h : x.step s b i k = some s') : Linked x s' := by
  have hfile := @effect_file _ x s s' b i k h
  obtain ⟨hn, hd, he, ho, hof⟩ := step_effect h
  constructor
  · intro b' i'
    by_cases hb : b' = b ∧ i' = i
    · obtain ⟨rfl, rfl⟩ := hb
      generalize s'.inst b' i' = p at he
      generalize s'.file b' i' (s.inst b' i').day = f at he
      cases he <;> dsimp only <;> omega
    · rw [ho _ _ hb]
      exact hi.bound b' i'
  · intro b' i' t hop
    by_cases hb : b' = b ∧ i' = i
    · obtain ⟨rfl, rfl⟩ := hb
      unfold Opened at hop
      have key : t ≠ (s.inst b' i').day → t < (s'.inst b' i').day → t < (s.inst b' i').day := by
        generalize s'.inst b' i' = p at he
        generalize s'.file b' i' (s.inst b' i').day = f at he
        cases he <;> dsimp only <;> omega
      have key2 : (s'.inst b' i').day = t → t ≠ (s.inst b' i').day → (s'.inst b' i').stage = .opening := by
        generalize s'.inst b' i' = p at he
        generalize s'.file b' i' (s.inst b' i').day = f at he
        cases he <;> dsimp only <;> first | exact fun h h' => absurd h.symm h' | exact fun _ _ => rfl
      by_cases ht : t = (s.inst b' i').day
      · subst ht
        have key3 : (s.inst b' i').stage = .opening → (s'.file b' i' (s.inst b' i').day).isSome := by
          intro hs
          generalize s'.inst b' i' = p at he
          generalize s'.file b' i' (s.inst b' i').day = f at he
          cases he <;> first | rfl | simp_all
        by_cases hs : (s.inst b' i').stage = .opening
        · exact key3 hs
        · exact hfile (hi.opened _ _ _ (.inr ⟨rfl, hs⟩))
      · refine hfile (hi.opened _ _ _ (.inl ?_))
        rcases hop with hop | ⟨hop, hs⟩
        · exact key ht hop
        · exact absurd (key2 hop.symm ht) hs
    · refine hfile (hi.opened _ _ _ ?_)
      unfold Opened at hop ⊢
      rwa [ho _ _ hb] at hop
  · intro b' i' got hs j hj
    apply hfile
    by_cases hb : b' = b ∧ i' = i
    · obtain ⟨rfl, rfl⟩ := hb
      revert hs
      generalize s'.inst b' i' = p at he
      generalize s'.file b' i' (s.inst b' i').day = f at he
      cases he with
      | opened h => exact fun h => nomatch h
      | closed h => exact fun h => nomatch h
      | wrote k h => exact fun h => nomatch h
      | waited h hf => exact fun _ => hf j hj
      | read h hl => exact fun _ => hi.reading _ _ _ h j hj
      | took h hl hr => exact fun h => nomatch h
      | failed h hl hr => exact fun h => nomatch h
    · rw [ho _ _ hb] at hs ⊢
      exact hi.reading _ _ _ hs j hj
  · intro b' i' t hn' ht j hj
    apply hfile
    by_cases hb : b' = b ∧ i' = i
    · obtain ⟨rfl, rfl⟩ := hb
      revert ht
      generalize s'.inst b' i' = p at he
      generalize s'.file b' i' (s.inst b' i').day = f at he
      cases he with
      | opened h => exact fun ht => hi.met _ _ _ hn ht j hj
      | closed h => exact fun ht => hi.met _ _ _ hn ht j hj
      | wrote k h => exact fun ht => hi.met _ _ _ hn ht j hj
      | waited h hf => exact fun ht => hi.met _ _ _ hn ht j hj
      | read h hl => exact fun ht => hi.met _ _ _ hn ht j hj
      | took h hl hr =>
        intro ht
        dsimp only at ht
        by_cases hlt : t < (s.inst b' i').day
        · exact hi.met _ _ _ hn hlt j hj
        · obtain rfl : t = (s.inst b' i').day := by omega
          exact hi.reading _ _ _ h j hj
      | failed h hl hr => exact fun ht => hi.met _ _ _ hn ht j hj
    · rw [ho _ _ hb] at ht
      exact hi.met _ _ _ hn' ht j hj
  · intro b' i' got hs
    by_cases hb : b' = b ∧ i' = i
    · obtain ⟨rfl, rfl⟩ := hb
      revert hs
      generalize s'.inst b' i' = p at he
      generalize s'.file b' i' (s.inst b' i').day = f at he
      cases he with
      | opened h => exact fun h => nomatch h
      | closed h => exact fun h => nomatch h
      | wrote k h => exact fun h => nomatch h
      | waited h hf => intro h; cases h; simp
      | read h hl => intro h; cases h; simp; omega
      | took h hl hr => exact fun h => nomatch h
      | failed h hl hr => exact fun h => nomatch h
    · rw [ho _ _ hb] at hs
      exact hi.within _ _ _ hs

theorem evolves_linked {start : Bool → Nat → σ} {old : Bool → Nat → Nat → Option (List Char)} {s : Sys σ}
    (h : Evolves x (Sys.init start old) s) : Linked x s := by
  induction h with
  | start =>
    refine ⟨fun _ _ => Nat.zero_le _, fun b i t h => ?_, fun b i got h => (nomatch h), fun b i t _ h => absurd h (Nat.not_lt_zero _),
      fun b i got h => (nomatch h)⟩
    rcases h with h | ⟨-, h⟩
    · exact absurd h (Nat.not_lt_zero _)
    · exact absurd rfl h
  | step _ hs ih => exact linked_step ih hs

/-- An unfinished instance of least day is not stuck. -/
theorem stuck_finished {s : Sys σ} (hi : Linked x s) (hs : Halted x s) (hf : ∀ b, ∀ i < x.n, (s.inst b i).stage ≠ .failed) :
    ∀ b, ∀ i < x.n, (s.inst b i).day = x.days := by
  have key : ∀ t b i, i < x.n → (s.inst b i).day = t → ¬ t < x.days := by
    intro t
    induction t using Nat.strong_induction_on with
    | _ t ih =>
      intro b i hn ht hlt
      have hne := step_enabled (s := s) (b := b) hn (ht ▸ hlt) (hf b i hn)
      rw [hs] at hne
      have hw : ¬ ((s.inst b i).stage = .waiting → ∀ j < x.n, (s.file (!b) j (s.inst b i).day).isSome) := fun h => by
        simpa using hne h
      push Not at hw
      obtain ⟨hw, j, hj, hfile⟩ := hw
      have hno : ¬ Opened s (!b) j (s.inst b i).day := fun h => hfile (hi.opened _ _ _ h)
      unfold Opened at hno
      push Not at hno
      obtain ⟨h1, h2⟩ := hno
      rw [ht] at h1 h2
      rcases Nat.lt_or_eq_of_le h1 with h1 | h1
      · exact ih _ h1 (!b) j hj rfl (by omega)
      · have hop := h2 h1.symm
        have := step_enabled (s := s) (b := !b) hj (h1 ▸ hlt) (hf _ j hj) (fun h => by rw [hop] at h; exact nomatch h)
        rw [hs] at this
        exact absurd this (by simp)
  intro b i hn
  have := key _ b i hn rfl
  have := hi.bound b i
  omega

/-! ### Executions end -/

/-- How much an instance still has to do. -/
def toDo (x : Coupling σ) (p : Instance σ) : Nat × Nat × Nat :=
  (x.days - p.day, match p.stage with
    | .opening => (3, 0)
    | .writing rest => (2, rest.length + 1)
    | .waiting => (2, 0)
    | .reading got => (1, x.n - got.length)
    | .failed => (0, 0))

/-- The order of what is still to do. -/
abbrev lessToDo : Nat × Nat × Nat → Nat × Nat × Nat → Prop := Prod.Lex (· < ·) (Prod.Lex (· < ·) (· < ·))

theorem lessToDo_wf : WellFounded lessToDo :=
  (WellFounded.prod_lex Nat.lt_wfRel.wf (WellFounded.prod_lex Nat.lt_wfRel.wf Nat.lt_wfRel.wf))

theorem effect_less {s s' : Sys σ} {b : Bool} {i k : Nat} (h : x.step s b i k = some s') :
    lessToDo (toDo x (s'.inst b i)) (toDo x (s.inst b i)) := by
  obtain ⟨hn, hd, he, -, -⟩ := step_effect h
  generalize s'.inst b i = p at he
  generalize s'.file b i (s.inst b i).day = f at he
  cases he with
  | opened h => simp only [toDo, h]; exact .right _ (.left _ _ (by omega))
  | closed h => simp only [toDo, h]; exact .right _ (.right _ (by simp))
  | wrote k h => simp only [toDo, h]; exact .right _ (.right _ (by simp; omega))
  | waited h hf => simp only [toDo, h]; exact .right _ (.left _ _ (by omega))
  | read h hl => simp only [toDo, h]; exact .right _ (.right _ (by simp; omega))
  | took h hl hr => simp only [toDo, h]; exact .left _ _ (by omega)
  | failed h hl hr => simp only [toDo, h]; exact .right _ (.left _ _ (by omega))

/-- What all instances still have to do. -/
def allToDo (x : Coupling σ) (s : Sys σ) (k : Fin (2 * x.n)) : Nat × Nat × Nat := toDo x (s.inst (decide (k.val % 2 = 1)) (k.val / 2))

theorem step_less {s s' : Sys σ} {b : Bool} {i k : Nat} (h : x.step s b i k = some s') :
    Pi.Lex (· < ·) (fun {_} => lessToDo) (allToDo x s') (allToDo x s) := by
  obtain ⟨hn, -, -, ho, -⟩ := step_effect h
  have hk : 2 * i + b.toNat < 2 * x.n := by cases b <;> simp <;> omega
  refine ⟨⟨2 * i + b.toNat, hk⟩, fun j hj => ?_, ?_⟩
  · unfold allToDo
    rw [ho]
    rintro ⟨h1, h2⟩
    have : j.val < 2 * i + b.toNat := hj
    cases b <;> simp at h1 this <;> omega
  · have e1 : decide ((2 * i + b.toNat) % 2 = 1) = b := by
      cases b
      · simp
      · simp
    have e2 : (2 * i + b.toNat) / 2 = i := by cases b <;> simp <;> omega
    unfold allToDo
    simp only [e1, e2]
    exact effect_less h

theorem steps_wf (x : Coupling σ) : WellFounded fun s' s : Sys σ => ∃ b i k, x.step s b i k = some s' := by
  have : WellFounded (Pi.Lex (· < ·) (fun {_ : Fin (2 * x.n)} => lessToDo)) := Pi.Lex.wellFounded _ fun _ => lessToDo_wf
  exact Subrelation.wf (fun ⟨b, i, k, h⟩ => step_less h) (InvImage.wf (allToDo x) this)

/-! ### What the files contain -/

theorem inStep_unique {start : Bool → Nat → σ} {t : Nat} {b : Bool} {i : Nat} {st st' : σ} (h : InStep x start t b i st)
    (h' : InStep x start t b i st') : st = st' := by
  induction h generalizing st' with
  | start b i => cases h'; rfl
  | @day t b i st st₁ others h1 ho hr ih1 iho =>
    cases h' with
    | @day _ _ _ _ _ others' h1' ho' hr' =>
      cases ih1 h1'
      have : ((List.range x.n).map fun j => x.send (!b) j t (others j)) = (List.range x.n).map fun j => x.send (!b) j t (others' j) :=
        List.map_congr_left fun j hj => by rw [iho j (List.mem_range.1 hj) (ho' j (List.mem_range.1 hj))]
      rw [this] at hr
      rw [hr] at hr'
      exact Except.ok.inj hr'

/-- What holds in every state if there were no files of these days in the directory and no file is read while it is written. -/
structure Exchanged (x : Coupling σ) (start : Bool → Nat → σ) (s : Sys σ) : Prop where
  state : ∀ b, ∀ i < x.n, InStep x start (s.inst b i).day b i (s.inst b i).state
  sent : ∀ b, ∀ i < x.n, ∀ t < (s.inst b i).day, ∃ st, InStep x start t b i st ∧ s.file b i t = some (x.send b i t st)
  writing : ∀ b, ∀ i < x.n, ∀ rest, (s.inst b i).stage = .writing rest →
    ∃ done, x.send b i (s.inst b i).day (s.inst b i).state = done ++ rest ∧ s.file b i (s.inst b i).day = some done
  wrote : ∀ b, ∀ i < x.n, (s.inst b i).stage ≠ .opening → (∀ rest, (s.inst b i).stage ≠ .writing rest) →
    s.file b i (s.inst b i).day = some (x.send b i (s.inst b i).day (s.inst b i).state)
  absent : ∀ b, ∀ i < x.n, ∀ t < x.days, ¬ Opened s b i t → s.file b i t = none
  got : ∀ b, ∀ i < x.n, ∀ got, (s.inst b i).stage = .reading got → ∀ m < got.length,
    ∃ st, InStep x start (s.inst b i).day (!b) m st ∧ got[m]? = some (x.send (!b) m (s.inst b i).day st)

/-- A file that is there and is not being written is whole. -/
theorem Exchanged.whole {start : Bool → Nat → σ} {s : Sys σ} (hx : Exchanged x start s) {b : Bool} {i t : Nat} (hi : i < x.n) (ht : t < x.days)
    (hf : (s.file b i t).isSome) (hw : ¬ BeingWritten s b i t) : ∃ st, InStep x start t b i st ∧ s.file b i t = some (x.send b i t st) := by
  by_cases ho : Opened s b i t
  · rcases ho with ho | ⟨rfl, ho⟩
    · exact hx.sent b i hi t ho
    · exact ⟨_, hx.state b i hi, hx.wrote b i hi ho fun rest hr => hw ⟨rfl, rest, hr⟩⟩
  · rw [hx.absent b i hi t ht ho] at hf
    exact nomatch hf

theorem exchanged_step {start : Bool → Nat → σ} {s s' : Sys σ} {b : Bool} {i k : Nat} (hl : Linked x s) (hx : Exchanged x start s)
    (h : x.step s b i k = some s')
    (ha : ∀ got, (s.inst b i).stage = .reading got → ¬ BeingWritten s (!b) got.length (s.inst b i).day) : Exchanged x start s' := by
  have hop := @effect_opened _ x s s' b i k h
  obtain ⟨hn, hd, he, ho, hof⟩ := step_effect h
  constructor
  · intro b' i' hi'
    by_cases hb : b' = b ∧ i' = i
    · obtain ⟨rfl, rfl⟩ := hb
      have h0 := hx.state b' i' hi'
      have hg := hx.got b' i' hi'
      generalize s'.inst b' i' = p at he
      generalize s'.file b' i' (s.inst b' i').day = f at he
      cases he with
      | opened h => exact h0
      | closed h => exact h0
      | wrote k h => exact h0
      | waited h hf => exact h0
      | read h hl => exact h0
      | failed h hl hr => exact h0
      | @took got st h hlen hr =>
        have hlen' : got.length = x.n := by
          have := hl.within _ _ _ h
          omega
        have hg' : ∀ m, ∃ st, m < x.n → InStep x start (s.inst b' i').day (!b') m st ∧ got[m]? = some (x.send (!b') m (s.inst b' i').day st) := by
          intro m
          by_cases hm : m < x.n
          · obtain ⟨st, hst⟩ := hg got h m (by omega)
            exact ⟨st, fun _ => hst⟩
          · exact ⟨(s.inst b' i').state, fun h => absurd h hm⟩
        choose others hothers using hg'
        refine .day (others := others) h0 (fun j hj => (hothers j hj).1) ?_
        rw [← hr]
        congr 1
        refine List.ext_getElem? fun m => ?_
        by_cases hm : m < x.n
        · rw [(hothers m hm).2]
          simp [hm]
        · rw [List.getElem?_eq_none (by simpa using hm), List.getElem?_eq_none (by omega)]
    · rw [ho _ _ hb]
      exact hx.state b' i' hi'
  · intro b' i' hi' t ht
    by_cases hb : b' = b ∧ i' = i
    · obtain ⟨rfl, rfl⟩ := hb
      by_cases htd : t = (s.inst b' i').day
      · subst htd
        have h0 := hx.state b' i' hi'
        have hw := hx.wrote b' i' hi'
        revert ht
        generalize s'.inst b' i' = p at he
        generalize hf : s'.file b' i' (s.inst b' i').day = f at he
        cases he with
        | took h hlen hr => exact fun _ => ⟨_, h0, hw (by rw [h]; exact nofun) (by rw [h]; exact nofun)⟩
        | _ => exact fun h => absurd h (Nat.lt_irrefl _)
      · rw [hof _ _ _ fun h => htd h.2.2]
        refine hx.sent b' i' hi' t ?_
        generalize s'.inst b' i' = p at he ht
        generalize s'.file b' i' (s.inst b' i').day = f at he
        cases he <;> dsimp only at ht <;> omega
    · rw [ho _ _ hb] at ht
      rw [hof _ _ _ fun h => hb ⟨h.1, h.2.1⟩]
      exact hx.sent b' i' hi' t ht
  · intro b' i' hi' rest hs
    by_cases hb : b' = b ∧ i' = i
    · obtain ⟨rfl, rfl⟩ := hb
      have hab := hx.absent b' i' hi' _ hd
      have hwr := hx.writing b' i' hi'
      have hday : (s'.inst b' i').day = (s.inst b' i').day := by
        generalize s'.inst b' i' = p at he hs
        generalize s'.file b' i' (s.inst b' i').day = f at he
        cases he <;> first | rfl | exact nomatch hs
      rw [hday]
      generalize s'.inst b' i' = p at he hs hday
      generalize hf : s'.file b' i' (s.inst b' i').day = f at he
      cases he with
      | opened h =>
        cases hs
        refine ⟨[], rfl, ?_⟩
        rw [hab]
        · rfl
        · rintro (h' | ⟨-, h'⟩)
          · exact absurd h' (Nat.lt_irrefl _)
          · exact h' h
      | @wrote ch tl k h =>
        cases hs
        obtain ⟨done, hsend, hfile⟩ := hwr _ h
        refine ⟨done ++ (ch :: tl).take (k + 1), ?_, by rw [hfile]; rfl⟩
        rw [List.append_assoc, List.take_append_drop]
        exact hsend
      | closed h => exact nomatch hs
      | waited h hf => exact nomatch hs
      | read h hl => exact nomatch hs
      | took h hl hr => exact nomatch hs
      | failed h hl hr => exact nomatch hs
    · rw [ho _ _ hb] at hs ⊢
      rw [hof _ _ _ fun h => hb ⟨h.1, h.2.1⟩]
      exact hx.writing b' i' hi' rest hs
  · intro b' i' hi' hs hs'
    by_cases hb : b' = b ∧ i' = i
    · obtain ⟨rfl, rfl⟩ := hb
      have hwr := hx.writing b' i' hi'
      have hwt := hx.wrote b' i' hi'
      have hday : (s'.inst b' i').day = (s.inst b' i').day := by
        generalize s'.inst b' i' = p at he hs
        generalize s'.file b' i' (s.inst b' i').day = f at he
        cases he <;> first | rfl | exact absurd rfl hs
      rw [hday]
      generalize s'.inst b' i' = p at he hs hs' hday
      generalize hf : s'.file b' i' (s.inst b' i').day = f at he
      cases he with
      | opened h => exact absurd rfl (hs' _)
      | wrote k h => exact absurd rfl (hs' _)
      | closed h =>
        obtain ⟨done, hsend, hfile⟩ := hwr _ h
        rw [hfile, hsend, List.append_nil]
      | waited h hf => exact hwt (by rw [h]; exact nofun) (by rw [h]; exact nofun)
      | read h hl => exact hwt (by rw [h]; exact nofun) (by rw [h]; exact nofun)
      | took h hl hr => exact absurd rfl hs
      | failed h hl hr => exact hwt (by rw [h]; exact nofun) (by rw [h]; exact nofun)
    · rw [ho _ _ hb] at hs hs' ⊢
      rw [hof _ _ _ fun h => hb ⟨h.1, h.2.1⟩]
      exact hx.wrote b' i' hi' hs hs'
  · intro b' i' hi' t ht hno
    have hno' : ¬ Opened s b' i' t := fun h => hno (hop h)
    by_cases hb : b' = b ∧ i' = i ∧ t = (s.inst b i).day
    · obtain ⟨rfl, rfl, rfl⟩ := hb
      have := hx.absent b' i' hi' _ ht hno'
      revert hno
      unfold Opened
      generalize s'.inst b' i' = p at he
      generalize hf : s'.file b' i' (s.inst b' i').day = f at he
      cases he with
      | opened h => exact fun h => absurd (.inr ⟨rfl, nofun⟩) h
      | wrote k h => exact fun h => absurd (.inr ⟨rfl, nofun⟩) h
      | _ => exact fun _ => this
    · rw [hof _ _ _ hb]
      exact hx.absent b' i' hi' t ht hno'
  · intro b' i' hi' got hs m hm
    by_cases hb : b' = b ∧ i' = i
    · obtain ⟨rfl, rfl⟩ := hb
      have hg := hx.got b' i' hi'
      have hlk := hl.reading b' i'
      generalize s'.inst b' i' = p at he hs
      generalize s'.file b' i' (s.inst b' i').day = f at he
      cases he with
      | opened h => exact nomatch hs
      | wrote k h => exact nomatch hs
      | closed h => exact nomatch hs
      | waited h hf => cases hs; exact absurd hm (Nat.not_lt_zero _)
      | @read got' h hlen =>
        cases hs
        by_cases hm' : m < got'.length
        · rw [List.getElem?_append_left hm']
          exact hg _ h m hm'
        · obtain rfl : m = got'.length := by simp at hm; omega
          obtain ⟨st, hst, hfile⟩ := hx.whole hlen hd (hlk _ h _ hlen) (ha _ h)
          exact ⟨st, hst, by rw [hfile]; simp⟩
      | took h hl hr => exact nomatch hs
      | failed h hl hr => exact nomatch hs
    · rw [ho _ _ hb] at hs ⊢
      exact hx.got b' i' hi' got hs m hm

theorem evolvesApart_evolves {s₀ s : Sys σ} (h : EvolvesApart x s₀ s) : Evolves x s₀ s := by
  induction h with
  | start => exact .start
  | step _ hs _ ih => exact .step ih hs

theorem evolvesApart_exchanged {start : Bool → Nat → σ} {old : Bool → Nat → Nat → Option (List Char)} {s : Sys σ}
    (hold : ∀ b, ∀ i < x.n, ∀ t < x.days, old b i t = none) (h : EvolvesApart x (Sys.init start old) s) : Exchanged x start s := by
  induction h with
  | start =>
    exact ⟨fun b i _ => .start b i, fun b i _ t ht => absurd ht (Nat.not_lt_zero _), fun b i _ rest h => (nomatch h),
      fun b i _ h => absurd rfl h, fun b i hi t ht _ => hold b i hi t ht, fun b i _ got h => (nomatch h)⟩
  | step hr hs ha ih => exact exchanged_step (evolves_linked (evolvesApart_evolves hr)) ih hs ha

/-! ### Days apart -/

theorem evolves_absent {start : Bool → Nat → σ} {old : Bool → Nat → Nat → Option (List Char)} {s : Sys σ}
    (hold : ∀ b, ∀ i < x.n, ∀ t < x.days, old b i t = none) (h : Evolves x (Sys.init start old) s) :
    ∀ b, ∀ i < x.n, ∀ t < x.days, (s.file b i t).isSome → Opened s b i t := by
  induction h with
  | start =>
    intro b i hi t ht hf
    rw [show (Sys.init start old).file b i t = none from hold b i hi t ht] at hf
    exact nomatch hf
  | @step s s' b i k hr hs ih =>
    intro b' i' hi' t ht hf
    by_cases ho : Opened s b' i' t
    · exact effect_opened hs ho
    · have hno : ¬ (s.file b' i' t).isSome := fun h => ho (ih b' i' hi' t ht h)
      obtain ⟨hn, hd, he, -, hof⟩ := step_effect hs
      by_cases hb : b' = b ∧ i' = i ∧ t = (s.inst b i).day
      · obtain ⟨rfl, rfl, rfl⟩ := hb
        unfold Opened
        generalize s'.inst b' i' = p at he
        generalize s'.file b' i' (s.inst b' i').day = f at he hf
        cases he with
        | opened h => exact .inr ⟨rfl, nofun⟩
        | wrote k h => exact .inr ⟨rfl, nofun⟩
        | _ => exact absurd hf hno
      · rw [hof _ _ _ hb] at hf
        exact absurd hf hno

theorem evolves_near {start : Bool → Nat → σ} {s : Sys σ} (h : Evolves x (Sys.init start noFiles) s) {b : Bool} {i j : Nat} (hi : i < x.n)
    (hj : j < x.n) : (s.inst b i).day ≤ (s.inst (!b) j).day + 1 := by
  have hl := evolves_linked h
  rcases Nat.eq_zero_or_pos (s.inst b i).day with h0 | h0
  · omega
  · have hb := hl.bound b i
    have := evolves_absent (fun _ _ _ _ _ => rfl) h (!b) j hj ((s.inst b i).day - 1) (by omega) (hl.met b i _ hi (by omega) j hj)
    rcases this with this | this <;> omega

/-! ### Lists of turns -/

theorem turns_evolves {s₀ s : Sys σ} (ts : List (Bool × Nat × Nat)) (h : Evolves x s₀ s) : Evolves x s₀ (x.turns s ts) := by
  induction ts generalizing s with
  | nil => exact h
  | cons t ts ih =>
    refine ih (s := (x.step s t.1 t.2.1 t.2.2).getD s) ?_
    cases hs : x.step s t.1 t.2.1 t.2.2 with
    | none => exact h
    | some s' => exact .step h hs

/-- Does the next step of an instance read a file that is being written? -/
def clash (s : Sys σ) (b : Bool) (i : Nat) : Bool :=
  match (s.inst b i).stage with
  | .reading got => match (s.inst (!b) got.length).stage with
    | .writing _ => (s.inst (!b) got.length).day == (s.inst b i).day
    | _ => false
  | _ => false

/-- Is no file read while it is written? -/
def noClash (x : Coupling σ) (s : Sys σ) : List (Bool × Nat × Nat) → Bool
  | [] => true
  | t :: ts => !clash s t.1 t.2.1 && noClash x ((x.step s t.1 t.2.1 t.2.2).getD s) ts

theorem turns_apart {s₀ s : Sys σ} {ts : List (Bool × Nat × Nat)} (h : EvolvesApart x s₀ s) (hc : noClash x s ts = true) :
    EvolvesApart x s₀ (x.turns s ts) := by
  induction ts generalizing s with
  | nil => exact h
  | cons t ts ih =>
    simp only [noClash, Bool.and_eq_true, Bool.not_eq_true'] at hc
    refine ih (s := (x.step s t.1 t.2.1 t.2.2).getD s) ?_ hc.2
    cases hs : x.step s t.1 t.2.1 t.2.2 with
    | none => exact h
    | some s' =>
      refine .step h hs fun got hg => ?_
      rintro ⟨hd, rest, hr⟩
      have := hc.1
      simp only [clash, hg, hr, hd, beq_self_eq_true] at this
      exact nomatch this

theorem halted_of {s : Sys σ} (h : ∀ b, ∀ i < x.n, (s.inst b i).stage = .failed ∨ x.days ≤ (s.inst b i).day ∨
    (s.inst b i).stage = .waiting ∧ ∃ j < x.n, s.file (!b) j (s.inst b i).day = none) : Halted x s := by
  intro b i k
  cases hs : x.step s b i k with
  | none => rfl
  | some s' =>
    obtain ⟨hn, hd, he, -, -⟩ := step_effect hs
    exfalso
    rcases h b i hn with hf | hf | ⟨hf, j, hj, hf'⟩
    · generalize s'.inst b i = p at he
      generalize s'.file b i (s.inst b i).day = f at he
      cases he <;> simp_all
    · omega
    · generalize s'.inst b i = p at he
      generalize s'.file b i (s.inst b i).day = f at he
      cases he with
      | waited h hall => have := hall j hj; rw [hf'] at this; exact nomatch this
      | _ => simp_all

end Flee
