import Mathlib.Data.Rat.Defs
import Mathlib.Algebra.Order.Field.Rat

/-!
Shared vocabulary of the model: errors, Python strings with identity, updates of
index-addressed stores.
-/

namespace Flee

/-- Ways in which a Python call can fail to return.
Models: exceptions raised by the interpreter, `assert`, `sys.exit()` (for example
/repo/flee/flee.py:128, 1926), and non-termination, which in the model is `fuel`. -/
inductive Err
  | exit | typeError | valueError | attributeError | nameError | keyError | indexError
  | zeroDivision | assertion | fuel | overflow | stopIteration
deriving DecidableEq, Repr

/-- A Python string object: its value and its identity.
Models: the operands of `is not` in /repo/flee/flee.py:988 and 1042, which compare
identities, whereas `==` (for example flee.py:953) compares values. -/
structure PyStr where
  val : String
  oid : Nat
deriving DecidableEq, Repr

/-- Python list indexing with an integer that may be negative. Models: `l[i]`, used at
/repo/flee/SimulationSettings.py:65. -/
def pyIndex {α : Type} (l : List α) (i : Int) : Except Err α :=
  let j := if i < 0 then i + l.length else i
  if j < 0 then .error .indexError
  else match l[j.toNat]? with
    | some x => .ok x
    | none => .error .indexError

/-- Models: Python's `int(x)` on a float, used at /repo/flee/datamanager/DataTable.py:424: truncation towards zero. -/
def pyInt (x : ℚ) : Int := x.num.tdiv x.den

/-- Store update. Models: attribute assignment on the object with id `i`
(for example `self.numAgents -= 1`, /repo/flee/flee.py:516). -/
def upd {α : Type} (f : Nat → α) (i : Nat) (v : α) : Nat → α :=
  fun j => if j = i then v else f j

@[simp] theorem upd_same {α : Type} (f : Nat → α) (i : Nat) (v : α) : upd f i v i = v := by
  simp [upd]

@[simp] theorem upd_ne {α : Type} (f : Nat → α) {i j : Nat} (v : α) (h : j ≠ i) :
    upd f i v j = f j := by
  simp [upd, h]

@[simp] theorem upd_upd {α : Type} (f : Nat → α) (i : Nat) (u v : α) :
    upd (upd f i u) i v = upd f i v := by
  funext j
  simp only [upd]
  split <;> rfl

@[simp] theorem upd_eta {α : Type} (f : Nat → α) (i : Nat) : upd f i (f i) = f := by
  funext j
  simp only [upd]
  split <;> simp_all

theorem upd_apply {α : Type} (f : Nat → α) (i j : Nat) (v : α) :
    upd f i v j = if j = i then v else f j := rfl

end Flee
