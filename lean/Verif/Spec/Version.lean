import Verif.Model.Version
import Verif.Spec.Acled

/-!
Specification vocabulary for the versions of the code.
-/

namespace Flee.Spec

open Flee

/-- A number written without zeros in front. -/
def PlainNumeral (t : List Char) (n : Nat) : Prop := Numeral t n ∧ (t = ['0'] ∨ t.head? ≠ some '0')

/-- Digits and the letters from a to f. -/
def Hexadecimal (t : List Char) : Prop := t ≠ [] ∧ ∀ ch ∈ t, ch ∈ "0123456789abcdef".toList

/-- No blanks, tabs and line breaks. -/
def Unspaced (t : List Char) : Prop := ∀ ch ∈ t, ch ∉ [' ', '\t', '\n', '\r']

/-- A text with a mark at its end if there are changes that are not committed. -/
def Marked (mark : String) (dirty : Bool) (t u : List Char) : Prop :=
  (dirty = true ∧ u = t ++ mark.toList) ∨ (dirty = false ∧ u = t)

/-- How git describes a commit: a tag before it, the number of commits since, the commit, and a mark for changes. -/
def Describes (t tag : List Char) (n : Nat) (hex : List Char) (dirty : Bool) : Prop :=
  ∃ digits, PlainNumeral digits n ∧ Hexadecimal hex ∧ Marked "-dirty" dirty (tag ++ ['-'] ++ digits ++ ['-', 'g'] ++ hex) t

/-- The order of texts in a dictionary. -/
def Before (s t : List Char) : Prop :=
  s <+: t ∨ ∃ u a b s' t', s = u ++ a :: s' ∧ t = u ++ b :: t' ∧ a < b

/-- A name that git lists: not empty, without commas, and without blanks or parentheses at its ends. -/
def TidyName (r : List Char) : Prop :=
  r ≠ [] ∧ ',' ∉ r ∧ ∀ ch ∈ [' ', '\t', '\n', '\r', '(', ')'], r.head? ≠ some ch ∧ r.getLast? ≠ some ch

/-- The names of a commit as git lists them in an archive. -/
def ListsNames (t : List Char) (names : List (List Char)) : Prop :=
  names ≠ [] ∧ (∀ r ∈ names, TidyName r) ∧ t = " (".toList ++ ", ".toList.intercalate names ++ ")".toList

/-- The tags among the names. -/
def IsTag (names : List (List Char)) (tag : List Char) : Prop := "tag: ".toList ++ tag ∈ names

/-- A line that gives a name a value between quotation marks. -/
def Assigns (line : List Char) (name : String) (value : List Char) : Prop :=
  ∃ blanks, (∀ ch ∈ blanks, ch = ' ') ∧ line = blanks ++ name.toList ++ " = \"".toList ++ value ++ ['"']

/-- The value that the lines of a file give a name: some line does it, and each line that starts with the name does it. -/
def FileAssigns (lines : List (List Char)) (name : String) (value : List Char) : Prop :=
  (∃ line ∈ lines, Assigns line name value) ∧
    ∀ line ∈ lines, (∃ blanks more, (∀ ch ∈ blanks, ch ∈ [' ', '\t', '\n', '\r']) ∧ line = blanks ++ name.toList ++ " =".toList ++ more) →
      Assigns line name value

/-- The file of the package as it is, with these three values. -/
def KeywordFile (lines : List (List Char)) (k : Keywords) : Prop :=
  ∃ refnames full date, FileAssigns lines "git_refnames" refnames ∧ FileAssigns lines "git_full" full ∧ FileAssigns lines "git_date" date ∧
    k = ⟨some refnames, some full, some date⟩

end Flee.Spec
