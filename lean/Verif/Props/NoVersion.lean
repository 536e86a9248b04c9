import Verif.Props.Version

/-!
Where no version can be found: more of C203 and C204.
-/

namespace Flee

open Spec

/-- C203, missing texts: an archive whose file lists the names but not the commit raises an exception, and so does one whose file has the commit but
no names. -/
theorem C203_missing {pre t : List Char} {names : List (List Char)} {k : Keywords} :
    (k.refnames = some t → ListsNames t names → k.full = none → keywordVersion pre k = .error .keyError) ∧
    (k.refnames = none → k.full ≠ none → keywordVersion pre k = .error .keyError) := by
  constructor
  · intro h1 h2 h3
    obtain ⟨v, hv⟩ : ∃ v, keywordVersion pre { k with full := some [] } = .ok (some v) := ⟨_, keywordVersion_listed h1 h2 rfl⟩
    unfold keywordVersion at hv ⊢
    rw [if_neg (fun e => by have e1 := congrArg Keywords.refnames e; dsimp only at e1; rw [h1] at e1; cases e1)] at hv ⊢
    dsimp only at hv
    rw [h1] at hv ⊢
    dsimp only at hv ⊢
    by_cases hp : "$Format".toList.isPrefixOf (stripText t) = true
    · rw [if_pos hp] at hv
      cases hv
    · rw [if_neg hp, h3]
  · intro h1 h2
    unfold keywordVersion
    rw [if_neg (fun e => h2 (congrArg Keywords.full e)), h1]

example : ListsNames " (tag: 1.0)".toList ["tag: 1.0".toList] := by
  refine ⟨by decide, ?_, by decide⟩
  unfold TidyName
  decide

private theorem noVersion_parts (m : String) : (noVersion m).version = "0+unknown".toList ∧ (noVersion m).error ≠ none ∧ (noVersion m).revision = none ∧
    (noVersion m).date = none := ⟨rfl, fun h => (by cases h), rfl, rfl⟩

/-- C204, no source: without git, and with the file as it is in the repository, both answer `0+unknown`, with a message and without a commit. -/
theorem C204_unknown {lines : List (List Char)} {full date more : List Char} {g : GitAnswers} {file : Option (List (List Char))}
    (hk : KeywordFile lines ⟨some ("$Format".toList ++ more), some full, some date⟩) (hg : g.inside = false)
    (hn : ∀ path, file = some path → ∀ i name, 2 ≤ i → i < 5 → path[i]? = some name → ¬ "None".toList <+: name) :
    (∃ v, setupVersion (some lines) none g = .ok v ∧ v.version = "0+unknown".toList ∧ v.error ≠ none ∧ v.revision = none ∧ v.date = none) ∧
    ∃ v, packageVersion ⟨⟨some ("$Format".toList ++ more), some full, some date⟩, file, g⟩ = .ok v ∧ v.version = "0+unknown".toList ∧
      v.error ≠ none ∧ v.revision = none ∧ v.date = none := by
  have hv : keywordVersion [] ⟨some ("$Format".toList ++ more), some full, some date⟩ = .ok none := C203_unexpanded rfl
  have hp : gitPieces [] g = .ok none := by
    unfold gitPieces
    rw [if_pos (by simp [hg])]
  have hs : setupVersion (some lines) none g = .ok (noVersion "unable to compute version") := by
    obtain ⟨refnames, f, d, h1, h2, h3, e⟩ := hk
    cases e
    unfold setupVersion
    rw [readKeywords_file h1 h2 h3, hv]
    dsimp only
    change (gitPieces [] g >>= _) = _
    rw [hp]
    rfl
  refine ⟨⟨_, hs, noVersion_parts _⟩, ?_⟩
  cases file with
  | none =>
    refine ⟨noVersion "unable to find root of source tree", ?_, noVersion_parts _⟩
    unfold packageVersion
    rw [hv]
    rfl
  | some path =>
    rw [← C204_partial (g := g) hk (.inr (hn path rfl))]
    exact ⟨_, hs, noVersion_parts _⟩

example : ∀ path, some ["_version.py".toList, "flee".toList, "src".toList] = some path → ∀ i name, 2 ≤ i → i < 5 → path[i]? = some name →
    ¬ "None".toList <+: name := by
  rintro path e i name h1 h2 h
  cases e
  interval_cases i <;> simp at h <;> subst h <;> decide

end Flee
