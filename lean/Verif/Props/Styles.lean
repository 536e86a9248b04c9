import Verif.Lemmas.Version
import Verif.Spec.Styles

/-!
The styles of versions: C228.
-/

namespace Flee

open Spec

/-- C228, in full: in each style, the version of a commit has the format that is described at its function, for tags that are not empty and have no
plus sign. -/
def C228_claim : Prop := ∀ (style : String) (p : Pieces) (digits t : List Char), (∀ tag, p.closestTag = some tag → tag ≠ [] ∧ '+' ∉ tag) →
  PlainNumeral digits p.distance → describedFormat style p.closestTag digits p.short (p.distance ≠ 0) p.dirty = some t →
  ∃ v, renderVersion style (.inr p) = .ok v ∧ v.version = t

private theorem style_known {style : String} {p : Pieces} {t : List Char} (h : renderStyle style p = .ok t) :
    ∃ v, renderVersion style (.inr p) = .ok v ∧ v.version = t := by
  refine ⟨⟨t, some p.long, some p.dirty, none, some p.date⟩, ?_, rfl⟩
  rw [renderVersion, h]
  rfl

/-- C228, partially: the version has the described format, except in the style `pep440-post` without a tag, where the commit is added to it.
Missing from the full claim: commits without a tag in the style `pep440-post`. -/
theorem C228_partial {style : String} {p : Pieces} {digits t : List Char} (hp : ∀ tag, p.closestTag = some tag → tag ≠ [] ∧ '+' ∉ tag)
    (hd : PlainNumeral digits p.distance)
    (ht : describedFormat style p.closestTag digits p.short (p.distance ≠ 0) p.dirty = some t) :
    ∃ v, renderVersion style (.inr p) = .ok v ∧
      v.version = if style = "pep440-post" ∧ p.closestTag = none then t ++ "+g".toList ++ p.short else t := by
  apply style_known
  obtain rfl := plain_eq hd
  unfold describedFormat at ht
  cases hc : p.closestTag with
  | none =>
    have h0 := tag_none hc
    rw [hc] at ht
    dsimp only at ht
    unfold untaggedFormat at ht
    split at ht <;> first | (cases ht; done) | skip
    all_goals
      cases ht
      simp [renderStyle, renderPep440, renderPep440Pre, renderPep440Post, renderPep440Old, renderDescribe, renderDescribeLong, h0, only]
  | some tag =>
    have h0 := tag_some hc (hp tag hc).1
    have h1 := (hp tag hc).2
    rw [hc] at ht
    dsimp only at ht
    unfold taggedFormat at ht
    split at ht <;> first | (cases ht; done) | skip
    all_goals
      cases ht
      by_cases hn : p.distance = 0 <;> cases hb : p.dirty <;>
        simp [renderStyle, renderPep440, renderPep440Pre, renderPep440Post, renderPep440Old, renderDescribe, renderDescribeLong, h0, only,
          plusOrDot, h1, hn, hb]

/-- A commit of the examples. -/
private def revision (tag : Option String) (n : Nat) (dirty : Bool) : Pieces :=
  ⟨"0123abc4".toList, "0123abc".toList, tag.map (·.toList), n, dirty, []⟩

example : (∀ tag, (revision (some "1.0") 12 true).closestTag = some tag → tag ≠ [] ∧ '+' ∉ tag) ∧
    PlainNumeral "12".toList (revision (some "1.0") 12 true).distance ∧
    describedFormat "pep440-post" (revision (some "1.0") 12 true).closestTag "12".toList (revision (some "1.0") 12 true).short
      ((revision (some "1.0") 12 true).distance ≠ 0) (revision (some "1.0") 12 true).dirty = some "1.0.post12.dev0+g0123abc".toList :=
  ⟨by rintro tag h; cases h; decide, numberText_plain 12, by decide +kernel⟩

/-- C228 is false of the code: for a commit without a tag, the description of `pep440-post` has no commit but the version has. -/
theorem C228_false : ¬ C228_claim := by
  intro h
  obtain ⟨v, h1, h2⟩ := h "pep440-post" (revision none 3 false) "3".toList "0.post3".toList (by rintro tag h; cases h) (numberText_plain 3)
    (by decide +kernel)
  have e : renderVersion "pep440-post" (.inr (revision none 3 false)) =
    .ok ⟨"0.post3+g0123abc".toList, some "0123abc4".toList, some false, none, some []⟩ := by decide +kernel
  rw [e] at h1
  cases h1
  exact absurd h2 (by decide)

/-- C228, names of styles: no style and `default` mean `pep440`. For any other name without a format, asking for a version raises an exception,
unless there was an error already. -/
theorem C228_names (style : String) (p : Pieces) :
    renderVersion "" (.inr p) = renderVersion "pep440" (.inr p) ∧ renderVersion "default" (.inr p) = renderVersion "pep440" (.inr p) ∧
    (style ∉ ["", "default"] → describedFormat style p.closestTag [] [] false false = none →
      renderVersion style (.inr p) = .error .valueError) := by
  refine ⟨rfl, rfl, fun h1 h2 => ?_⟩
  have h3 : style ∉ ["pep440", "pep440-pre", "pep440-post", "pep440-old", "git-describe", "git-describe-long"] := by
    intro hm
    simp only [List.mem_cons, List.not_mem_nil, or_false] at hm
    cases hc : p.closestTag <;> rw [hc] at h2 <;>
      rcases hm with rfl | rfl | rfl | rfl | rfl | rfl <;> simp [describedFormat, taggedFormat, untaggedFormat] at h2
  simp only [List.mem_cons, List.not_mem_nil, or_false, not_or] at h1 h3
  simp [renderVersion, renderStyle, h1, h3]

example : "semver" ∉ ["", "default"] ∧ describedFormat "semver" (some []) [] [] false false = none := by decide

end Flee
