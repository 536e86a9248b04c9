import Verif.Model.MajorPath
import Verif.Lemmas.Coupling

/-!
Properties of the path of the file of major routes: C243.
-/

namespace Flee

private theorem split_ne {sep : Char} : ∀ s : List Char, splitAt' sep s ≠ []
  | [] => by simp [splitAt']
  | c :: s => by
    unfold splitAt'
    split
    · simp
    · split <;> simp

private theorem split_last {sep : Char} {f : List Char} (hf : sep ∉ f) : ∀ a : List Char,
    splitAt' sep (a ++ sep :: f) = splitAt' sep a ++ [f]
  | [] => by simp [splitAt', splitAt_none hf]
  | c :: a => by
    have ih := split_last hf a
    rw [List.cons_append, splitAt', splitAt']
    split
    · rw [ih]; rfl
    · rw [ih]
      cases h : splitAt' sep a with
      | nil => exact absurd h (split_ne a)
      | cons x xs => rfl

private theorem join_last {sep : Char} {y : List Char} : ∀ {l : List (List Char)}, l ≠ [] →
    [sep].intercalate (l ++ [y]) = [sep].intercalate l ++ sep :: y
  | [], h => absurd rfl h
  | [x], _ => by simp [List.intercalate]
  | x :: z :: l, _ => by
    have ih := join_last (sep := sep) (y := y) (l := z :: l) (by simp)
    simp only [List.intercalate, List.cons_append, List.intersperse_cons_cons, List.flatten_cons, List.append_assoc] at ih ⊢
    rw [ih]

private theorem join_split {sep : Char} : ∀ s : List Char, [sep].intercalate (splitAt' sep s) = s
  | [] => by simp [splitAt', List.intercalate]
  | c :: s => by
    have ih := join_split (sep := sep) s
    rw [splitAt']
    cases h : splitAt' sep s with
    | nil => exact absurd h (split_ne s)
    | cons x xs =>
      rw [h] at ih
      split
      · rename_i hc
        rw [hc]
        conv_rhs => rw [← ih]
        simp [List.intercalate]
      · conv_rhs => rw [← ih]
        cases xs <;> simp [List.intercalate]

/-- C243: major routes are read from the file in the same folder whose name is that of the file of links after `major_`. -/
theorem C243_folder {dir f : List Char} (hf : '/' ∉ f) : majorPath (dir ++ '/' :: f) = dir ++ '/' :: ("major_".toList ++ f) := by
  unfold majorPath
  rw [split_last hf, List.dropLast_concat]
  have : (splitAt' '/' dir ++ [f]).getLastD [] = f := by simp
  rw [this, join_last (split_ne _), join_split]

example : '/' ∉ "routes.csv".toList ∧ majorPath "conflict_input/ethiopia/routes.csv".toList = "conflict_input/ethiopia/major_routes.csv".toList :=
  ⟨by decide, by decide⟩

/-- C243: so it is without a folder. -/
theorem C243_here {f : List Char} (hf : '/' ∉ f) : majorPath f = "major_".toList ++ f := by
  unfold majorPath
  rw [splitAt_none hf]
  simp [List.intercalate]

example : '/' ∉ "routes.csv".toList ∧ majorPath "routes.csv".toList = "major_routes.csv".toList := ⟨by decide, by decide⟩

private theorem path_cases : ∀ p : List Char, '/' ∉ p ∨ ∃ dir f, '/' ∉ f ∧ p = dir ++ '/' :: f
  | [] => .inl (by simp)
  | c :: p => by
    rcases path_cases p with h | ⟨dir, f, hf, rfl⟩
    · by_cases hc : '/' = c
      · exact .inr ⟨[], p, h, by rw [← hc]; rfl⟩
      · exact .inl (by simp [hc, h])
    · exact .inr ⟨c :: dir, f, hf, rfl⟩

private theorem last_unique {a b f g : List Char} (hf : '/' ∉ f) (hg : '/' ∉ g) (h : a ++ '/' :: f = b ++ '/' :: g) : a = b ∧ f = g := by
  have := congrArg (splitAt' '/') h
  rw [split_last hf, split_last hg] at this
  obtain ⟨h1, h2⟩ := List.append_inj' this rfl
  refine ⟨?_, by simpa using h2⟩
  rw [← join_split (sep := '/') a, h1, join_split]

/-- C243: two files of links never share a file of major routes, and no file of links is its own file of major routes. -/
theorem C243_apart (p q : List Char) : (majorPath p = majorPath q → p = q) ∧ majorPath p ≠ p := by
  have hm : '/' ∉ "major_".toList := by decide
  have hcat : ∀ {f : List Char}, '/' ∉ f → '/' ∉ "major_".toList ++ f := fun hf h => (List.mem_append.1 h).elim hm hf
  constructor
  · intro h
    rcases path_cases p with hp | ⟨a, f, hf, rfl⟩ <;> rcases path_cases q with hq | ⟨b, g, hg, rfl⟩
    · rw [C243_here hp, C243_here hq] at h
      exact List.append_cancel_left h
    · rw [C243_here hp, C243_folder hg] at h
      exact absurd (h ▸ by simp) (hcat hp)
    · rw [C243_folder hf, C243_here hq] at h
      exact absurd (h ▸ by simp) (hcat hq)
    · rw [C243_folder hf, C243_folder hg] at h
      obtain ⟨rfl, h2⟩ := last_unique (hcat hf) (hcat hg) h
      rw [List.append_cancel_left h2]
  · intro h
    have hl := congrArg List.length h
    rcases path_cases p with hp | ⟨a, f, hf, rfl⟩
    · rw [C243_here hp] at hl
      simp at hl
      omega
    · rw [C243_folder hf] at hl
      simp at hl
      omega

end Flee
