import Mathlib.Data.List.Forall2

/-!
General facts about lists.
-/

namespace Flee

theorem bind_ne {ε α β : Type} {x : Except ε α} {f : α → Except ε β} {e : ε} (h1 : x ≠ .error e)
    (h2 : ∀ y, x = .ok y → f y ≠ .error e) : (x >>= f) ≠ .error e := by
  cases x with
  | error d => simpa [bind, Except.bind] using h1
  | ok y => exact h2 y rfl

theorem map_ne {ε α β : Type} {x : Except ε α} {f : α → β} {e : ε} (h1 : x ≠ .error e) : x.map f ≠ .error e := by
  cases x with
  | error d => simpa [Except.map] using h1
  | ok y => simp [Except.map]

theorem forall₂_mem_right {α β : Type} {R : α → β → Prop} {as : List α} {bs : List β}
    (h : List.Forall₂ R as bs) : ∀ b ∈ bs, ∃ a ∈ as, R a b := by
  induction h with
  | nil => simp
  | cons hr _ ih =>
    intro b hb
    rcases List.mem_cons.1 hb with rfl | hb
    · exact ⟨_, by simp, hr⟩
    · obtain ⟨a, ha, h⟩ := ih b hb
      exact ⟨a, by simp [ha], h⟩

theorem forall₂_mem_left {α β : Type} {R : α → β → Prop} {as : List α} {bs : List β}
    (h : List.Forall₂ R as bs) : ∀ a ∈ as, ∃ b ∈ bs, R a b :=
  fun a ha => by
    have h' : List.Forall₂ (flip R) bs as := h.flip
    obtain ⟨b, hb, hr⟩ := forall₂_mem_right h' a ha
    exact ⟨b, hb, hr⟩

theorem forall₂_get {α β : Type} {R : α → β → Prop} {as : List α} {bs : List β}
    (h : List.Forall₂ R as bs) : ∀ {k : Nat} {a : α}, as[k]? = some a → ∃ b, bs[k]? = some b ∧ R a b := by
  induction h with
  | nil => intro k a h; simp at h
  | cons hr _ ih =>
    intro k a h
    cases k with
    | zero => simp only [List.getElem?_cons_zero, Option.some.injEq] at h ⊢; exact ⟨_, rfl, h ▸ hr⟩
    | succ k => simp only [List.getElem?_cons_succ] at h ⊢; exact ih h

theorem forall₂_imp_mem {α β : Type} {R S : α → β → Prop} {as : List α} {bs : List β}
    (h : List.Forall₂ R as bs) (hi : ∀ a ∈ as, ∀ b, R a b → S a b) : List.Forall₂ S as bs := by
  induction h with
  | nil => exact .nil
  | cons hr _ ih => exact .cons (hi _ (by simp) _ hr) (ih fun a ha => hi a (by simp [ha]))

theorem forall₂_map_eq {α β γ : Type} {R : α → β → Prop} {as : List α} {bs : List β} (f : α → γ) (g : β → γ)
    (h : List.Forall₂ R as bs) (hi : ∀ a ∈ as, ∀ b, R a b → g b = f a) : bs.map g = as.map f := by
  induction h with
  | nil => rfl
  | cons hr _ ih => simp [hi _ (by simp) _ hr, ih fun a ha => hi a (by simp [ha])]

theorem map_ok {ε α β : Type} {f : α → β} {x : Except ε α} {y : β} :
    x.map f = .ok y ↔ ∃ z, x = .ok z ∧ f z = y := by
  cases x <;> simp [Except.map]

end Flee
