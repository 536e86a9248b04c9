import Verif.Lemmas.Flood
import Verif.Lemmas.Crawl
import Verif.Lemmas.Nature
import Verif.Spec.Scoring

/-!
Decay lookup and spawn weights.
-/

namespace Flee

open Spec

theorem pyIndex_mem {α : Type} {l : List α} {i : Int} {x : α} (h : pyIndex l i = .ok x) : x ∈ l := by
  unfold pyIndex at h
  dsimp only at h
  generalize (if i < 0 then i + (l.length : Int) else i) = j at h
  split at h
  · cases h
  · split at h
    · rename_i y hy
      cases h
      exact List.mem_of_getElem? hy
    · cases h

theorem pyIndex_nat {α : Type} {l : List α} {n : Nat} (h : n < l.length) : pyIndex l (n : Int) = .ok l[n] := by
  unfold pyIndex
  dsimp only
  rw [if_neg (by omega), if_neg (by omega)]
  simp [h]

/-- The lookup, for non-negative elapsed time. -/
theorem getConflictDecay_eq {c : Cfg} {l : List ℚ} (hl : c.decay = some l) (hne : l ≠ []) (hi : 0 < c.decayInterval)
    {t : Int} (ht : 0 ≤ t) : getConflictDecay c t = .ok (decayEntry l c.decayInterval t.toNat) := by
  have hpos : 0 < l.length := List.length_pos_of_ne_nil hne
  obtain ⟨n, rfl⟩ := Int.eq_ofNat_of_zero_le ht
  unfold getConflictDecay
  rw [hl]
  dsimp only
  rw [if_neg (by omega), if_neg (by omega)]
  have hd : (n : Int).tdiv (c.decayInterval : Int) = ((n / c.decayInterval : Nat) : Int) := Int.ofNat_tdiv n c.decayInterval |>.symm
  rw [hd]
  unfold decayEntry
  simp only [Int.toNat_natCast]
  by_cases hlt : n < c.decayInterval * l.length
  · rw [if_pos hlt]
    have hq : n / c.decayInterval < l.length := Nat.div_lt_of_lt_mul hlt
    rw [min_eq_left (by omega), pyIndex_nat hq]
    simp [hq]
  · rw [if_neg hlt]
    have hq : l.length ≤ n / c.decayInterval := (Nat.le_div_iff_mul_le hi).2 (by rw [Nat.mul_comm]; omega)
    rw [min_eq_right (by omega), show ((l.length : Int) - 1) = ((l.length - 1 : Nat) : Int) by omega,
      pyIndex_nat (by omega)]
    simp [List.getLastD_eq_getLast?, List.getLast?_eq_getElem?, hpos]

theorem getConflictDecay_mem {c : Cfg} {t : Int} {x : ℚ} (h : getConflictDecay c t = .ok x) :
    x = 1 ∨ ∃ l, c.decay = some l ∧ x ∈ l := by
  unfold getConflictDecay at h
  split at h
  · exact .inl (Except.ok.inj h).symm
  · rename_i l hl
    split at h
    · exact .inl (Except.ok.inj h).symm
    · split at h
      · cases h
      · exact .inr ⟨l, hl, pyIndex_mem h⟩

theorem locationDecay_eq {c : Cfg} {t : Nat} {l : Loc} (hi : 0 < c.decayInterval) (ht : l.timeOfConflict ≤ t) :
    locationDecay c t l = .ok (decayFactor c t l) := by
  unfold locationDecay decayFactor
  cases hd : c.decay with
  | none => simp [getConflictDecay, hd]
  | some d =>
    dsimp only
    by_cases hne : d = []
    · rw [if_pos hne]
      simp [getConflictDecay, hd, hne]
    · rw [if_neg hne]
      exact getConflictDecay_eq hd hne hi (by omega)

theorem baseScore_eq {c : Cfg} {t : Nat} {l : Loc} (hi : 0 < c.decayInterval) (ht : l.timeOfConflict ≤ t) :
    baseScore c t l = .ok (factors c t l).prod := by
  unfold baseScore factors
  dsimp only
  rw [locationDecay_eq hi ht]
  cases hf : l.foreign <;> cases hc : l.camp <;> cases hp : l.idpcamp <;> by_cases h : 0 < l.conflict <;>
    simp [h, pure, Except.pure, bind, Except.bind, mul_assoc]

theorem forecastSum_zero (f : FloodCfg) (time : Nat) : ∀ n x, forecastSum f scoreForecastLevel time n x = .ok 0
  | 0, _ => rfl
  | n + 1, x => by
    have hd : ∀ d, dayTerm f scoreForecastLevel d = .ok 0 := fun d => by
      simp [dayTerm, scoreForecastLevel, bind, Except.bind, pure, Except.pure]
    unfold forecastSum
    dsimp only
    rw [hd, forecastSum_zero f time n (x + 1)]
    simp [bind, Except.bind, pure, Except.pure]

theorem zoneFactor_iff {c : Cfg} {t : Nat} {l : Loc} {k : ℚ} : zoneFactor c t l = .ok k ↔ ZoneWeight c t l k := by
  unfold zoneFactor ZoneWeight
  cases hz : l.floodZone with
  | false => simp [eq_comm]
  | true =>
    rw [if_pos rfl]
    cases hl : l.floodLevel with
    | none => simp [eq_comm]
    | some v =>
      have hf : ∀ y, scoreForecast c.flood t = .ok y ↔ (ForecastInUse c.flood t ∧ y = 0) ∨ (¬ ForecastInUse c.flood t ∧ y = 1) := by
        intro y
        unfold scoreForecast
        by_cases h : ForecastInUse c.flood t
        · rw [if_pos (active_iff.2 h), forecastSum_zero]
          simp [h, bind, Except.bind, pure, Except.pure, eq_comm]
        · rw [if_neg (by simpa [active_iff] using h)]
          simp [h, eq_comm]
      simp only [Except.bind_eq_ok, Except.pure_eq_ok, subscript_entry, hf]
      constructor
      · rintro ⟨x, hx, y, ⟨h, rfl⟩ | ⟨h, rfl⟩, rfl⟩
        · exact .inl ⟨v, x, by simp, rfl, hx, .inl ⟨h, by simp⟩⟩
        · exact .inl ⟨v, x, by simp, rfl, hx, .inr ⟨h, by simp⟩⟩
      · rintro (⟨_, x, -, hv, hx, ⟨h, rfl⟩ | ⟨h, rfl⟩⟩ | ⟨h, -⟩)
        · cases hv
          exact ⟨x, hx, 0, .inl ⟨h, rfl⟩, by simp⟩
        · cases hv
          exact ⟨_, hx, 1, .inr ⟨h, rfl⟩, by simp⟩
        · simp at h

theorem locationScore_iff {c : Cfg} {t : Nat} {l : Loc} {s : ℚ} (hi : 0 < c.decayInterval) (ht : l.timeOfConflict ≤ t) :
    locationScore c t l = .ok s ↔ ∃ k, ZoneWeight c t l k ∧ s = (factors c t l).prod * k := by
  unfold locationScore
  simp only [Except.bind_eq_ok, Except.pure_eq_ok, baseScore_eq hi ht, Except.ok.injEq, exists_eq_left', zoneFactor_iff]
  exact exists_congr fun k => and_congr_right fun _ => eq_comm

theorem locationScore_eq {c : Cfg} {t : Nat} {l : Loc} (hi : 0 < c.decayInterval) (ht : l.timeOfConflict ≤ t)
    (hz : l.floodZone = false ∨ l.floodLevel = none) : locationScore c t l = .ok (factors c t l).prod :=
  (locationScore_iff hi ht).2 ⟨1, .inr ⟨hz, rfl⟩, (mul_one _).symm⟩

theorem getD_of_lt {α : Type} {d : List α} {i : Nat} {x : α} (h : i < d.length) : d.getD i x = d[i] := by
  simp [List.getD_eq_getElem?_getD, h]

theorem decayEntry_getD {d : List ℚ} {n t : Nat} (hd : d ≠ []) (hn : 0 < n) :
    decayEntry d n t = d.getD (min (t / n) (d.length - 1)) 1 := by
  have hpos : 0 < d.length := List.length_pos_of_ne_nil hd
  unfold decayEntry
  split
  · rename_i h
    rw [min_eq_left (by have := Nat.div_lt_of_lt_mul h; omega)]
  · rename_i h
    rw [min_eq_right (by have := (Nat.le_div_iff_mul_le hn (x := d.length) (y := t)).2 (by rw [Nat.mul_comm]; omega); omega)]
    simp [List.getLastD_eq_getLast?, List.getLast?_eq_getElem?]

theorem decayEntry_mono {d : List ℚ} {n t t' : Nat} (hd : d ≠ []) (hn : 0 < n) (hs : d.Pairwise (· ≤ ·)) (ht : t ≤ t') :
    decayEntry d n t ≤ decayEntry d n t' := by
  have hpos : 0 < d.length := List.length_pos_of_ne_nil hd
  rw [decayEntry_getD hd hn, decayEntry_getD hd hn]
  have hq : t / n ≤ t' / n := Nat.div_le_div_right ht
  have h1 : min (t / n) (d.length - 1) < d.length := by omega
  have h2 : min (t' / n) (d.length - 1) < d.length := by omega
  rw [getD_of_lt h1, getD_of_lt h2]
  rcases Nat.lt_or_ge (min (t / n) (d.length - 1)) (min (t' / n) (d.length - 1)) with h | h
  · exact List.pairwise_iff_getElem.1 hs _ _ h1 h2 h
  · have : min (t / n) (d.length - 1) = min (t' / n) (d.length - 1) := by omega
    simp [this]

theorem decayEntry_mem {d : List ℚ} {n t : Nat} (hd : d ≠ []) (hn : 0 < n) : decayEntry d n t ∈ d := by
  have hpos : 0 < d.length := List.length_pos_of_ne_nil hd
  rw [decayEntry_getD hd hn, getD_of_lt (by omega)]
  exact List.getElem_mem _

theorem reach_stamp {P : Op → Prop} {c : Cfg} {draws : Nat → ℚ} {e : Eco} (h : ReachWith P c draws e) :
    ∀ i < e.w.nLoc, (e.w.loc i).timeOfConflict ≤ e.w.time := by
  refine reach_loc (I := fun t l => l.timeOfConflict ≤ t) (fun t a _ => ?_) (fun t l l' hc hl => ?_)
    (fun t l hl => by push_cast; omega) h
  · unfold mkLoc
    dsimp only
    have : ∀ l : Loc, l.timeOfConflict = -1 →
        ((if (l.movechance < 5 / 1000 && !l.camp && !l.floodZone) = true then { l with camp := true, town := false } else l).nature).timeOfConflict ≤ t := by
      intro l hl
      split <;> simp [Loc.nature, hl]
    apply this
    cases a.ty with
    | none => rfl
    | some ty => dsimp only; cases typeTag ty <;> rfl
  · cases hc with
    | camp idp => cases idp <;> exact hl
    | retype tag => cases tag <;> exact hl
    | fight | stamp => exact le_refl _
    | spawn | close | calm | settle => exact hl

theorem mapM_range {α : Type} {f : Nat → Except Err α} {n : Nat} {xs : List α} (h : (List.range n).mapM f = .ok xs) :
    xs.length = n ∧ ∀ i, (hi : i < n) → ∃ x, xs[i]? = some x ∧ f i = .ok x := by
  induction n generalizing xs with
  | zero =>
    simp only [List.range_zero, List.mapM_nil, Except.pure_eq_ok] at h
    subst h
    simp
  | succ n ih =>
    rw [List.range_succ, List.mapM_append] at h
    simp only [Except.bind_eq_ok, Except.pure_eq_ok, List.mapM_cons, List.mapM_nil] at h
    obtain ⟨ys, h1, zs, ⟨z, hz, zs', rfl, rfl⟩, rfl⟩ := h
    obtain ⟨hl, hx⟩ := ih h1
    refine ⟨by simp [hl], fun i hi => ?_⟩
    by_cases hin : i < n
    · obtain ⟨x, h1, h2⟩ := hx i hin
      exact ⟨x, by rw [List.getElem?_append_left (by omega)]; exact h1, h2⟩
    · have : i = n := by omega
      subst this
      exact ⟨z, by rw [List.getElem?_append_right (by omega)]; simp [hl], hz⟩

end Flee
