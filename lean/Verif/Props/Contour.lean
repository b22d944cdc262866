import Verif.Props.PlotData

/-! Claim theorems for C138: the contour of `plot_lkd`. -/

open Np GP

noncomputable section

namespace Props

/-- **C138** (the code contours the wrong table). `plot_lkd` asks for a contour exactly if some condition number is above the limit, at the level
`log10(cond_max)`; but of the table of scaled likelihoods, in which with a limit above 10 every number is below that level: no curve can be drawn. -/
theorem C138_contour_partial (A : FMat) (hr : 0 < A.r) (hc : 0 < A.c) {condMax : ℝ} (hm : 10 < condMax) {lc : Arr2} (hlr : lc.r = A.r) (hlc : lc.c = A.c)
    {κ : ℕ → ℕ → ℝ} (hκ : ∀ i < A.r, ∀ j < A.c, 0 < κ i j ∧ lc.get i j = Real.logb 10 (κ i j)) :
    ∃ B o, calcSclData A = .ok B ∧ limitContour condMax B lc = .ok o ∧
      ((∃ t, o = some t) ↔ ∃ i < A.r, ∃ j < A.c, condMax < κ i j) ∧
      ∀ t L, o = some (t, L) → t.r = A.r ∧ t.c = A.c ∧ (10 : ℝ) ^ L = condMax ∧ ∀ i < A.r, ∀ j < A.c, ∀ x, t.get i j = some x → x < L := by
  obtain ⟨B, hB, h1, h2, h3⟩ := C109_scaled_to_unit A hr hc
  have hm0 : 0 < condMax := by linarith
  have hL : 1 < Real.logb 10 condMax := by
    rw [Real.lt_logb_iff_rpow_lt (by norm_num) hm0, Real.rpow_one]
    exact hm
  have hiff : (∃ i < lc.r, ∃ j < lc.c, Real.logb 10 condMax < lc.get i j) ↔ ∃ i < A.r, ∃ j < A.c, condMax < κ i j := by
    rw [hlr, hlc]
    constructor
    · rintro ⟨i, hi, j, hj, h⟩
      obtain ⟨k1, k2⟩ := hκ i hi j hj
      rw [k2] at h
      exact ⟨i, hi, j, hj, (Real.logb_lt_logb_iff (by norm_num) hm0 k1).mp h⟩
    · rintro ⟨i, hi, j, hj, h⟩
      obtain ⟨k1, k2⟩ := hκ i hi j hj
      refine ⟨i, hi, j, hj, ?_⟩
      rw [k2]
      exact (Real.logb_lt_logb_iff (by norm_num) hm0 k1).mpr h
  by_cases h : ∃ i < lc.r, ∃ j < lc.c, Real.logb 10 condMax < lc.get i j
  · refine ⟨B, some (B, Real.logb 10 condMax), hB, ?_, ⟨fun _ => hiff.mp h, fun _ => ⟨_, rfl⟩⟩, fun t L ht => ?_⟩
    · unfold limitContour
      rw [if_neg (by omega), if_pos h]
      rfl
    · obtain ⟨rfl, rfl⟩ := Prod.mk.inj (Option.some.inj ht)
      refine ⟨h1, h2, Real.rpow_logb (by norm_num) (by norm_num) hm0, fun i hi j hj x hx => ?_⟩
      obtain ⟨k1, k2⟩ := h3 i hi j hj
      cases hA : A.get i j with
      | none => rw [k1 hA] at hx; cases hx
      | some y =>
        obtain ⟨lo, hi', -, -, e1, e2⟩ := k2 y hA
        by_cases he : lo = hi'
        · rw [e1 he] at hx; cases hx
        · obtain ⟨s, e3, -, e4, -⟩ := e2 he
          rw [e3] at hx
          cases hx
          linarith
  · refine ⟨B, none, hB, ?_, ⟨fun ⟨_, h'⟩ => (nomatch h'), fun h' => absurd (hiff.mpr h') h⟩, fun t L ht => (nomatch ht)⟩
    unfold limitContour
    rw [if_neg (by omega), if_neg h]
    rfl

/-- **C138** A map of two pairs of length scales, one on each side of the limit `10^10` of the script: the contour is requested, of a table whose numbers are
0 and 1, at level 10. -/
theorem C138_never_drawn : ∃ (A B : FMat) (lc : Arr2), calcSclData A = .ok B ∧ lc.r = 1 ∧ lc.c = 2 ∧ lc.get 0 0 = 8 ∧ lc.get 0 1 = 12 ∧
    limitContour (10 ^ 10) B lc = .ok (some (B, 10)) ∧
    ∀ j < 2, ∀ x, B.get 0 j = some x → x < 10 := by
  have hlog : ∀ k : ℕ, Real.logb 10 ((10 : ℝ) ^ k) = k := fun k => by
    rw [Real.logb_pow, Real.logb_self_eq_one (by norm_num), mul_one]
  set A : FMat := ⟨1, 2, fun _ j => some j⟩
  obtain ⟨B, o, h1, h2, h3, h4⟩ := C138_contour_partial A Nat.one_pos (by norm_num [A]) (condMax := 10 ^ 10) (by norm_num)
    (lc := ⟨1, 2, fun _ j => if j = 0 then 8 else 12⟩) rfl rfl (κ := fun _ j => if j = 0 then 10 ^ 8 else 10 ^ 12) (fun i _ j _ => by
      by_cases hj : j = 0
      · simp only [hj, if_true]
        exact ⟨by norm_num, by rw [hlog]; norm_num⟩
      · simp only [hj, if_false]
        exact ⟨by norm_num, by rw [hlog]; norm_num⟩)
  obtain ⟨t, rfl⟩ := h3.mpr ⟨0, Nat.one_pos, 1, by norm_num [A], by norm_num⟩
  obtain ⟨t, L⟩ := t
  obtain ⟨-, -, h5, h6⟩ := h4 t L rfl
  have ht : (t, L) = (B, (10 : ℝ)) := by
    have h7 := h2
    unfold limitContour at h7
    rw [if_neg (by norm_num)] at h7
    rw [hlog 10] at h7
    simp only [pure_eq_ok] at h7
    split at h7
    · have := Option.some.inj (Except.ok.inj h7)
      rw [← this]
      norm_num
    · cases h7
  obtain ⟨rfl, rfl⟩ := Prod.mk.inj ht
  exact ⟨A, t, _, h1, rfl, rfl, rfl, rfl, h2, fun j hj x hx => h6 0 Nat.one_pos j hj x hx⟩

end Props
