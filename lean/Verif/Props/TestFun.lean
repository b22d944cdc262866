import Verif.Model.TestFun
import Verif.Spec.Radial
import Mathlib.Analysis.SpecialFunctions.Trigonometric.Deriv
import Mathlib.Analysis.Calculus.Deriv.Pow

/-! Claim theorems for C108: the gradients of the functions of interest of the scripts. -/

open Np GP

noncomputable section

namespace Props

/-- The Rosenbrock function of `dim` variables. -/
def rosen (a : ℝ) (dim : ℕ) (x : ℕ → ℝ) : ℝ :=
  ∑ d ∈ Finset.range (dim - 1), (a * (x (d + 1) - x d ^ 2) ^ 2 + (1 - x d) ^ 2)

theorem colOf_ok {X : Arr2} {d : ℕ} (h : d < X.c) : colOf X d = .ok ⟨X.r, fun p => X.get p d⟩ := if_pos h

/-- **C108.** `calc_obj` returns the Rosenbrock function at every point. -/
theorem C108_objective (X : Arr2) (a : ℝ) :
    ∃ F, rosenObj X a = .ok F ∧ F.n = X.r ∧ ∀ p < X.r, F.get p = rosen a X.c (X.get p) := by
  obtain ⟨F, h, hn, hF⟩ := forRange_inv
    (P := fun m (F : Arr1) => F.n = X.r ∧ ∀ p, F.get p = ∑ d ∈ Finset.range m, (a * (X.get p (d + 1) - X.get p d ^ 2) ^ 2 + (1 - X.get p d) ^ 2))
    (lo := 0) (hi := X.c - 1) (Nat.zero_le _) (init := ⟨X.r, fun _ => 0⟩)
    (body := fun d obj => do
      let xp ← colOf X (d + 1)
      let xd ← colOf X d
      pure ⟨obj.n, fun p => obj.get p + (a * (xp.get p - xd.get p ^ 2) ^ 2 + (1 - xd.get p) ^ 2)⟩)
    ⟨rfl, fun p => by simp⟩ (by
      intro d F _ hd hF
      rw [colOf_ok (by omega), colOf_ok (by omega)]
      exact ⟨_, rfl, hF.1, fun p => by
        show F.get p + _ = _
        rw [hF.2 p, Finset.sum_range_succ]⟩)
  exact ⟨F, h, hn, fun p _ => hF p⟩

theorem rosen_deriv (a : ℝ) {dim d : ℕ} (hd : d < dim) (x : ℕ → ℝ) :
    HasDerivAt (fun s => rosen a dim (Function.update x d s))
      ((if d < dim - 1 then -2 * (1 - x d) - 4 * a * x d * (x (d + 1) - x d ^ 2) else 0)
        + (if 1 ≤ d then 2 * a * (x d - x (d - 1) ^ 2) else 0)) (x d) := by
  unfold rosen
  have h : ∀ e ∈ Finset.range (dim - 1), HasDerivAt
      (fun s => a * (Function.update x d s (e + 1) - Function.update x d s e ^ 2) ^ 2 + (1 - Function.update x d s e) ^ 2)
      ((if e = d then -2 * (1 - x d) - 4 * a * x d * (x (d + 1) - x d ^ 2) else 0)
        + (if e + 1 = d then 2 * a * (x d - x (d - 1) ^ 2) else 0)) (x d) := by
    intro e _
    have hc : ∀ k, HasDerivAt (fun s => Function.update x d s k) (if k = d then 1 else 0) (x d) := by
      intro k
      by_cases hk : k = d
      · subst hk; simpa using hasDerivAt_id' (x k)
      · simpa [hk] using hasDerivAt_const (x d) (x k)
    have := ((((hc (e + 1)).fun_sub ((hc e).fun_pow 2)).fun_pow 2).const_mul a).fun_add (((hc e).const_sub 1).fun_pow 2)
    refine this.congr_deriv ?_
    simp only [Function.update_eq_self]
    by_cases h1 : e = d
    · subst h1
      simp; ring
    · by_cases h2 : e + 1 = d
      · subst h2
        simp [Nat.add_sub_cancel]; ring
      · simp [h1, h2]
  have := HasDerivAt.fun_sum h
  refine this.congr_deriv ?_
  rw [Finset.sum_add_distrib]
  congr 1
  · rw [Finset.sum_ite_eq']
    simp only [Finset.mem_range]
  · by_cases h1 : 1 ≤ d
    · rw [if_pos h1, Finset.sum_congr rfl (g := fun e => if e = d - 1 then 2 * a * (x d - x (d - 1) ^ 2) else 0)
        (fun e _ => by congr 1; simp only [eq_iff_iff]; omega), Finset.sum_ite_eq', if_pos (Finset.mem_range.mpr (by omega))]
    · rw [if_neg h1]
      refine Finset.sum_eq_zero fun e _ => if_neg (by omega)

/-- **C108.** For two or more variables `calc_grad` returns, for every point and coordinate, the partial derivative of the function
that `calc_obj` evaluates. -/
theorem C108_gradient (X : Arr2) (a : ℝ) (hX : 2 ≤ X.c) :
    ∃ G, rosenGrad X a = .ok G ∧ G.r = X.r ∧ G.c = X.c ∧
      ∀ p < X.r, ∀ d < X.c, HasDerivAt (fun s => rosen a X.c (Function.update (X.get p) d s)) (G.get p d) (X.get p d) := by
  unfold rosenGrad
  rw [colOf_ok (show 0 < X.c by omega), colOf_ok (show 1 < X.c by omega)]
  have e1 : colFromEnd X 1 = .ok ⟨X.r, fun p => X.get p (X.c - 1)⟩ := by
    unfold colFromEnd; rw [if_pos (by omega), colOf_ok (by omega)]
  have e2 : colFromEnd X 2 = .ok ⟨X.r, fun p => X.get p (X.c - 2)⟩ := by
    unfold colFromEnd; rw [if_pos (by omega), colOf_ok (by omega)]
  rw [e1, e2]
  simp only [ok_bind]
  obtain ⟨G, h, hr, hc, hv⟩ := forRange_inv
    (P := fun m (G : Arr2) => G.r = X.r ∧ G.c = X.c ∧ ∀ p q, q < X.c → G.get p q =
      if q = X.c - 1 then 2 * a * (X.get p (X.c - 1) - X.get p (X.c - 2) ^ 2)
      else if q = 0 then -2 * (1 - X.get p 0) - 4 * a * X.get p 0 * (X.get p 1 - X.get p 0 ^ 2)
      else if q < m then -2 * (1 - X.get p q) - 4 * a * X.get p q * (X.get p (q + 1) - X.get p q ^ 2)
        + 2 * a * (X.get p q - X.get p (q - 1) ^ 2)
      else 0)
    (lo := 1) (hi := X.c - 1) (by omega)
    (init := putCol (putCol (Arr2.zeros X.r X.c) 0 fun p => -2 * (1 - X.get p 0) - 4 * a * X.get p 0 * (X.get p 1 - X.get p 0 ^ 2))
      (X.c - 1) fun p => 2 * a * (X.get p (X.c - 1) - X.get p (X.c - 2) ^ 2))
    (body := fun d G => do
      let xdn1 ← colOf X (d - 1)
      let xd ← colOf X d
      let xdp1 ← colOf X (d + 1)
      pure (putCol G d fun p => G.get p d + (-2 * (1 - xd.get p) - 4 * a * xd.get p * (xdp1.get p - xd.get p ^ 2)
        + 2 * a * (xd.get p - xdn1.get p ^ 2))))
    ⟨rfl, rfl, fun p q hq => by
      simp only [putCol, Arr2.zeros]
      by_cases h1 : q = X.c - 1
      · rw [if_pos h1, if_pos h1]
      · rw [if_neg h1, if_neg h1]
        by_cases h2 : q = 0
        · rw [if_pos h2, if_pos h2]
        · rw [if_neg h2, if_neg h2, if_neg (by omega)]⟩ (by
      rintro d G h1 h2 ⟨hr, hc, hv⟩
      rw [colOf_ok (show d - 1 < X.c by omega), colOf_ok (show d < X.c by omega), colOf_ok (show d + 1 < X.c by omega)]
      refine ⟨_, rfl, hr, hc, fun p q hq => ?_⟩
      simp only [putCol]
      by_cases hqd : q = d
      · subst hqd
        rw [if_pos rfl, hv p q hq, if_neg (by omega), if_neg (by omega), if_neg (by omega), if_neg (by omega), if_neg (by omega),
          if_pos (by omega), zero_add]
      · rw [if_neg hqd, hv p q hq]
        by_cases a1 : q = X.c - 1
        · rw [if_pos a1, if_pos a1]
        · rw [if_neg a1, if_neg a1]
          by_cases a2 : q = 0
          · rw [if_pos a2, if_pos a2]
          · rw [if_neg a2, if_neg a2]
            by_cases a3 : q < d
            · rw [if_pos a3, if_pos (by omega)]
            · rw [if_neg a3, if_neg (by omega)])
  refine ⟨G, h, hr, hc, fun p _ d hd => ?_⟩
  refine (rosen_deriv a hd (X.get p)).congr_deriv ?_
  rw [hv p d hd]
  by_cases a1 : d = X.c - 1
  · subst a1
    rw [if_pos rfl, if_neg (by omega), if_pos (by omega), zero_add, show X.c - 1 - 1 = X.c - 2 by omega]
  · rw [if_neg a1, if_pos (by omega)]
    by_cases a2 : d = 0
    · subst a2
      rw [if_pos rfl, if_neg (by omega), add_zero]
    · rw [if_neg a2, if_pos (by omega), if_pos (by omega)]

/-- **C108.** For a single variable the gradient of the Rosenbrock function is refused. -/
theorem C108_one_variable (X : Arr2) (a : ℝ) (hX : X.c < 2) : rosenGrad X a = .error .index := by
  have h1 : ∀ h : Arr1 → Py Arr2, ((colOf X 1) >>= h) = .error .index := by
    intro h; unfold colOf; rw [if_neg (by omega)]; rfl
  unfold rosenGrad
  by_cases h0 : 0 < X.c
  · rw [colOf_ok h0]
    exact h1 _
  · unfold colOf; rw [if_neg h0]; rfl

/-- **C108.** With `a > 0` and two or more variables the function is positive except at `(1, ..., 1)`, where it is 0. -/
theorem C108_minimum {a : ℝ} (ha : 0 < a) {dim : ℕ} (hd : 2 ≤ dim) (x : ℕ → ℝ) :
    0 ≤ rosen a dim x ∧ (rosen a dim x = 0 ↔ ∀ d < dim, x d = 1) := by
  have hn : ∀ d ∈ Finset.range (dim - 1), 0 ≤ a * (x (d + 1) - x d ^ 2) ^ 2 + (1 - x d) ^ 2 := fun d _ => by positivity
  refine ⟨Finset.sum_nonneg hn, ?_⟩
  unfold rosen
  rw [Finset.sum_eq_zero_iff_of_nonneg hn]
  constructor
  · intro h d hdd
    have key : ∀ e < dim - 1, x e = 1 ∧ x (e + 1) = 1 := by
      intro e he
      have := h e (Finset.mem_range.mpr he)
      have p1 : 0 ≤ a * (x (e + 1) - x e ^ 2) ^ 2 := by positivity
      have p2 : 0 ≤ (1 - x e) ^ 2 := by positivity
      have q1 : a * (x (e + 1) - x e ^ 2) ^ 2 = 0 := by linarith
      have q2 : (1 - x e) ^ 2 = 0 := by linarith
      have r2 : x e = 1 := by have := pow_eq_zero_iff (two_ne_zero) |>.mp q2; linarith
      have r1 : x (e + 1) - x e ^ 2 = 0 := by
        rcases mul_eq_zero.mp q1 with h | h
        · exact absurd h ha.ne'
        · exact pow_eq_zero_iff (two_ne_zero) |>.mp h
      exact ⟨r2, by rw [r2] at r1; linarith⟩
    by_cases he : d < dim - 1
    · exact (key d he).1
    · have := (key (d - 1) (by omega)).2
      rwa [show d - 1 + 1 = d by omega] at this
  · intro h d hdd
    have hdd := Finset.mem_range.mp hdd
    rw [h d (by omega), h (d + 1) (by omega)]; ring

/-- **C108.** The function of one variable and its derivative. -/
theorem C108_sine (X : Arr2) (hX : 1 ≤ X.c) :
    ∃ F G, sineObj X = .ok F ∧ sineGrad X = .ok G ∧ F.n = X.r ∧ G.r = X.r ∧ G.c = 1 ∧
      ∀ p < X.r, F.get p = Real.sin (X.get p 0) + Real.sin (10 * X.get p 0 / 3) ∧
        HasDerivAt (fun s => Real.sin s + Real.sin (10 * s / 3)) (G.get p 0) (X.get p 0) := by
  unfold sineObj sineGrad
  rw [colOf_ok (show 0 < X.c by omega)]
  refine ⟨_, _, rfl, rfl, rfl, rfl, rfl, fun p _ => ⟨rfl, ?_⟩⟩
  have h1 : HasDerivAt (fun s : ℝ => 10 * s / 3) (10 / 3) (X.get p 0) := by
    have := ((hasDerivAt_id' (X.get p 0)).const_mul 10).div_const 3
    simpa using this
  exact ((Real.hasDerivAt_sin _).fun_add h1.sin).congr_deriv (by ring)

/-- Two points with three coordinates. -/
def exRosen : Arr2 := ⟨2, 3, fun p d => p + 2 * d⟩
example := C108_objective exRosen 10
example := C108_gradient exRosen 10 (by decide)
example := C108_one_variable ⟨2, 1, fun p _ => p⟩ 10 (by decide)
example := C108_minimum (a := 10) (by norm_num) (dim := 3) (by norm_num) (fun d => d)
example := C108_sine ⟨2, 1, fun p _ => p⟩ (by decide)

end Props
