import Verif.Model.GradCheck
import Verif.Props.EvalDerivs
import Verif.Props.Invariance
import Mathlib.Analysis.Calculus.Deriv.Basic
import Mathlib.Analysis.Calculus.Deriv.Slope
import Mathlib.Analysis.Calculus.Taylor
import Mathlib.Analysis.Calculus.MeanValue

/-! C104: the finite-difference check of a gradient. -/

open Np Spec GP Filter Topology Matrix

noncomputable section

namespace Props

/-- The function handle of `m` functions `F 0, …, F (m-1)` of the coordinates of a point. -/
def funHandle (m : ℕ) (F : ℕ → (ℕ → ℝ) → ℝ) : Arr1 → Py Arr1 := fun x => .ok ⟨m, fun k => F k x.get⟩

/-- What the check compares with the gradient. -/
def diffQuot (h : ℝ → ℝ) (a eps : ℝ) : Bool → ℝ
  | true => (h (a + eps) - h (a - eps)) / (2 * eps)
  | false => (h (a + eps) - h a) / eps

theorem stepAt_eq (x0 : Arr1) (i : ℕ) (s : ℝ) :
    (stepAt x0 i s).get = Function.update x0.get i (x0.get i + s) := by
  funext j
  by_cases h : j = i
  · subst h; simp [stepAt]
  · simp [stepAt, h]

theorem sub1_same (a b : Arr1) (h : a.n = b.n) : sub1 a b = .ok ⟨a.n, fun k => a.get k - b.get k⟩ := by
  simp [sub1, bdim, bidx, h]

theorem setCol_same (A : Arr2) (i : ℕ) (v : Arr1) (hi : i < A.c) (hv : v.n = A.r) :
    setCol A i v = .ok ⟨A.r, A.c, fun p q => if q = i then v.get p else A.get p q⟩ := by
  simp [setCol, hi, hv, bidx]

theorem fdGrad_ok (x0 : Arr1) (m : ℕ) (F : ℕ → (ℕ → ℝ) → ℝ) (eps : ℝ) (cent : Bool) :
    ∃ A, fdGrad x0 (funHandle m F) ⟨m, fun k => F k x0.get⟩ eps cent = .ok A ∧ A.r = m ∧ A.c = x0.n ∧
      ∀ k, ∀ i < x0.n, A.get k i = diffQuot (fun t => F k (Function.update x0.get i t)) (x0.get i) eps cent := by
  unfold fdGrad
  obtain ⟨A, hA, h1, h2, h3⟩ := forRange_inv
    (fun j (A : Arr2) => A.r = m ∧ A.c = x0.n ∧
      ∀ k, ∀ i < j, A.get k i = diffQuot (fun t => F k (Function.update x0.get i t)) (x0.get i) eps cent)
    (Nat.zero_le x0.n) (init := Arr2.zeros m x0.n) ⟨rfl, rfl, by intro k i h; omega⟩
    (body := fun i A => do
      let fp ← funHandle m F (stepAt x0 i eps)
      if cent then
        let fm ← funHandle m F (stepAt x0 i (-eps))
        let d ← sub1 fp fm
        setCol A i (d.map fun v => v / (2 * eps))
      else
        let d ← sub1 fp ⟨m, fun k => F k x0.get⟩
        setCol A i (d.map fun v => v / eps)) (by
      intro i A _ hi ⟨hr, hc, hg⟩
      cases cent with
      | true =>
        simp only [funHandle, ok_bind, if_true]
        rw [sub1_same _ _ (by rfl)]
        simp only [ok_bind]
        rw [setCol_same _ _ _ (hc ▸ hi) (by rw [hr]; rfl)]
        refine ⟨_, rfl, hr, hc, ?_⟩
        intro k j hj
        dsimp only
        by_cases hji : j = i
        · subst hji
          rw [if_pos rfl]
          simp [Arr1.map, stepAt_eq, diffQuot, sub_eq_add_neg]
        · rw [if_neg hji]
          exact hg k j (by omega)
      | false =>
        simp only [funHandle, ok_bind, Bool.false_eq_true, if_false]
        rw [sub1_same _ _ (by rfl)]
        simp only [ok_bind]
        rw [setCol_same _ _ _ (hc ▸ hi) (by rw [hr]; rfl)]
        refine ⟨_, rfl, hr, hc, ?_⟩
        intro k j hj
        dsimp only
        by_cases hji : j = i
        · subst hji
          rw [if_pos rfl]
          simp [Arr1.map, stepAt_eq, diffQuot]
        · rw [if_neg hji]
          exact hg k j (by omega))
  exact ⟨A, hA, h1, h2, h3⟩

theorem diffQuot_tendsto {h : ℝ → ℝ} {a d : ℝ} (hd : HasDerivAt h d a) (cent : Bool) :
    Tendsto (fun eps => diffQuot h a eps cent) (𝓝[≠] 0) (𝓝 d) := by
  have h1 : Tendsto (fun e => (h (a + e) - h a) / e) (𝓝[≠] 0) (𝓝 d) := by
    have := hd.tendsto_slope_zero
    refine this.congr fun e => ?_
    simp [div_eq_inv_mul]
  cases cent with
  | false => exact h1
  | true =>
    have hneg : Tendsto (fun e : ℝ => -e) (𝓝[≠] 0) (𝓝[≠] 0) := by
      refine tendsto_nhdsWithin_iff.2 ⟨?_, ?_⟩
      · have : Tendsto (fun e : ℝ => -e) (𝓝 0) (𝓝 (-0)) := tendsto_id.neg
        rw [neg_zero] at this
        exact this.mono_left nhdsWithin_le_nhds
      · filter_upwards [self_mem_nhdsWithin] with e he
        simpa using he
    have h2 := h1.comp hneg
    have h3 := (h1.add h2).div_const 2
    rw [show (d + d) / 2 = d by ring] at h3
    refine h3.congr' ?_
    filter_upwards [self_mem_nhdsWithin] with e he
    have he : e ≠ 0 := he
    simp only [diffQuot, Function.comp_apply, ← sub_eq_add_neg]
    field_simp
    ring

/-- C104: for functions with partial derivatives, the finite differences that the check reports, and hence their difference to
the gradient it was given, converge to the partial derivatives (to the difference) as the step tends to 0; the gradient is returned
as it was given. -/
theorem C104_converges (x0 : Arr1) (m : ℕ) (F : ℕ → (ℕ → ℝ) → ℝ) (g : Arr1 → Py GradVal) (G D : Arr2) (cent : Bool)
    (hg : g x0 = .ok (.mat G)) (hr : G.r = m) (hc : G.c = x0.n)
    (hD : ∀ k < m, ∀ i < x0.n, HasDerivAt (fun t => F k (Function.update x0.get i t)) (D.get k i) (x0.get i)) :
    ∃ A : ℝ → Arr2, (∀ eps, testGradCalc x0 (funHandle m F) g eps cent = .ok (.mat (A eps), .mat G) ∧
        (A eps).r = m ∧ (A eps).c = x0.n) ∧
      ∀ k < m, ∀ i < x0.n, Tendsto (fun eps => (A eps).get k i) (𝓝[≠] 0) (𝓝 (D.get k i)) := by
  choose A hA h1 h2 h3 using fun eps => fdGrad_ok x0 m F eps cent
  refine ⟨A, fun eps => ⟨?_, h1 eps, h2 eps⟩, fun k hk i hi => ?_⟩
  · simp only [testGradCalc, hg, ok_bind]
    have : (funHandle m F x0) = .ok ⟨m, fun k => F k x0.get⟩ := rfl
    rw [this]
    simp only [ok_bind, hA]
    rw [Arr2.sub_ok (by rw [h1, hr]) (by rw [h2, hc])]
    rfl
  · refine (diffQuot_tendsto (hD k hk i hi) cent).congr fun eps => ?_
    rw [h3 eps k i hi]

/-- The same for a single function whose gradient is given as a 1-d array. -/
theorem C104_converges_scalar (x0 : Arr1) (F : (ℕ → ℝ) → ℝ) (g : Arr1 → Py GradVal) (G D : Arr1) (cent : Bool)
    (hg : g x0 = .ok (.vec G)) (hc : G.n = x0.n)
    (hD : ∀ i < x0.n, HasDerivAt (fun t => F (Function.update x0.get i t)) (D.get i) (x0.get i)) :
    ∃ A : ℝ → Arr1, (∀ eps, testGradCalc x0 (funHandle 1 fun _ => F) g eps cent = .ok (.vec (A eps), .vec G) ∧
        (A eps).n = x0.n) ∧
      ∀ i < x0.n, Tendsto (fun eps => (A eps).get i) (𝓝[≠] 0) (𝓝 (D.get i)) := by
  choose A hA h1 h2 h3 using fun eps => fdGrad_ok x0 1 (fun _ => F) eps cent
  refine ⟨fun eps => ⟨(A eps).c, fun j => (A eps).get 0 j⟩, fun eps => ⟨?_, h2 eps⟩, fun i hi => ?_⟩
  · simp only [testGradCalc, hg, ok_bind]
    have : (funHandle 1 (fun _ => F) x0) = .ok ⟨1, fun k => F x0.get⟩ := rfl
    rw [this]
    simp only [ok_bind, hA, pyAssert_true]
    rw [sub1_same _ _ (by rw [hc, h2])]
    rfl
  · refine (diffQuot_tendsto (hD i hi) cent).congr fun eps => ?_
    exact (h3 eps 0 i hi).symm

/-- C104: a gradient given as a 1-d array for more (or fewer) than one function is refused. -/
theorem C104_refuses (x0 : Arr1) (m : ℕ) (hm : m ≠ 1) (F : ℕ → (ℕ → ℝ) → ℝ) (g : Arr1 → Py GradVal) (G : Arr1) (eps : ℝ)
    (cent : Bool) (hg : g x0 = .ok (.vec G)) : testGradCalc x0 (funHandle m F) g eps cent = .error .assertion := by
  obtain ⟨A, hA, -⟩ := fdGrad_ok x0 m F eps cent
  simp only [testGradCalc, hg, ok_bind]
  have : (funHandle m F x0) = .ok ⟨m, fun k => F k x0.get⟩ := rfl
  rw [this]
  simp only [ok_bind, hA]
  rw [pyAssert_false (b := m = 1) hm]
  rfl

/-- C104: with central differences the check is exact, for every step, if the functions are quadratic along each axis; with one-sided
differences if they are affine along each axis. -/
theorem C104_exact (x0 : Arr1) (m : ℕ) (F : ℕ → (ℕ → ℝ) → ℝ) (g : Arr1 → Py GradVal) (G : Arr2) (cent : Bool) (eps : ℝ)
    (he : eps ≠ 0) (hg : g x0 = .ok (.mat G)) (hr : G.r = m) (hc : G.c = x0.n) (a b c : ℕ → ℕ → ℝ)
    (hF : ∀ k < m, ∀ i < x0.n, ∀ t, F k (Function.update x0.get i t) = a k i + b k i * t + c k i * t ^ 2)
    (hcent : cent = false → ∀ k < m, ∀ i < x0.n, c k i = 0) :
    ∃ A : Arr2, testGradCalc x0 (funHandle m F) g eps cent = .ok (.mat A, .mat G) ∧
      ∀ k < m, ∀ i < x0.n, A.get k i = deriv (fun t => F k (Function.update x0.get i t)) (x0.get i) := by
  obtain ⟨A, hA, h1, h2, h3⟩ := fdGrad_ok x0 m F eps cent
  refine ⟨A, ?_, fun k hk i hi => ?_⟩
  · simp only [testGradCalc, hg, ok_bind]
    have : (funHandle m F x0) = .ok ⟨m, fun k => F k x0.get⟩ := rfl
    rw [this]
    simp only [ok_bind, hA]
    rw [Arr2.sub_ok (by rw [h1, hr]) (by rw [h2, hc])]
    rfl
  · have hfun : (fun t => F k (Function.update x0.get i t)) = fun t => a k i + b k i * t + c k i * t ^ 2 :=
      funext (hF k hk i hi)
    have hd : HasDerivAt (fun t : ℝ => a k i + b k i * t + c k i * t ^ 2) (b k i + 2 * c k i * x0.get i) (x0.get i) := by
      have h4 := (((hasDerivAt_id (x0.get i)).const_mul (b k i)).const_add (a k i)).add
        (((hasDerivAt_id (x0.get i)).pow 2).const_mul (c k i))
      refine h4.congr_deriv ?_
      simp
      ring
    rw [h3 k i hi, hfun, hd.deriv]
    cases cent with
    | true => simp only [diffQuot]; field_simp; ring
    | false =>
      rw [hcent rfl k hk i hi]
      simp only [diffQuot]; field_simp; ring

/-- A function with value 0 at 0 whose derivative is at most `C s ^ n` is at most `C s ^ (n+1) / (n+1)`. -/
theorem grow {f f' : ℝ → ℝ} {C e : ℝ} (n : ℕ) (h0 : f 0 = 0) (hf : ∀ s ∈ Set.Icc 0 e, HasDerivAt f (f' s) s)
    (hb : ∀ s ∈ Set.Icc 0 e, |f' s| ≤ C * s ^ n) : ∀ s ∈ Set.Icc 0 e, |f s| ≤ C / (n + 1) * s ^ (n + 1) := by
  intro s hs
  have hB : ∀ x : ℝ, HasDerivAt (fun s : ℝ => C / (n + 1) * s ^ (n + 1)) (C * x ^ n) x := by
    intro x
    have := (hasDerivAt_pow (n + 1) x).const_mul (C / ((n : ℝ) + 1))
    refine this.congr_deriv ?_
    have : (n : ℝ) + 1 ≠ 0 := by positivity
    push_cast
    field_simp
    try rfl
  have := image_norm_le_of_norm_deriv_right_le_deriv_boundary (f := f) (f' := f') (a := 0) (b := e)
    (fun x hx => (hf x hx).continuousAt.continuousWithinAt)
    (fun x hx => (hf x ⟨hx.1, hx.2.le⟩).hasDerivWithinAt) (B := fun s : ℝ => C / (n + 1) * s ^ (n + 1))
    (B' := fun s => C * s ^ n) (by simp [h0]) hB (fun x hx => by simpa using hb x ⟨hx.1, hx.2.le⟩) hs
  simpa using this

theorem diffQuot_central_error {h h1 h2 h3 : ℝ → ℝ} {a eps M : ℝ} (he : 0 < eps)
    (H1 : ∀ t, |t - a| ≤ eps → HasDerivAt h (h1 t) t) (H2 : ∀ t, |t - a| ≤ eps → HasDerivAt h1 (h2 t) t)
    (H3 : ∀ t, |t - a| ≤ eps → HasDerivAt h2 (h3 t) t) (hM : ∀ t, |t - a| ≤ eps → |h3 t| ≤ M) :
    |diffQuot h a eps true - h1 a| ≤ M / 6 * eps ^ 2 := by
  have hp : ∀ s ∈ Set.Icc 0 eps, |(a + s) - a| ≤ eps := fun s hs => by
    rw [add_sub_cancel_left, abs_of_nonneg hs.1]; exact hs.2
  have hm : ∀ s ∈ Set.Icc 0 eps, |(a - s) - a| ≤ eps := fun s hs => by
    rw [show a - s - a = -s by ring, abs_neg, abs_of_nonneg hs.1]; exact hs.2
  have fp : ∀ (u u' : ℝ → ℝ) (s : ℝ), HasDerivAt u (u' (a + s)) (a + s) → HasDerivAt (fun s => u (a + s)) (u' (a + s)) s :=
    fun u u' s hu => by
      have := hu.comp s ((hasDerivAt_id s).const_add a)
      exact this.congr_deriv (by simp)
  have fm : ∀ (u u' : ℝ → ℝ) (s : ℝ), HasDerivAt u (u' (a - s)) (a - s) → HasDerivAt (fun s => u (a - s)) (-u' (a - s)) s :=
    fun u u' s hu => by
      have := hu.comp s ((hasDerivAt_id s).const_sub a)
      exact this.congr_deriv (by simp)
  have s2 := grow (f := fun s => h2 (a + s) - h2 (a - s)) (f' := fun s => h3 (a + s) - -h3 (a - s)) (C := 2 * M) (e := eps) 0
    (by simp) (fun s hs => (fp _ _ s (H3 _ (hp s hs))).sub (fm _ _ s (H3 _ (hm s hs))))
    (fun s hs => by
      have := abs_sub (h3 (a + s)) (-h3 (a - s))
      rw [abs_neg] at this
      have e1 := hM _ (hp s hs)
      have e2 := hM _ (hm s hs)
      simp only [pow_zero, mul_one]
      linarith)
  have s1 := grow (f := fun s => h1 (a + s) + h1 (a - s) - 2 * h1 a) (f' := fun s => h2 (a + s) - h2 (a - s)) (C := 2 * M)
    (e := eps) 1 (by simp; ring)
    (fun s hs => by
      have := ((fp _ _ s (H2 _ (hp s hs))).add (fm _ _ s (H2 _ (hm s hs)))).sub_const (2 * h1 a)
      simpa [sub_eq_add_neg] using this)
    (fun s hs => by simpa using s2 s hs)
  have s0 := grow (f := fun s => h (a + s) - h (a - s) - 2 * h1 a * s) (f' := fun s => h1 (a + s) + h1 (a - s) - 2 * h1 a)
    (C := M) (e := eps) 2 (by simp)
    (fun s hs => by
      have := ((fp _ _ s (H1 _ (hp s hs))).sub (fm _ _ s (H1 _ (hm s hs)))).sub ((hasDerivAt_id s).const_mul (2 * h1 a))
      exact this.congr_deriv (by ring))
    (fun s hs => by
      have := s1 s hs
      norm_num at this ⊢
      linarith)
  have := s0 eps ⟨he.le, le_rfl⟩
  have hq : diffQuot h a eps true - h1 a = (h (a + eps) - h (a - eps) - 2 * h1 a * eps) / (2 * eps) := by
    simp only [diffQuot]; field_simp
  rw [hq, abs_div, abs_of_pos (by linarith : (0:ℝ) < 2 * eps), div_le_iff₀ (by linarith)]
  refine this.trans (le_of_eq ?_)
  norm_num
  ring

theorem diffQuot_forward_error {h h1 h2 : ℝ → ℝ} {a eps M : ℝ} (he : 0 < eps)
    (H1 : ∀ t, |t - a| ≤ eps → HasDerivAt h (h1 t) t) (H2 : ∀ t, |t - a| ≤ eps → HasDerivAt h1 (h2 t) t)
    (hM : ∀ t, |t - a| ≤ eps → |h2 t| ≤ M) : |diffQuot h a eps false - h1 a| ≤ M / 2 * eps := by
  have hp : ∀ s ∈ Set.Icc 0 eps, |(a + s) - a| ≤ eps := fun s hs => by
    rw [add_sub_cancel_left, abs_of_nonneg hs.1]; exact hs.2
  have fp : ∀ (u u' : ℝ → ℝ) (s : ℝ), HasDerivAt u (u' (a + s)) (a + s) → HasDerivAt (fun s => u (a + s)) (u' (a + s)) s :=
    fun u u' s hu => by
      have := hu.comp s ((hasDerivAt_id s).const_add a)
      exact this.congr_deriv (by simp)
  have s1 := grow (f := fun s => h1 (a + s) - h1 a) (f' := fun s => h2 (a + s)) (C := M) (e := eps) 0 (by simp)
    (fun s hs => (fp _ _ s (H2 _ (hp s hs))).sub_const _) (fun s hs => by simpa using hM _ (hp s hs))
  have s0 := grow (f := fun s => h (a + s) - h a - h1 a * s) (f' := fun s => h1 (a + s) - h1 a) (C := M) (e := eps) 1 (by simp)
    (fun s hs => by
      have := ((fp _ _ s (H1 _ (hp s hs))).sub_const (h a)).sub ((hasDerivAt_id s).const_mul (h1 a))
      exact this.congr_deriv (by ring))
    (fun s hs => by simpa using s1 s hs)
  have := s0 eps ⟨he.le, le_rfl⟩
  have hq : diffQuot h a eps false - h1 a = (h (a + eps) - h a - h1 a * eps) / eps := by
    simp only [diffQuot]; field_simp
  rw [hq, abs_div, abs_of_pos he, div_le_iff₀ he]
  refine this.trans (le_of_eq ?_)
  norm_num
  ring

/-- C104: the accuracy of the check for a step `eps > 0`: with central differences at most `M eps² / 6`, where `M` bounds the third
derivatives along the axes; with one-sided differences at most `M eps / 2`, where `M` bounds the second ones. -/
theorem C104_accuracy (x0 : Arr1) (m : ℕ) (F : ℕ → (ℕ → ℝ) → ℝ) (g : Arr1 → Py GradVal) (G : Arr2) (eps M : ℝ)
    (he : 0 < eps) (hg : g x0 = .ok (.mat G)) (hr : G.r = m) (hc : G.c = x0.n) (D1 D2 D3 : ℕ → ℕ → ℝ → ℝ)
    (H1 : ∀ k < m, ∀ i < x0.n, ∀ t, |t - x0.get i| ≤ eps →
      HasDerivAt (fun t => F k (Function.update x0.get i t)) (D1 k i t) t)
    (H2 : ∀ k < m, ∀ i < x0.n, ∀ t, |t - x0.get i| ≤ eps → HasDerivAt (D1 k i) (D2 k i t) t)
    (H3 : ∀ k < m, ∀ i < x0.n, ∀ t, |t - x0.get i| ≤ eps → HasDerivAt (D2 k i) (D3 k i t) t) :
    ((∀ k < m, ∀ i < x0.n, ∀ t, |t - x0.get i| ≤ eps → |D3 k i t| ≤ M) →
      ∃ A : Arr2, testGradCalc x0 (funHandle m F) g eps true = .ok (.mat A, .mat G) ∧
        ∀ k < m, ∀ i < x0.n, |A.get k i - D1 k i (x0.get i)| ≤ M / 6 * eps ^ 2) ∧
    ((∀ k < m, ∀ i < x0.n, ∀ t, |t - x0.get i| ≤ eps → |D2 k i t| ≤ M) →
      ∃ A : Arr2, testGradCalc x0 (funHandle m F) g eps false = .ok (.mat A, .mat G) ∧
        ∀ k < m, ∀ i < x0.n, |A.get k i - D1 k i (x0.get i)| ≤ M / 2 * eps) := by
  have run : ∀ cent, ∃ A : Arr2, testGradCalc x0 (funHandle m F) g eps cent = .ok (.mat A, .mat G) ∧
      ∀ k, ∀ i < x0.n, A.get k i = diffQuot (fun t => F k (Function.update x0.get i t)) (x0.get i) eps cent := by
    intro cent
    obtain ⟨A, hA, h1, h2, h3⟩ := fdGrad_ok x0 m F eps cent
    refine ⟨A, ?_, h3⟩
    simp only [testGradCalc, hg, ok_bind]
    have : (funHandle m F x0) = .ok ⟨m, fun k => F k x0.get⟩ := rfl
    rw [this]
    simp only [ok_bind, hA]
    rw [Arr2.sub_ok (by rw [h1, hr]) (by rw [h2, hc])]
    rfl
  constructor
  · intro hM
    obtain ⟨A, hA, h⟩ := run true
    refine ⟨A, hA, fun k hk i hi => ?_⟩
    rw [h k i hi]
    exact diffQuot_central_error he (H1 k hk i hi) (H2 k hk i hi) (H3 k hk i hi) (hM k hk i hi)
  · intro hM
    obtain ⟨A, hA, h⟩ := run false
    refine ⟨A, hA, fun k hk i hi => ?_⟩
    rw [h k i hi]
    exact diffQuot_forward_error he (H1 k hk i hi) (H2 k hk i hi) (hM k hk i hi)

/-- One point as a batch. -/
def oneRowArr (dim : ℕ) (x : Arr1) : Arr2 := ⟨1, dim, fun _ d => x.get d⟩

/-- The predicted mean at one point, as a function handle. -/
def muHandle (g : Gp) (st : EvalState g.nData) (hp : HpVals) : Arr1 → Py Arr1 := fun x => do
  let o ← evalModel g st hp (oneRowArr g.dim x) false false
  pure ⟨1, fun _ => o.mu ⟨0, Nat.one_pos⟩⟩

/-- The gradient of the predicted mean at one point (`dmu_dx[0,:]`), as a function handle. -/
def dmuHandle (g : Gp) (st : EvalState g.nData) (hp : HpVals) : Arr1 → Py GradVal := fun x => do
  let o ← evalModel g st hp (oneRowArr g.dim x) true false
  let d ← need o.dmu
  pure (.vec ⟨g.dim, fun j => if h : j < g.dim then d ⟨0, Nat.one_pos⟩ ⟨j, h⟩ else 0⟩)

/-- C104: the check of the predicted mean against the gradient that `eval_model` returns, at every point: the finite differences
converge to that gradient. -/
theorem C104_predicted_mean {g : Gp} {hp : HpVals} {v β : ℝ} (hr : Ready g hp v β) {cc : Bool} {st : EvalState g.nData}
    (hst : setupEvalModel g hp cc = .ok st) (hF : st.chofac ≠ none) (x0 : Arr1) (hx : x0.n = g.dim) (cent : Bool) :
    ∃ (A : ℝ → Arr1) (G : Arr1), G.n = g.dim ∧
      (∀ eps, testGradCalc x0 (muHandle g st hp) (dmuHandle g st hp) eps cent = .ok (.vec (A eps), .vec G) ∧ (A eps).n = g.dim) ∧
      ∀ i < g.dim, Tendsto (fun eps => (A eps).get i) (𝓝[≠] 0) (𝓝 (G.get i)) := by
  obtain ⟨N, K, hs, hN⟩ := ready_setup hr.toV hst
  have hf : muHandle g st hp =
      funHandle 1 fun _ p => muF g hp (st.KernEta⁻¹ *ᵥ (st.dataVec - priorMean g β)) β p := by
    funext x
    simp only [muHandle]
    rw [ready_eval hr hs hF (X := oneRowArr g.dim x) rfl Nat.one_pos false false noHess]
    rfl
  obtain ⟨o, d, ho, hd, -⟩ := C39_mean_gradient hr hst hF (X := oneRowArr g.dim x0) rfl Nat.one_pos
  have hev := ready_eval hr hs hF (X := oneRowArr g.dim x0) rfl Nat.one_pos true false noHess
  rw [ho] at hev
  have hde : ∀ i : Fin g.dim, d ⟨0, Nat.one_pos⟩ i =
      dmuF g hp (st.KernEta⁻¹ *ᵥ (st.dataVec - priorMean g β)) x0.get i := by
    intro i
    rw [Except.ok.inj hev] at hd
    exact (congrFun (congrFun (Option.some.inj hd) _) i).symm
  obtain ⟨A, h1, h2⟩ := C104_converges_scalar x0
    (fun p => muF g hp (st.KernEta⁻¹ *ᵥ (st.dataVec - priorMean g β)) β p) (dmuHandle g st hp)
    ⟨g.dim, fun j => if h : j < g.dim then d ⟨0, Nat.one_pos⟩ ⟨j, h⟩ else 0⟩
    ⟨g.dim, fun j => if h : j < g.dim then d ⟨0, Nat.one_pos⟩ ⟨j, h⟩ else 0⟩ cent
    (by simp only [dmuHandle, ho, ok_bind, hd, need]; rfl) hx.symm (by
      intro i hi
      rw [hx] at hi
      dsimp only
      rw [dif_pos hi, hde]
      exact muF_deriv hr.ok hr.adm _ β x0.get hi)
  refine ⟨A, _, rfl, fun eps => ?_, fun i hi => h2 i (hx ▸ hi)⟩
  rw [hf]
  exact ⟨(h1 eps).1, (h1 eps).2.trans hx⟩

-- C104 with two quadratic functions of two variables
example := C104_exact ⟨2, fun i => i + 1⟩ 2 (fun k p => (k + 1) * p 0 + p 1 ^ 2)
  (fun _ => .ok (.mat ⟨2, 2, fun k i => if i = 0 then k + 1 else 4⟩)) ⟨2, 2, fun k i => if i = 0 then k + 1 else 4⟩ true 3
  (by norm_num) rfl rfl rfl
  (fun k i => if i = 0 then 4 else k + 1) (fun k i => if i = 0 then k + 1 else 0) (fun _ i => if i = 0 then 0 else 1)
  (by
    intro k hk i hi t
    have : i = 0 ∨ i = 1 := by
      have : i < 2 := hi
      omega
    rcases this with rfl | rfl
    · simp [Function.update]; norm_num; ring
    · simp [Function.update])
  (by intro h; cases h)

-- and a wrong gradient: the finite differences converge to the right one
example := C104_converges_scalar ⟨1, fun _ => 2⟩ (fun p => p 0 ^ 2) (fun _ => .ok (.vec ⟨1, fun _ => 5⟩)) ⟨1, fun _ => 5⟩
  ⟨1, fun _ => 4⟩ false rfl rfl (by
    intro i hi
    obtain rfl : i = 0 := by
      have : i < 1 := hi
      omega
    have := (hasDerivAt_id (2 : ℝ)).pow 2
    simp only [Function.update_self]
    refine this.congr_deriv ?_
    norm_num)

-- the predictions of the example object
example : ∃ st, setupEvalModel exGp exHpB false = .ok st ∧ ∃ (A : ℝ → Arr1) (G : Arr1),
    ∀ eps, testGradCalc ⟨2, fun _ => 7⟩ (muHandle exGp st exHpB) (dmuHandle exGp st exHpB) eps true =
      .ok (.vec (A eps), .vec G) := by
  obtain ⟨st, h1, h2⟩ := ready_total exReady.toV (by norm_num [exGp])
  obtain ⟨A, G, -, h, -⟩ := C104_predicted_mean exReady h1 h2 ⟨2, fun _ => 7⟩ rfl true
  exact ⟨st, h1, A, G, fun eps => (h eps).1⟩

end Props
