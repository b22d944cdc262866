import Verif.Model.MeanFun
import Verif.Proofs.MaskSel
import Verif.Spec.LkdSpec
import Mathlib.Analysis.Calculus.Deriv.Add
import Mathlib.Analysis.Calculus.Deriv.Mul

/-! Property C68: the basis matrix of the mean function. -/

open Np Spec GP

noncomputable section

namespace Spec

/-- Basis functions of the polynomial mean function: the constant and, for order one, the coordinates. -/
def polyBasis (k : ℕ) (x : ℕ → ℝ) : ℝ := match k with | 0 => 1 | k + 1 => x k

end Spec

namespace GP

theorem vandBase_ok {dim nb : ℕ} {X : Arr2} (hX : X.c = dim) (hnb : nb = 1 ∨ nb = dim + 1) :
    ∃ B, vandBase dim nb X = .ok B ∧ B.r = X.r ∧ B.c = nb ∧ ∀ p < X.r, ∀ k < nb, B.get p k = polyBasis k (X.get p) := by
  have h0 : nb ≠ 0 := by omega
  by_cases h1 : 1 < nb
  · have hnb' : nb = dim + 1 := by omega
    have he : vandBase dim nb X = .ok (Arr2.upd (fun _ v => v) ⟨X.r, nb, fun i j => if j = 0 then 1 else 0⟩ 0 X.r 1 (dim + 1) X) := by
      unfold vandBase
      simp only [h0, if_false, h1, if_true]
      exact Arr2.modSlice_ok (by simp) (by simp) (by rw [hX]; omega) (by simp [hnb'])
    refine ⟨_, he, rfl, rfl, ?_⟩
    · intro p hp k hk
      rw [Arr2.upd_get]
      cases k with
      | zero => simp [polyBasis]
      | succ k => simp [polyBasis, hp]; omega
  · have : nb = 1 := by omega
    subst this
    refine ⟨_, rfl, rfl, rfl, ?_⟩
    intro p hp k hk
    have : k = 0 := by omega
    subst this; simp [polyBasis]

theorem vandGrad_ok {dim nb : ℕ} {X : Arr2} (hnb : nb = 1 ∨ nb = dim + 1) :
    ∃ G, vandGrad dim nb X = .ok G ∧ G.d = dim ∧ G.r = X.r ∧ G.c = nb ∧
      ∀ i < dim, ∀ a < X.r, ∀ k < nb, G.get i a k = if k = i + 1 then 1 else 0 := by
  unfold vandGrad
  by_cases h1 : 1 < nb
  · have hnb' : nb = dim + 1 := by omega
    simp only [h1, if_true]
    obtain ⟨G, hG, hP⟩ := forRange_inv (fun j (G : Arr3) => G.d = dim ∧ G.r = X.r ∧ G.c = nb ∧
        ∀ i < dim, ∀ a k, G.get i a k = if i < j ∧ k = i + 1 then 1 else 0) (Nat.zero_le dim)
        (init := Arr3.zeros dim X.r nb)
        (body := fun i G => if i + 1 < nb then .ok ⟨G.d, G.r, G.c, fun d a k => if d = i ∧ k = i + 1 then 1 else G.get d a k⟩
          else .error .index) ⟨rfl, rfl, rfl, by simp⟩ (by
        rintro i G - hi ⟨h1, h2, h3, h4⟩
        rw [if_pos (by omega)]
        refine ⟨_, rfl, h1, h2, h3, ?_⟩
        intro d hd a k
        simp only [h4 d hd]
        by_cases hdi : d = i
        · subst hdi; simp
        · simp only [hdi, false_and, if_false]
          congr 1
          simp only [eq_iff_iff]
          constructor <;> rintro ⟨h, h'⟩ <;> exact ⟨by omega, h'⟩)
    refine ⟨G, hG, hP.1, hP.2.1, hP.2.2.1, ?_⟩
    intro i hi a _ k _
    rw [hP.2.2.2 i hi a k]; simp [hi]
  · simp only [h1, if_false]
    refine ⟨_, rfl, rfl, rfl, rfl, ?_⟩
    intro i hi a _ k hk
    rw [if_neg (by omega)]; rfl

theorem maskRowsOpt_ok {A : Arr3} {m : Option (List Bool)} (hm : maskOk m A.r) :
    ∃ B, maskRowsOpt A m = .ok B ∧ B.d = A.d ∧ B.r = gN m A.r ∧ B.c = A.c ∧
      ∀ d i j, B.get d i j = A.get d (gSel m i) j := by
  cases m with
  | none => exact ⟨A, rfl, rfl, rfl, rfl, fun _ _ _ => rfl⟩
  | some l => exact ⟨_, Arr3.maskRows_ok (hm l rfl), rfl, rfl, rfl, fun _ _ _ => rfl⟩

/-- Closed form of the augmented basis matrix. -/
theorem calcAugVand_ok {dim nb : ℕ} {X : Arr2} (hX : X.c = dim) (hnb : nb = 1 ∨ nb = dim + 1) (useGrad : Bool)
    {m : Option (List Bool)} (hm : maskOk m X.r) :
    ∃ V, calcAugVand dim nb useGrad X m = .ok V ∧ V.c = nb ∧ V.r = X.r + (if useGrad then gN m X.r * dim else 0) ∧
      (∀ p < X.r, ∀ k < nb, V.get p k = polyBasis k (X.get p)) ∧
      (useGrad = true → ∀ i < dim, ∀ a < gN m X.r, ∀ k < nb, V.get (X.r + i * gN m X.r + a) k = if k = i + 1 then 1 else 0) := by
  obtain ⟨B, hB, hr, hc, hBv⟩ := vandBase_ok hX hnb
  unfold calcAugVand
  rw [pyAssert_true hX, ok_bind, hB, ok_bind]
  cases useGrad with
  | false => exact ⟨B, rfl, hc, by simp [hr], hBv, by simp⟩
  | true =>
    obtain ⟨G, hG, g1, g2, g3, g4⟩ := vandGrad_ok (dim := dim) (nb := nb) (X := X) hnb
    obtain ⟨H, hH, k1, k2, k3, k4⟩ := maskRowsOpt_ok (A := G) (m := m) (by rw [g2]; exact hm)
    rw [g2] at k2
    simp only [if_true, hG, ok_bind, hH, vstackGrad, hc, k3, g3]
    refine ⟨_, rfl, hc ▸ rfl, ?_, ?_, ?_⟩
    · simp [hr, k1, k2, g1, Nat.mul_comm]
    · intro p hp k hk
      simp only [hr, hp, if_true]
      exact hBv p hp k hk
    · intro _ i hi a ha k hk
      have h1 : ¬ X.r + i * gN m X.r + a < B.r := by rw [hr]; omega
      have h2 : X.r + i * gN m X.r + a - B.r = i * H.r + a := by rw [hr, k2]; omega
      have ha' : a < H.r := by rw [k2]; exact ha
      have h3 : (i * H.r + a) / H.r = i := by
        rw [Nat.add_comm, Nat.add_mul_div_right _ _ (by omega), Nat.div_eq_of_lt ha', Nat.zero_add]
      have h4 : (i * H.r + a) % H.r = a := by rw [Nat.add_comm, Nat.add_mul_mod_self_right, Nat.mod_eq_of_lt ha']
      simp only [h1, if_false, h2, h3, h4, k4]
      exact g4 i hi _ (gSel_lt hm ha) k hk

end GP

namespace Props

/-- **C68.** The augmented basis matrix: row `p` holds the basis functions at point `p`; row `n + i*g + a` holds their
partial derivatives wrt coordinate `i` at the `a`-th point that has a gradient (the position of that datum in the data
vector, C69). -/
theorem C68_basis_matrix {dim nb : ℕ} {X : Arr2} (hX : X.c = dim) (hnb : nb = 1 ∨ nb = dim + 1) (useGrad : Bool)
    {m : Option (List Bool)} (hm : maskOk m X.r) :
    ∃ V, calcAugVand dim nb useGrad X m = .ok V ∧ V.c = nb ∧ V.r = X.r + (if useGrad then gN m X.r * dim else 0) ∧
      (∀ p < X.r, ∀ k < nb, V.get p k = polyBasis k (X.get p)) ∧
      (useGrad = true → ∀ i < dim, ∀ a < gN m X.r, ∀ k < nb,
        HasDerivAt (fun t => polyBasis k (Function.update (X.get (gSel m a)) i t)) (V.get (X.r + i * gN m X.r + a) k)
          (X.get (gSel m a) i)) := by
  obtain ⟨V, hV, h1, h2, h3, h4⟩ := calcAugVand_ok hX hnb useGrad hm
  refine ⟨V, hV, h1, h2, h3, fun hu i hi a ha k hk => ?_⟩
  rw [h4 hu i hi a ha k hk]
  cases k with
  | zero => simpa [polyBasis] using hasDerivAt_const _ (1 : ℝ)
  | succ k =>
    by_cases hki : k = i
    · subst hki
      simp only [polyBasis, Function.update_self, if_true]
      exact hasDerivAt_id' _
    · have : k + 1 ≠ i + 1 := by omega
      simp only [this, if_false, polyBasis, Function.update_of_ne hki]
      exact hasDerivAt_const _ _

/-- **C68**, evaluation of the mean function at new points: the value is the linear combination of the basis functions,
and the gradient (rows: the selected points) is its derivative. -/
theorem C68_mean_function {dim nb : ℕ} {X : Arr2} (hX : X.c = dim) (hnb : nb = 1 ∨ nb = dim + 1)
    {m : Option (List Bool)} (hm : maskOk m X.r) (beta : Arr1) (hb : beta.n = nb) (calcHess : Bool) :
    let f := fun x => ∑ k ∈ Finset.range nb, polyBasis k x * beta.get k
    ∃ v g, (∃ h, evalMeanFun dim nb X beta m true calcHess = .ok (v, some g, h)) ∧ v.n = X.r ∧ g.r = gN m X.r ∧ g.c = dim ∧
      (∀ p < X.r, v.get p = f (X.get p)) ∧
      (∀ a < gN m X.r, ∀ i < dim,
        HasDerivAt (fun t => f (Function.update (X.get (gSel m a)) i t)) (g.get a i) (X.get (gSel m a) i)) := by
  intro f
  obtain ⟨B, hB, hr, hc, hBv⟩ := vandBase_ok hX hnb
  obtain ⟨G, hG, g1, g2, g3, g4⟩ := vandGrad_ok (dim := dim) (nb := nb) (X := X) hnb
  obtain ⟨H, hH, k1, k2, k3, k4⟩ := maskRowsOpt_ok (A := G) (m := m) (by rw [g2]; exact hm)
  rw [g2] at k2
  refine ⟨⟨B.r, fun p => ∑ k ∈ Finset.range B.c, B.get p k * beta.get k⟩, einsumMeanGrad H beta,
    ⟨if calcHess then some (Arr3.zeros X.r dim dim) else none, ?_⟩, hr, k2,
    by simp [einsumMeanGrad, k1, g1], ?_, ?_⟩
  · unfold evalMeanFun meanGradPart
    simp only [pyAssert_true hb, hB, ok_bind, if_true, hG, hH, pure_eq_ok]
    rfl
  · intro p hp
    simp only [hc, f]
    exact Finset.sum_congr rfl fun k hk => by rw [hBv p hp k (Finset.mem_range.mp hk)]
  · intro a ha i hi
    simp only [einsumMeanGrad, k3, g3, f]
    refine HasDerivAt.fun_sum fun k hk => ?_
    have hk' := Finset.mem_range.mp hk
    rw [k4, g4 i hi _ (gSel_lt hm ha) k hk']
    refine HasDerivAt.mul_const ?_ _
    cases k with
    | zero => simpa [polyBasis] using hasDerivAt_const _ (1 : ℝ)
    | succ k =>
      by_cases hki : k = i
      · subst hki
        simp only [polyBasis, Function.update_self, if_true]
        exact hasDerivAt_id' _
      · have : k + 1 ≠ i + 1 := by omega
        simp only [this, if_false, polyBasis, Function.update_of_ne hki]
        exact hasDerivAt_const _ _

/-- Non-vacuity of C68: two points in the plane, gradient at the second point only, order one. -/
example : ∃ V, calcAugVand 2 3 true ⟨2, 2, fun p i => p + 2 * i⟩ (some [false, true]) = .ok V ∧ V.r = 4 ∧ V.c = 3 ∧
    V.get 1 2 = 3 ∧ V.get 2 1 = 1 ∧ V.get 2 2 = 0 := by
  obtain ⟨V, hV, h1, h2, h3, h4⟩ := calcAugVand_ok (dim := 2) (nb := 3) (X := ⟨2, 2, fun p i => p + 2 * i⟩) rfl (Or.inr rfl) true
    (m := some [false, true]) (by intro l hl; cases hl; rfl)
  have hg : gN (some [false, true]) 2 = 1 := by decide
  rw [hg] at h2 h4
  refine ⟨V, hV, by simpa using h2, h1, ?_, ?_, ?_⟩
  · rw [h3 1 (by decide) 2 (by decide)]; norm_num [polyBasis]
  · simpa using h4 rfl 0 (by decide) 0 (by decide) 1 (by decide)
  · simpa using h4 rfl 0 (by decide) 0 (by decide) 2 (by decide)

/-! The theorems applied to two points of the plane, linear basis, gradient at the second point. -/
example := C68_basis_matrix (dim := 2) (nb := 3) (X := ⟨2, 2, fun p i => p + 2 * i⟩) rfl (.inr rfl) true
  (m := some [false, true]) (by intro l hl; cases hl; rfl)
example := C68_mean_function (dim := 2) (nb := 3) (X := ⟨2, 2, fun p i => p + 2 * i⟩) rfl (.inr rfl)
  (m := some [false, true]) (by intro l hl; cases hl; rfl) ⟨3, fun k => k + 1⟩ rfl false

end Props
