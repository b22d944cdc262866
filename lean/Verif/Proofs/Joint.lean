import Verif.Proofs.KernelLink

/-! From closed forms to the specification structures. -/

open Np Spec

noncomputable section

namespace GP

/-- `R` holds the coordinate differences of the points `X` and `Y`. -/
structure IsR (X Y : Arr2) (R : Arr3) : Prop where
  d : R.d = X.c
  r : R.r = X.r
  c : R.c = Y.r
  get : ∀ d < X.c, ∀ p < X.r, ∀ q < Y.r, R.get d p q = X.get p d - Y.get q d

theorem calcRtensor_isR {X Y : Arr2} {R : Arr3} (h : calcRtensor X Y = .ok R) : X.c = Y.c ∧ IsR X Y R := by
  by_cases hc : X.c = Y.c
  · obtain ⟨R', hR', hd, hr, hcc, hg⟩ := calcRtensor_ok hc
    rw [h] at hR'
    obtain rfl : R = R' := by simpa using hR'
    refine ⟨hc, hd, hr, hcc, ?_⟩
    intro d hd' p hp q hq
    rw [hg, if_pos ⟨hd', hp, hq⟩]
  · simp [calcRtensor, hc] at h

theorem ssq_congr {n : ℕ} {θ r r' : ℕ → ℝ} (h : ∀ d < n, r d = r' d) : ssq n θ r = ssq n θ r' := by
  unfold ssq
  apply Finset.sum_congr rfl
  intro d hd
  rw [h d (Finset.mem_range.mp hd)]

theorem ssq_congr_th {n : ℕ} {θ θ' r : ℕ → ℝ} (h : ∀ d < n, θ d = θ' d) : ssq n θ r = ssq n θ' r := by
  unfold ssq
  apply Finset.sum_congr rfl
  intro d hd
  rw [h d (Finset.mem_range.mp hd)]

theorem radKG_congr {φ φ1 φ2 : ℝ → ℝ} {n : ℕ} {θ r r' : ℕ → ℝ} (h : ∀ d < n, r d = r' d) {ox oy : Option ℕ}
    (hx : ∀ i ∈ ox, i < n) (hy : ∀ j ∈ oy, j < n) :
    radKG φ φ1 φ2 n θ r ox oy = radKG φ φ1 φ2 n θ r' ox oy := by
  have hs := ssq_congr (θ := θ) h
  match ox, oy with
  | none, none => simp only [radKG, hs]
  | some i, none => simp only [radKG, hs, h i (hx i rfl)]
  | none, some j => simp only [radKG, hs, h j (hy j rfl)]
  | some i, some j => simp only [radKG, hs, h i (hx i rfl), h j (hy j rfl)]

theorem radKGx_congr {φ1 φ2 φ3 : ℝ → ℝ} {n : ℕ} {θ r r' : ℕ → ℝ} (h : ∀ d < n, r d = r' d) {k i : ℕ} {oy : Option ℕ}
    (hk : k < n) (hi : i < n) (hy : ∀ j ∈ oy, j < n) :
    radKGx φ1 φ2 φ3 n θ r k i oy = radKGx φ1 φ2 φ3 n θ r' k i oy := by
  have hs := ssq_congr (θ := θ) h
  match oy with
  | none => simp only [radKGx, hs, h i hi, h k hk]
  | some j => simp only [radKGx, hs, h i hi, h k hk, h j (hy j rfl)]

/-- Entry `(x,y)` of a represented gradient-enhanced matrix is the covariance. -/
theorem rep_isCov {k : KType} {α : ℝ} (hα : 0 < α) {X Y : Arr2} {R : Arr3} (hR : IsR X Y R) (hc : X.c = Y.c) {theta : Arr1}
    (hp : ∀ d < X.c, 0 ≤ theta.get d) {m1 m2 : Option (List Bool)} (h1 : maskOk m1 X.r) (h2 : maskOk m2 Y.r)
    {x y : Ix} (hx : x.ok X.r (gN m1 X.r) X.c) (hy : y.ok Y.r (gN m2 Y.r) X.c) :
    IsCov (kern k α X.c theta.get) (X.get (x.pt m1)) x.coord (Y.get (y.pt m2)) y.coord
      (kgF (prφ k α) (prφ1 k α) (prφ2 k α) R theta m1 m2 x y) := by
  rw [kern_eq]
  unfold kgF
  have := radKG_isCov (prProfile k hα) hp (X.get (x.pt m1)) (Y.get (y.pt m2)) x.coord y.coord
    (Ix.coord_lt hx) (Ix.coord_lt hy)
  rw [hR.d, radKG_congr (r' := fun d => X.get (x.pt m1) d - Y.get (y.pt m2) d) _ (Ix.coord_lt hx) (Ix.coord_lt hy)]
  · exact this
  · intro d hd
    exact hR.get d hd _ (Ix.pt_lt h1 hx) _ (Ix.pt_lt h2 hy)

theorem rep_jointCov {k : KType} {α : ℝ} (hα : 0 < α) {X Y : Arr2} {R : Arr3} (hR : IsR X Y R) (hc : X.c = Y.c) {theta : Arr1}
    (hp : ∀ d < X.c, 0 ≤ theta.get d) {m1 m2 : Option (List Bool)} (h1 : maskOk m1 X.r) (h2 : maskOk m2 Y.r)
    {A : Arr2} (hA : Rep R.r (gN m1 R.r) R.c (gN m2 R.c) R.d A (kgF (prφ k α) (prφ1 k α) (prφ2 k α) R theta m1 m2)) :
    JointCov (kern k α X.c theta.get) X.c X.r (gN m1 X.r) Y.r (gN m2 Y.r) X.get (gSel m1) Y.get (gSel m2) A.get := by
  have key : ∀ x y : Ix, x.ok X.r (gN m1 X.r) X.c → y.ok Y.r (gN m2 Y.r) X.c →
      IsCov (kern k α X.c theta.get) (X.get (x.pt m1)) x.coord (Y.get (y.pt m2)) y.coord
      (A.get (x.pos X.r (gN m1 X.r)) (y.pos Y.r (gN m2 Y.r))) := by
    intro x y hx hy
    have := hA.get x y (by rw [hR.r, hR.d]; exact hx) (by rw [hR.c, hR.d]; exact hy)
    rw [hR.r, hR.c] at this
    rw [this]
    exact rep_isCov hα hR hc hp h1 h2 hx hy
  exact {
    val_val := fun p hp' q hq => key (.v p) (.v q) hp' hq
    der_val := fun i hi a ha q hq => key (.g i a) (.v q) ⟨hi, ha⟩ hq
    val_der := fun p hp' j hj b hb => key (.v p) (.g j b) hp' ⟨hj, hb⟩
    der_der := fun i hi a ha j hj b hb => key (.g i a) (.g j b) ⟨hi, ha⟩ ⟨hj, hb⟩ }

end GP
