import Verif.Spec.Family
import Verif.Proofs.SqExp2
import Verif.Proofs.Matern2
import Verif.Proofs.RatQuad2

/-! Closed forms of the dispatched kernel functions, uniformly in the kernel type. -/

open Np Spec

noncomputable section

namespace GP

/-- Profile of the kernel and its derivatives. -/
def prφ : KType → ℝ → ℝ → ℝ
  | .sqExp, _ => seφ
  | .matern, _ => maφ
  | .ratQuad, α => rqφ α
def prφ1 : KType → ℝ → ℝ → ℝ
  | .sqExp, _ => seφ1
  | .matern, _ => maφ1
  | .ratQuad, α => rqφ1 α
def prφ2 : KType → ℝ → ℝ → ℝ
  | .sqExp, _ => seφ2
  | .matern, _ => maφ2
  | .ratQuad, α => rqφ2 α
def prφ3 : KType → ℝ → ℝ → ℝ
  | .sqExp, _ => seφ3
  | .matern, _ => maφ3
  | .ratQuad, α => rqφ3 α

theorem kern_eq (k : KType) (α : ℝ) (dim : ℕ) (θ : ℕ → ℝ) : kern k α dim θ = radial (prφ k α) dim θ := by
  cases k <;> rfl

theorem prProfile (k : KType) {α : ℝ} (hα : 0 < α) : Profile (prφ k α) (prφ1 k α) (prφ2 k α) := by
  cases k
  · exact seProfile
  · exact maProfile
  · exact rqProfile hα

theorem prProfile3 (k : KType) {α : ℝ} (hα : 0 < α) : Profile3 (prφ2 k α) (prφ3 k α) := by
  cases k
  · exact seProfile3
  · exact maProfile3
  · exact rqProfile3 hα

theorem calcKernBase_ok (k : KType) {α : ℝ} {R : Arr3} {theta : Arr1} (hθ : R.d ≤ theta.n) :
    calcKernBase k R theta (some α) = .ok ⟨R.r, R.c, fun p q => prφ k α (ssq R.d theta.get (diffAt R p q))⟩ := by
  cases k
  · exact sqExpKernBase_ok hθ
  · exact maternKernBase_ok hθ
  · exact ratQuadKernBase_ok hθ

theorem calcKernGrad_ok (k : KType) {α : ℝ} {R : Arr3} {theta : Arr1} {m1 m2 : Option (List Bool)} (hθ : R.d ≤ theta.n)
    (h1 : maskOk m1 R.r) (h2 : maskOk m2 R.c) (hm : k = .ratQuad → m1 = none ∨ m2 ≠ none ∨ fullMask m1 R.r) :
    ∃ A, calcKernGrad k R theta (some α) m1 m2 = .ok A ∧
      Rep R.r (gN m1 R.r) R.c (gN m2 R.c) R.d A (kgF (prφ k α) (prφ1 k α) (prφ2 k α) R theta m1 m2) := by
  cases k
  · exact sqExpKernGrad_ok hθ h1 h2
  · exact maternKernGrad_ok hθ h1 h2
  · exact ratQuadKernGrad_ok hθ h1 h2 (hm rfl)

/-- The regularised `1/max(ν,1e-16)` in the Matérn code is exact for every pair. -/
def NuGood (k : KType) (R : Arr3) (theta : Arr1) : Prop :=
  k = .matern → ∀ p < R.r, ∀ q < R.c, NuOk R theta p q

theorem calcKernGradGradTh_ok (k : KType) {α : ℝ} {R : Arr3} {theta : Arr1} {m : Option (List Bool)} (hθ : R.d ≤ theta.n)
    (hp : ∀ d < R.d, 0 < theta.get d) (hS : SelfR R) (hm : maskOk m R.r) (hf : k ≠ .ratQuad → fullMask m R.r)
    (hν : NuGood k R theta) :
    ∃ A, calcKernGradGradTh k R theta (some α) m = .ok A ∧
      Rep3 R.d R.r (gN m R.r) R.c (gN m R.c) R.d A (kgThF (prφ1 k α) (prφ2 k α) (prφ3 k α) R theta m) := by
  cases k
  · exact sqExpKernGradGradTh_ok hθ hS hm (hf (by simp))
  · exact maternKernGradGradTh_ok hθ hp hS hm (hf (by simp)) (hν rfl)
  · exact ratQuadKernGradGradTh_ok (α := α) hθ hS hm

theorem calcKernBaseHessX_ok (k : KType) {α : ℝ} {R : Arr3} {theta : Arr1} (hθ : R.d ≤ theta.n) :
    ∃ A, calcKernBaseHessX k R theta (some α) = .ok A ∧
      Rep3 R.d 0 R.r R.c 0 R.d A (kgXF (prφ1 k α) (prφ2 k α) (prφ3 k α) R theta none) := by
  cases k
  · exact sqExpKernBaseHessX_ok hθ
  · exact maternKernBaseHessX_ok hθ
  · exact ratQuadKernBaseHessX_ok hθ

theorem calcKernGradGradX_ok (k : KType) {α : ℝ} {R : Arr3} {theta : Arr1} (hθ : R.d ≤ theta.n)
    (hp : ∀ d < R.d, 0 < theta.get d) (hν : NuGood k R theta) :
    ∃ A, calcKernGradGradX k R theta (some α) none = .ok A ∧
      Rep3 R.d 0 R.r R.c R.c R.d A (kgXF (prφ1 k α) (prφ2 k α) (prφ3 k α) R theta none) := by
  cases k
  · exact sqExpKernGradGradX_ok hθ
  · exact maternKernGradGradX_ok hθ hp (hν rfl)
  · exact ratQuadKernGradGradX_ok hθ

/-- Without any condition on the points: the call succeeds and the array has this shape. -/
theorem calcKernGradGradX_shape (k : KType) {α : ℝ} {R : Arr3} {theta : Arr1} (hθ : R.d ≤ theta.n) :
    ∃ A F, calcKernGradGradX k R theta (some α) none = .ok A ∧ Rep3 R.d 0 R.r R.c R.c R.d A F := by
  cases k
  · obtain ⟨A, h, r⟩ := sqExpKernGradGradX_ok (R := R) hθ
    exact ⟨A, _, h, r⟩
  · obtain ⟨A, h, r⟩ := maternKernGradGradX_raw (R := R) hθ
    exact ⟨A, _, h, r⟩
  · obtain ⟨A, h, r⟩ := ratQuadKernGradGradX_ok (R := R) (α := α) hθ
    exact ⟨A, _, h, r⟩

/-- `calc_Rtensor`: entries and shape. -/
theorem calcRtensor_ok {X Y : Arr2} (h : X.c = Y.c) :
    ∃ R, calcRtensor X Y = .ok R ∧ R.d = X.c ∧ R.r = X.r ∧ R.c = Y.r ∧
      ∀ d p q, R.get d p q = if d < X.c ∧ p < X.r ∧ q < Y.r then X.get p d - Y.get q d else 0 := by
  unfold calcRtensor
  rw [pyAssert_true h]
  simp only [ok_bind]
  have key : ∀ d, (colArr X d).sub (colArr Y d).T = .ok ⟨X.r, Y.r, fun p q => X.get p d - Y.get q d⟩ := by
    intro d
    unfold Arr2.sub Arr2.bop
    have h1 : bdim (colArr X d).r (colArr Y d).T.r = some X.r := by
      simp only [colArr, Arr2.T_r, bdim]; split_ifs <;> simp_all
    have h2 : bdim (colArr X d).c (colArr Y d).T.c = some Y.r := by
      simp only [colArr, Arr2.T_c, bdim]; split_ifs <;> simp_all
    rw [h1, h2]
    simp only [colArr, Arr2.T, bidx]
    congr 2
  obtain ⟨R, hR, hd, hr, hc, hg⟩ := forRange_inv (lo := 0) (hi := X.c) (init := Arr3.zeros X.c X.r Y.r)
    (body := fun d R => do
      let V ← (colArr X d).sub (colArr Y d).T
      R.setSlice d 0 X.r 0 Y.r V)
    (fun i R => R.d = X.c ∧ R.r = X.r ∧ R.c = Y.r ∧
      ∀ d p q, R.get d p q = if d < i ∧ p < X.r ∧ q < Y.r then X.get p d - Y.get q d else 0) (Nat.zero_le _)
    ⟨rfl, rfl, rfl, by intro d p q; simp⟩
    (by
      rintro i R _ hi ⟨hd, hr, hc, hg⟩
      rw [key]
      simp only [ok_bind]
      unfold Arr3.setSlice
      rw [Arr3.modSlice_ok (by omega) (by simp) (by omega) (by simp) (by omega)]
      refine ⟨_, rfl, hd, hr, hc, ?_⟩
      intro d p q
      rw [Arr3.upd_get, hg]
      by_cases hdi' : d = i
      · subst hdi'
        by_cases hpq : p < X.r ∧ q < Y.r
        · rw [if_pos ⟨rfl, by omega, hpq.1, by omega, hpq.2⟩, if_pos ⟨by omega, hpq⟩]
          simp
        · rw [if_neg (by tauto), if_neg (by tauto), if_neg (by tauto)]
      · rw [if_neg (by tauto)]
        by_cases hd' : d < i
        · simp only [hd', show d < i + 1 by omega]
        · simp only [hd', show ¬ d < i + 1 by omega])
  exact ⟨R, hR, hd, hr, hc, hg⟩

theorem calcRtensor_self {X : Arr2} {R : Arr3} (h : calcRtensor X X = .ok R) : SelfR R := by
  obtain ⟨R', hR', hd, hr, hc, hg⟩ := calcRtensor_ok (X := X) (Y := X) rfl
  rw [h] at hR'
  obtain rfl : R = R' := by simpa using hR'
  refine ⟨by rw [hr, hc], ?_⟩
  intro d p q
  rw [hg, hg]
  by_cases h1 : d < X.c ∧ p < X.r ∧ q < X.r
  · rw [if_pos h1, if_pos ⟨h1.1, h1.2.2, h1.2.1⟩]; ring
  · rw [if_neg h1, if_neg (by tauto)]; ring

end GP
