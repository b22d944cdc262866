import Verif.Spec.HpSlots
import Verif.Spec.GpSpec
import Verif.Proofs.MatDeriv

/-! Derivatives of the covariance matrix the model factorises, with respect to one hyperparameter. -/

open Np GP Matrix MD

noncomputable section

namespace Spec

/-- A matrix as an array. -/
def ofMat {n m : ℕ} (M : Mat n m) : Arr2 := ⟨n, m, fun i j => if h : i < n ∧ j < m then M ⟨i, h.1⟩ ⟨j, h.2⟩ else 0⟩

/-- Slab `p` of an array as a matrix. -/
def slabMat {n : ℕ} (A : Arr3) (p : ℕ) : Mat n n := of fun i j => A.get p i j

/-- `C'` is the derivative, with respect to hyperparameter `s` and at the hyperparameters `hp`, of the covariance matrix that
`calc_all_K_w_chofac` builds (with the variance argument `varKin`): for every positive value `t` of that hyperparameter the
call succeeds with some covariance matrix `C t`, and `C'` is the entrywise derivative of `C` at the current value. -/
def CovDeriv (g : Gp) (R : Arr3) (varKin : Option ℝ) (hp : HpVals) (s : Slot) (C' : Mat g.nData g.nData) : Prop :=
  ∃ y, 0 < y ∧ getSlot hp s = some y ∧ ∃ C : ℝ → Mat g.nData g.nData,
    (∀ t, 0 < t → ∀ cf cc, ∃ out, calcAllK g R (setSlot hp s t) none cf cc varKin false = .ok out ∧ out.Kcov = C t) ∧
    MDeriv C C' y

theorem setSlot_self {hp : HpVals} {s : Slot} {y : ℝ} (h : getSlot hp s = some y) : setSlot hp s y = hp := by
  obtain ⟨b, th, k, v, f, g⟩ := hp
  cases s with
  | theta d =>
    cases th with
    | none => simp [getSlot] at h
    | some th =>
      simp only [getSlot] at h
      split at h
      · cases h
        simp [setSlot, setTheta]
      · cases h
  | kernel => simp only [getSlot] at h; simp [setSlot, h]
  | varK => simp only [getSlot] at h; simp [setSlot, h]
  | varFval => simp only [getSlot] at h; simp [setSlot, h]
  | varFgrad => simp only [getSlot] at h; simp [setSlot, h]

end Spec
