import Verif.Spec.OrigSpec
import Verif.Proofs.EvalCore2

/-! Kernels and joint covariances under scaling of the coordinates. -/

open Np GP Matrix Spec

noncomputable section

namespace GP

theorem wdist2_scl (s : Scl) (dim : ℕ) (θ : ℕ → ℝ) (x y : Pt) :
    wdist2 dim θ (sclPt s x) (sclPt s y) = wdist2 dim (fun d => θ d * s.xScale.get d ^ 2) x y := by
  unfold wdist2 sclPt
  exact Finset.sum_congr rfl fun d _ => by ring

theorem kern_scl (s : Scl) (k : KType) (α : ℝ) (dim : ℕ) (θ : ℕ → ℝ) (x y : Pt) :
    kern k α dim θ (sclPt s x) (sclPt s y) = kern k α dim (fun d => θ d * s.xScale.get d ^ 2) x y := by
  cases k <;> simp only [kern, kSqExp, kMatern, kRatQuad, wdist2_scl]

theorem gpKern_orig {g : Gp} {hp : HpVals} (ht : hp.theta.isSome = true) (s : Scl) (x y : Pt) :
    gpKern g (origHp s hp) x y = gpKern g hp (sclPt s x) (sclPt s y) := by
  obtain ⟨t, ht⟩ := Option.isSome_iff_exists.mp ht
  unfold gpKern kernOf
  rw [kern_scl, ht]
  simp only [origHp, ht, Option.map_some, Option.getD_some]

theorem sclPt_update (s : Scl) (x : Pt) (i : ℕ) (t : ℝ) :
    sclPt s (Function.update x i t) = Function.update (sclPt s x) i ((t - s.xShift.get i) * s.xScale.get i) := by
  funext d
  by_cases h : d = i
  · subst h; simp [sclPt]
  · simp [sclPt, Function.update_of_ne h]

theorem hasDerivAt_scl {f : ℝ → ℝ} {D : ℝ} {s : Scl} {x : Pt} {i : ℕ} (h : HasDerivAt f D (sclPt s x i)) :
    HasDerivAt (fun t => f ((t - s.xShift.get i) * s.xScale.get i)) (s.xScale.get i * D) (x i) := by
  have h1 : HasDerivAt (fun t : ℝ => (t - s.xShift.get i) * s.xScale.get i) (1 * s.xScale.get i) (x i) :=
    ((hasDerivAt_id (x i)).sub_const (s.xShift.get i)).mul_const (s.xScale.get i)
  exact (HasDerivAt.comp (x i) h h1).congr_deriv (by ring)

/-- The factor of a datum. -/
def optUnit (s : Scl) : Option ℕ → ℝ
  | none => 1
  | some i => s.xScale.get i

/-- Covariances in original coordinates. -/
theorem isCov_scl {κ κ' : Pt → Pt → ℝ} {s : Scl} (hκ : ∀ x y, κ' x y = κ (sclPt s x) (sclPt s y)) {x y : Pt} {ox oy : Option ℕ} {e : ℝ}
    (h : IsCov κ (sclPt s x) ox (sclPt s y) oy e) : IsCov κ' x ox y oy (optUnit s ox * optUnit s oy * e) := by
  match ox, oy with
  | none, none =>
    show _ = κ' x y
    rw [hκ, ← show e = _ from h]; simp [optUnit]
  | some i, none =>
    have h1 : HasDerivAt (fun r => κ (Function.update (sclPt s x) i r) (sclPt s y)) e (sclPt s x i) := h
    have h2 := hasDerivAt_scl h1
    show HasDerivAt (fun r => κ' (Function.update x i r) y) _ (x i)
    simp only [hκ, sclPt_update]
    exact h2.congr_deriv (by simp [optUnit])
  | none, some j =>
    have h1 : HasDerivAt (fun r => κ (sclPt s x) (Function.update (sclPt s y) j r)) e (sclPt s y j) := h
    have h2 := hasDerivAt_scl h1
    show HasDerivAt (fun r => κ' x (Function.update y j r)) _ (y j)
    simp only [hκ, sclPt_update]
    exact h2.congr_deriv (by simp [optUnit])
  | some i, some j =>
    obtain ⟨D, h1, h2⟩ := h
    refine ⟨fun t => s.xScale.get i * D ((t - s.xShift.get j) * s.xScale.get j), fun t => ?_, ?_⟩
    · simp only [hκ, sclPt_update]
      exact hasDerivAt_scl (h1 _)
    · exact ((hasDerivAt_scl h2).const_mul (s.xScale.get i)).congr_deriv (by simp [optUnit]; ring)

theorem isCov_congr {κ : Pt → Pt → ℝ} {dim : ℕ} (hκ : ∀ x x' y y', (∀ d < dim, x d = x' d) → (∀ d < dim, y d = y' d) → κ x y = κ x' y')
    {x x' y y' : Pt} (hx : ∀ d < dim, x d = x' d) (hy : ∀ d < dim, y d = y' d) {ox oy : Option ℕ} (hox : ∀ i, ox = some i → i < dim)
    (hoy : ∀ i, oy = some i → i < dim) {e : ℝ} (h : IsCov κ x ox y oy e) : IsCov κ x' ox y' oy e := by
  have hup : ∀ (x x' : Pt) (i : ℕ) (r : ℝ), (∀ d < dim, x d = x' d) → ∀ d < dim, Function.update x i r d = Function.update x' i r d := by
    intro x x' i r h d hd
    by_cases he : d = i
    · subst he; simp
    · rw [Function.update_of_ne he, Function.update_of_ne he, h d hd]
  match ox, oy with
  | none, none =>
    show e = κ x' y'
    rw [← hκ x x' y y' hx hy]; exact h
  | some i, none =>
    have h1 : HasDerivAt (fun r => κ (Function.update x i r) y) e (x i) := h
    show HasDerivAt (fun r => κ (Function.update x' i r) y') e (x' i)
    rw [← hx i (hox i rfl)]
    refine h1.congr_of_eventuallyEq (Filter.Eventually.of_forall fun r => ?_)
    exact (hκ _ _ _ _ (hup x x' i r hx) hy).symm
  | none, some j =>
    have h1 : HasDerivAt (fun r => κ x (Function.update y j r)) e (y j) := h
    show HasDerivAt (fun r => κ x' (Function.update y' j r)) e (y' j)
    rw [← hy j (hoy j rfl)]
    refine h1.congr_of_eventuallyEq (Filter.Eventually.of_forall fun r => ?_)
    exact (hκ _ _ _ _ hx (hup y y' j r hy)).symm
  | some i, some j =>
    obtain ⟨D, h1, h2⟩ := h
    refine ⟨D, fun t => ?_, by rw [← hy j (hoy j rfl)]; exact h2⟩
    have := h1 t
    rw [← hx i (hox i rfl)]
    refine this.congr_of_eventuallyEq (Filter.Eventually.of_forall fun r => ?_)
    exact (hκ _ _ _ _ (hup x x' i r hx) (hup y y' j t hy)).symm

theorem gpKern_congr (g : Gp) (hp : HpVals) (x x' y y' : Pt) (hx : ∀ d < g.dim, x d = x' d) (hy : ∀ d < g.dim, y d = y' d) :
    gpKern g hp x y = gpKern g hp x' y' := by
  have h : ∀ θ, wdist2 g.dim θ x y = wdist2 g.dim θ x' y' := fun θ => Finset.sum_congr rfl fun d hd => by
    rw [hx d (Finset.mem_range.mp hd), hy d (Finset.mem_range.mp hd)]
  unfold gpKern kernOf
  cases g.kernel <;> simp only [kern, kSqExp, kMatern, kRatQuad, h]

/-- The factors of all data. -/
def unitOf (g : Gp) (s : Scl) (q : ℕ) : ℝ := if q < g.nEval then 1 else s.xScale.get ((q - g.nEval) / g.nGrad)

theorem unitOf_spec (g : Gp) (s : Scl) : UnitFactor g s (unitOf g s) := by
  refine ⟨fun a ha => by simp [unitOf, ha], fun i _ a ha => ?_⟩
  unfold unitOf
  rw [if_neg (by omega)]
  congr 1
  rw [show g.nEval + i * g.nGrad + a - g.nEval = a + g.nGrad * i by rw [mul_comm]; omega, Nat.add_mul_div_left _ _ (by omega),
    Nat.div_eq_of_lt ha, zero_add]

end GP
