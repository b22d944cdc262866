import Verif.Proofs.PsdMix
import Verif.Proofs.PsdGrad
import Verif.Proofs.Cholesky
import Verif.Model.Cov
import Verif.Props.Kernels

/-! Positive semidefiniteness of the matrices the kernel functions return. -/

open Np Spec Matrix

noncomputable section

namespace GP

theorem valPsd_pr (k : KType) {α : ℝ} (hα : 0 < α) : ValPsd (prφ k α) := by
  cases k
  · exact valPsd_se
  · exact valPsd_ma
  · exact valPsd_rq hα

/-- A real symmetric matrix with nonnegative quadratic form. -/
theorem posSemidef_of {n : ℕ} {A : Mat n n} (hs : ∀ i j, A i j = A j i)
    (hq : ∀ c : Fin n → ℝ, 0 ≤ ∑ i, ∑ j, c i * c j * A i j) : A.PosSemidef := by
  refine Matrix.PosSemidef.of_dotProduct_mulVec_nonneg ?_ ?_
  · ext i j; simp [Matrix.conjTranspose_apply, hs i j]
  · intro c
    have := hq c
    refine this.trans_eq ?_
    simp only [dotProduct, mulVec, Pi.star_apply, star_trivial, Finset.mul_sum]
    refine Finset.sum_congr rfl fun i _ => Finset.sum_congr rfl fun j _ => ?_
    ring

/-- Base kernel matrices. -/
theorem kernBase_posSemidef (k : KType) {X : Arr2} {R : Arr3} (hR : calcRtensor X X = .ok R) {theta : Arr1}
    (hn : theta.n = X.c) (hθ : ∀ d < X.c, 0 ≤ theta.get d) {hp : Option ℝ} (hhp : HpOk k hp) {A : Arr2}
    (hA : calcKernBase k R theta hp = .ok A) : (toMat X.r X.r A).PosSemidef := by
  obtain ⟨R', A', hR', hA', -, -, hg⟩ := Props.C05_base_entries k X X rfl theta hn hp hhp
  rw [hR] at hR'
  obtain rfl : R = R' := by simpa using hR'
  rw [hA] at hA'
  obtain rfl : A = A' := by simpa using hA'
  obtain ⟨α, hα, e1, -⟩ := Props.hp_elim hhp
  have he : ∀ i j : Fin X.r, toMat X.r X.r A i j = prφ k α (wdist2 X.c theta.get (X.get i) (X.get j)) := by
    intro i j
    simp only [toMat, Matrix.of_apply]
    rw [hg i i.2 j j.2, e1, kern_eq]; rfl
  refine posSemidef_of (fun i j => by rw [he, he, wdist2_comm]) fun c => ?_
  simp only [he]
  exact valPsd_pr k hα X.c theta.get hθ X.r (fun i => X.get i) c

/-- Gradient-enhanced kernel matrices. -/
theorem kernGrad_posSemidef (k : KType) {X : Arr2} {R : Arr3} (hR : calcRtensor X X = .ok R) {theta : Arr1}
    (hn : theta.n = X.c) (hθ : ∀ d < X.c, 0 ≤ theta.get d) {hp : Option ℝ} (hhp : HpOk k hp) {m : Option (List Bool)}
    (hm : maskOk m X.r) {A : Arr2} (hA : calcKernGrad k R theta hp m m = .ok A) :
    (toMat (X.r + gN m X.r * X.c) (X.r + gN m X.r * X.c) A).PosSemidef := by
  obtain ⟨α, hα, e1, -, e2, -⟩ := Props.hp_elim hhp
  have hIR := (calcRtensor_isR hR).2
  obtain ⟨A', hA', hrep⟩ := calcKernGrad_ok k (α := α) (R := R) (theta := theta) (m1 := m) (m2 := m)
    (by rw [hIR.d, hn]) (by rw [hIR.r]; exact hm) (by rw [hIR.c]; exact hm)
    (fun _ => by cases m with
      | none => exact .inl rfl
      | some l => exact .inr (by simp))
  rw [← e2, hA] at hA'
  obtain rfl : A = A' := by simpa using hA'
  rw [hIR.r, hIR.c, hIR.d] at hrep
  set N := X.r + gN m X.r * X.c with hN
  have hex : ∀ p : Fin N, ∃ x : Ix, x.ok X.r (gN m X.r) X.c ∧ x.pos X.r (gN m X.r) = p := by
    intro p
    obtain ⟨x, hx, hxp⟩ := Ix.pos_surj (n := X.r) (g := gN m X.r) (dim := X.c) p.2
    exact ⟨x, hx, hxp⟩
  choose ix hok hpos using hex
  have he : ∀ p q : Fin N, toMat N N A p q = radKG (prφ k α) (prφ1 k α) (prφ2 k α) X.c theta.get
      (fun d => X.get ((ix p).pt m) d - X.get ((ix q).pt m) d) (ix p).coord (ix q).coord := by
    intro p q
    simp only [toMat, Matrix.of_apply]
    have := hrep.get (ix p) (ix q) (hok p) (hok q)
    rw [hpos, hpos] at this
    rw [this]
    unfold kgF
    rw [hIR.d]
    refine radKG_congr ?_ (Ix.coord_lt (hok p)) (Ix.coord_lt (hok q))
    intro d hd
    exact hIR.get d hd _ (Ix.pt_lt hm (hok p)) _ (Ix.pt_lt hm (hok q))
  refine posSemidef_of (fun i j => by rw [he, he]; exact radKG_symm (fun d => by ring) _ _) fun c => ?_
  simp only [he]
  exact fnl_psd (prProfile k hα) (valPsd_pr k hα) hθ N (fun p => X.get ((ix p).pt m)) (fun p => (ix p).coord)
    (fun p => Ix.coord_lt (hok p)) c

end GP
