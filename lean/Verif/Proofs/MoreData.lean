import Verif.Proofs.EvalMask1
import Verif.Spec.DataSetSpec

/-! More data, or less noise, and the reduction of the variance. -/

open Np Spec Matrix

noncomputable section

namespace GP

section
variable {n n' : ℕ}

/-- The reduction of the variance as a maximum. -/
theorem quad_ge {M : Mat n n} (hM : M.PosDef) (k w : Vec n) : 2 * (w ⬝ᵥ k) - w ⬝ᵥ M *ᵥ w ≤ k ⬝ᵥ M⁻¹ *ᵥ k := by
  have hdet : IsUnit M.det := hM.det_pos.ne'.isUnit
  set u := M⁻¹ *ᵥ k with hu
  have hk : M *ᵥ u = k := by rw [hu, mulVec_mulVec, mul_nonsing_inv _ hdet, one_mulVec]
  have hsym : u ⬝ᵥ M *ᵥ w = w ⬝ᵥ M *ᵥ u := by
    have hT : Mᵀ = M := by
      have := hM.isHermitian.eq
      rwa [conjTranspose_eq_transpose_of_trivial] at this
    rw [dotProduct_mulVec, ← mulVec_transpose, hT, dotProduct_comm]
  have h0 : 0 ≤ (w - u) ⬝ᵥ M *ᵥ (w - u) := by simpa using hM.posSemidef.dotProduct_mulVec_nonneg (w - u)
  rw [mulVec_sub, dotProduct_sub, sub_dotProduct, sub_dotProduct, hsym, hk] at h0
  have : k ⬝ᵥ u = u ⬝ᵥ k := dotProduct_comm _ _
  linarith

theorem quad_eq {M : Mat n n} (hM : M.PosDef) (k : Vec n) :
    2 * ((M⁻¹ *ᵥ k) ⬝ᵥ k) - (M⁻¹ *ᵥ k) ⬝ᵥ M *ᵥ (M⁻¹ *ᵥ k) = k ⬝ᵥ M⁻¹ *ᵥ k := by
  have hdet : IsUnit M.det := hM.det_pos.ne'.isUnit
  rw [mulVec_mulVec, mul_nonsing_inv _ hdet, one_mulVec, dotProduct_comm]
  ring

/-- A vector on the rows in the range of `ι`, zero elsewhere. -/
def spreadOut (ι : Fin n → Fin n') (w : Vec n) : Vec n' := fun q => ∑ i, if ι i = q then w i else 0

theorem spreadOut_dot {ι : Fin n → Fin n'} (w : Vec n) (k : Vec n') : spreadOut ι w ⬝ᵥ k = w ⬝ᵥ (k ∘ ι) := by
  simp only [spreadOut, dotProduct, Finset.sum_mul]
  rw [Finset.sum_comm]
  refine Finset.sum_congr rfl fun i _ => ?_
  simp [ite_mul]

theorem spreadOut_quad {ι : Fin n → Fin n'} (w : Vec n) (M : Mat n' n') :
    spreadOut ι w ⬝ᵥ M *ᵥ spreadOut ι w = w ⬝ᵥ (M.submatrix ι ι) *ᵥ w := by
  rw [spreadOut_dot]
  congr 1
  funext i
  show M (ι i) ⬝ᵥ spreadOut ι w = _
  rw [dotProduct_comm, spreadOut_dot, dotProduct_comm]
  rfl

/-- With more data and less noise the variance is reduced by at least as much. -/
theorem quad_mono {M : Mat n n} {M' : Mat n' n'} (hM : M.PosDef) (hM' : M'.PosDef) {ι : Fin n → Fin n'} {d : Vec n} (hd : ∀ i, 0 ≤ d i)
    (hMd : M'.submatrix ι ι + diagonal d = M) {k : Vec n} {k' : Vec n'} (hk : k' ∘ ι = k) :
    k ⬝ᵥ M⁻¹ *ᵥ k ≤ k' ⬝ᵥ M'⁻¹ *ᵥ k' := by
  rw [← quad_eq hM]
  set w := M⁻¹ *ᵥ k
  refine le_trans ?_ (quad_ge hM' k' (spreadOut ι w))
  rw [spreadOut_dot, spreadOut_quad, hk, ← hMd, add_mulVec, dotProduct_add]
  have : 0 ≤ w ⬝ᵥ diagonal d *ᵥ w := by
    simp only [dotProduct, mulVec_diagonal]
    exact Finset.sum_nonneg fun i _ => by have := hd i; nlinarith [mul_nonneg this (mul_self_nonneg (w i))]
  linarith

end

section
variable {π τ : ℕ → ℕ} {g g' : Gp} {hp hp' : HpVals}

def moreIx (π τ : ℕ → ℕ) : Ix → Ix
  | .v p => .v (π p)
  | .g i a => .g i (τ a)

theorem moreIx_ok (h : MoreData π τ g hp g' hp') {x : Ix} (hx : x.ok g.nEval g.nGrad g.dim) :
    (moreIx π τ x).ok g'.nEval g'.nGrad g'.dim := by
  cases x with
  | v p => exact h.pt_lt p hx
  | g i a => exact ⟨lt_of_lt_of_eq hx.1 h.dim.symm, h.gr_lt a hx.2⟩

/-- The row of `g'` that corresponds to a row of `g`. -/
def moreRow (hg : GpOk g) (hg' : GpOk g') (h : MoreData π τ g hp g' hp') (q : Fin g.nData) : Fin g'.nData :=
  ⟨(moreIx π τ (dIx g q)).pos g'.nEval g'.nGrad, lt_of_lt_of_eq (Ix.pos_lt (moreIx_ok h (dIx_spec hg q).1)) hg'.nData.symm⟩

variable (hg : GpOk g) (hg' : GpOk g') (h : MoreData π τ g hp g' hp')

theorem dIx_moreRow (q : Fin g.nData) : dIx g' (moreRow hg hg' h q) = moreIx π τ (dIx g q) :=
  dIx_pos (moreIx_ok h (dIx_spec hg q).1)

theorem moreRow_inj : Function.Injective (moreRow hg hg' h) := by
  intro q q' he
  have h1 := dIx_moreRow hg hg' h q
  rw [he, dIx_moreRow hg hg' h q'] at h1
  have hs := (dIx_spec hg q).1
  have hs' := (dIx_spec hg q').1
  have : dIx g q = dIx g q' := by
    cases ha : dIx g q with
    | v p =>
      rw [ha] at hs h1
      cases hb : dIx g q' with
      | v p' =>
        rw [hb] at hs' h1
        have : π p' = π p := by simpa [moreIx] using h1
        rw [h.pt_inj p' hs' p hs this]
      | g i a => rw [hb] at h1; simp [moreIx] at h1
    | g i a =>
      rw [ha] at hs h1
      cases hb : dIx g q' with
      | v p' => rw [hb] at h1; simp [moreIx] at h1
      | g i' a' =>
        rw [hb] at hs' h1
        have : i' = i ∧ τ a' = τ a := by simpa [moreIx] using h1
        rw [h.gr_inj a' hs'.2 a hs.2 this.2, this.1]
  exact Fin.ext (by rw [← (dIx_spec hg q).2, ← (dIx_spec hg q').2, this])

theorem dco_moreRow (q : Fin g.nData) : dco g' (moreRow hg hg' h q) = dco g q := by
  rw [dco, dIx_moreRow, dco]
  cases dIx g q <;> rfl

theorem dpt_moreRow (q : Fin g.nData) {d : ℕ} (hd : d < g.dim) : dpt g' (moreRow hg hg' h q) d = dpt g q d := by
  have hlt := dpt_lt hg q
  have hs := (dIx_spec hg q).1
  rw [dpt, dIx_moreRow, dpt]
  cases hx : dIx g q with
  | v p =>
    rw [hx] at hlt
    exact h.x p hlt d hd
  | g i a =>
    rw [hx] at hlt hs
    show g'.x.get (gSel g'.bvec (τ a)) d = _
    rw [h.gsel a hs.2]
    exact h.x _ hlt d hd

include h in
theorem thF_more : thF hp' = thF hp := by unfold thF; rw [h.theta]

theorem kk_moreRow (p q : Fin g.nData) : kk g' hp' (moreRow hg hg' h p) (moreRow hg hg' h q) = kk g hp p q := by
  rw [kk, kk, dco_moreRow, dco_moreRow, thF_more h, h.kernel, h.kpar, h.dim]
  refine radKG_congr (fun d hd => ?_) (dco_lt hg p) (dco_lt hg q)
  rw [dpt_moreRow hg hg' h p hd, dpt_moreRow hg hg' h q hd]

theorem kv_moreRow (x : Pt) : kv g' hp' x ∘ moreRow hg hg' h = kv g hp x := by
  funext q
  unfold kv
  show radKG _ _ _ _ _ _ (dco g' (moreRow hg hg' h q)) _ = _
  rw [dco_moreRow, thF_more h, h.kernel, h.kpar, h.dim]
  refine radKG_congr (fun d hd => ?_) (dco_lt hg q) (by simp)
  show dpt g' (moreRow hg hg' h q) d - x d = _
  rw [dpt_moreRow hg hg' h q hd]

theorem noise_moreRow {Na Na' : Arr1} (hN : NoiseSpec g hp Na) (hN' : NoiseSpec g' hp' Na') (q : Fin g.nData) :
    toVec g'.nData Na' (moreRow hg hg' h q) ≤ toVec g.nData Na q := by
  obtain ⟨hs, hq⟩ := dIx_spec hg q
  show Na'.get ((moreIx π τ (dIx g q)).pos g'.nEval g'.nGrad) ≤ Na.get q
  cases hx : dIx g q with
  | v p =>
    rw [hx] at hs hq
    rw [← hq]
    have hp' : p < g.nEval := hs
    show Na'.get (π p) ≤ Na.get p
    rw [hN.val p hp', hN'.val (π p) (h.pt_lt p hp')]
    exact h.valVar_le p hp'
  | g i a =>
    rw [hx] at hs hq
    rw [← hq]
    show Na'.get (g'.nEval + i * g'.nGrad + τ a) ≤ Na.get (g.nEval + i * g.nGrad + a)
    rw [hN.grad i hs.1 a hs.2, hN'.grad i (lt_of_lt_of_eq hs.1 h.dim.symm) (τ a) (h.gr_lt a hs.2)]
    exact h.gradVar_le a hs.2 i hs.1

include hg hg' h in
theorem s2F_moreData (hh : HpAdm g hp) (hh' : HpAdm g' hp') (hpr : g'.o.precon = g.o.precon) {β β' : ℝ} {cc cc' : Bool} {N : Vec g.nData}
    {K : Mat g.nData g.nData} {st : EvalState g.nData} {N' : Vec g'.nData} {K' : Mat g'.nData g'.nData} {st' : EvalState g'.nData}
    (hs : SetupSpec g hp β cc N K st) (hs' : SetupSpec g' hp' β' cc' N' K' st') (h0 : 0 ≤ st'.etaK) (hη : st'.etaK ≤ st.etaK)
    (hM : st.KernEta.PosDef) (hM' : st'.KernEta.PosDef) (x : Pt) : s2F g' hp' st'.KernEta x ≤ s2F g hp st.KernEta x := by
  set ι := moreRow hg hg' h with hι
  have hK : K'.submatrix ι ι = K := by
    ext p q
    rw [submatrix_apply, isKern_entry hg hh hs.isKern p q, isKern_entry hg' hh' hs'.isKern, kk_moreRow]
  obtain ⟨Na, h1, rfl⟩ := hs.noise
  obtain ⟨Na', h1', rfl⟩ := hs'.noise
  have hN : ∀ q, toVec g'.nData Na' (ι q) ≤ toVec g.nData Na q := noise_moreRow hg hg' h h1 h1'
  have hN0 := NoiseSpec.nonneg hg' hh' h1'
  have hdiag : ∀ i, addDiag g' K' (toVec g'.nData Na') st'.etaK (ι i) ≤ addDiag g K (toVec g.nData Na) st.etaK i := by
    intro i
    have hKi : K' (ι i) (ι i) = K i i := by rw [← hK]; rfl
    have hpos := hs.diag i
    have hn := hN i
    have hn0 := hN0 (ι i)
    unfold addDiag
    rw [hpr]
    split_ifs
    · rw [hKi]
      have : st'.etaK * (K i i + toVec g'.nData Na' (ι i)) ≤ st.etaK * (K i i + toVec g.nData Na i) :=
        mul_le_mul hη (by linarith) (by linarith) (h0.trans hη)
      linarith
    · linarith
  unfold s2F
  have := quad_mono hM hM' (ι := ι) (d := fun i => addDiag g K (toVec g.nData Na) st.etaK i - addDiag g' K' (toVec g'.nData Na') st'.etaK (ι i))
    (fun i => sub_nonneg.mpr (hdiag i)) (by
      rw [hs.cov, hs'.cov, ← hK]
      ext p q
      have hinj : ι p = ι q ↔ p = q := (moreRow_inj hg hg' h).eq_iff
      simp only [Matrix.add_apply, submatrix_apply, diagonal_apply, hinj]
      split_ifs with he
      · subst he; ring
      · ring) (kv_moreRow hg hg' h x)
  linarith

end

end GP
