import Verif.Proofs.MoreData
import Verif.Spec.BelieveSpec
import Mathlib.Topology.Algebra.Order.Field

/-! Additional observations that change no prediction: those that equal the prediction, and those with unbounded noise. -/

open Np Spec Matrix Filter Topology

noncomputable section

namespace GP

section
variable {n n' : ℕ}

theorem spreadOut_new {ι : Fin n → Fin n'} (w : Vec n) {q : Fin n'} (hq : ∀ p, ι p ≠ q) : spreadOut ι w q = 0 := by
  unfold spreadOut
  exact Finset.sum_eq_zero fun i _ => if_neg (hq i)

theorem mulVec_spreadOut {ι : Fin n → Fin n'} (M : Mat n' n') (w : Vec n) (q : Fin n') :
    (M *ᵥ spreadOut ι w) q = (fun p => M q (ι p)) ⬝ᵥ w := by
  show M q ⬝ᵥ spreadOut ι w = _
  rw [dotProduct_comm, spreadOut_dot, dotProduct_comm]
  rfl

/-- The weights of the data do not change if each new observation equals its prediction. -/
theorem inv_spread {M : Mat n n} {M' : Mat n' n'} (hM : M.PosDef) (hM' : M'.PosDef) {ι : Fin n → Fin n'} (hsub : M'.submatrix ι ι = M)
    {r : Vec n} {r' : Vec n'} (hr : ∀ p, r' (ι p) = r p) (hnew : ∀ q, (∀ p, ι p ≠ q) → (fun p => M' (ι p) q) ⬝ᵥ (M⁻¹ *ᵥ r) = r' q) :
    M'⁻¹ *ᵥ r' = spreadOut ι (M⁻¹ *ᵥ r) := by
  have hdet : IsUnit M.det := hM.det_pos.ne'.isUnit
  have hdet' : IsUnit M'.det := hM'.det_pos.ne'.isUnit
  have key : M' *ᵥ spreadOut ι (M⁻¹ *ᵥ r) = r' := by
    funext q
    rw [mulVec_spreadOut]
    by_cases h : ∃ p, ι p = q
    · obtain ⟨p, rfl⟩ := h
      have : (fun p' => M' (ι p) (ι p')) = M p := by rw [← hsub]; rfl
      rw [this, hr]
      show (M *ᵥ (M⁻¹ *ᵥ r)) p = r p
      rw [mulVec_mulVec, mul_nonsing_inv _ hdet, one_mulVec]
    · push Not at h
      rw [← hnew q h]
      congr 1
      funext p
      simpa using (hM'.isHermitian.apply q (ι p)).symm
  rw [← key, mulVec_mulVec, nonsing_inv_mul _ hdet', one_mulVec]

/-- Adding a large number to the diagonal entry of a row removes the row's influence. -/
theorem quad_spread_tendsto {T : Type*} {l : Filter T} {C : Mat n' n'} (hC : C.PosDef) {ι : Fin n → Fin n'} (hι : Function.Injective ι)
    {s : T → Vec n'} (hs0 : ∀ t p, s t (ι p) = 0) (hs : ∀ q, (∀ p, ι p ≠ q) → Tendsto (fun t => s t q) l atTop) (b : Vec n') :
    Tendsto (fun t => b ⬝ᵥ (C + diagonal (s t))⁻¹ *ᵥ b) l (𝓝 ((b ∘ ι) ⬝ᵥ (C.submatrix ι ι)⁻¹ *ᵥ (b ∘ ι))) := by
  set A := C.submatrix ι ι with hA
  have hApd : A.PosDef := hC.submatrix hι
  have hAdet : IsUnit A.det := hApd.det_pos.ne'.isUnit
  set u := A⁻¹ *ᵥ (b ∘ ι) with hu
  set us := spreadOut ι u with hus
  set c := b - C *ᵥ us with hc
  have hc0 : ∀ p, c (ι p) = 0 := by
    intro p
    rw [hc, Pi.sub_apply, hus, mulVec_spreadOut]
    show b (ι p) - (A *ᵥ u) p = 0
    rw [hu, mulVec_mulVec, mul_nonsing_inv _ hAdet, one_mulVec]
    exact sub_self _
  have husc : us ⬝ᵥ c = 0 := by
    rw [hus, spreadOut_dot]
    have : c ∘ ι = 0 := funext hc0
    rw [this, dotProduct_zero]
  have hlim : (b ∘ ι) ⬝ᵥ A⁻¹ *ᵥ (b ∘ ι) = b ⬝ᵥ us := by
    rw [dotProduct_comm b us, hus, spreadOut_dot, dotProduct_comm]
  have hev : ∀ᶠ t in l, ∀ q, (∀ p, ι p ≠ q) → 0 < s t q := by
    rw [eventually_all]
    intro q
    by_cases h : ∀ p, ι p ≠ q
    · filter_upwards [(hs q h).eventually_gt_atTop 0] with t ht _ using ht
    · exact Eventually.of_forall fun t h' => absurd h' h
  have hnn : ∀ t, (∀ q, (∀ p, ι p ≠ q) → 0 < s t q) → ∀ q, 0 ≤ s t q := by
    intro t ht q
    by_cases h : ∀ p, ι p ≠ q
    · exact (ht q h).le
    · push Not at h
      obtain ⟨p, rfl⟩ := h
      exact (hs0 t p).ge
  have hpd : ∀ t, (∀ q, (∀ p, ι p ≠ q) → 0 < s t q) → (C + diagonal (s t)).PosDef := fun t ht =>
    hC.add_posSemidef (PosSemidef.diagonal (hnn t ht))
  have key : ∀ t, (∀ q, (∀ p, ι p ≠ q) → 0 < s t q) →
      b ⬝ᵥ (C + diagonal (s t))⁻¹ *ᵥ b = b ⬝ᵥ us + c ⬝ᵥ (C + diagonal (s t))⁻¹ *ᵥ c := by
    intro t ht
    set M := C + diagonal (s t) with hM
    have hMpd := hpd t ht
    have hdet : IsUnit M.det := hMpd.det_pos.ne'.isUnit
    have hMus : M *ᵥ us = C *ᵥ us := by
      rw [hM, add_mulVec]
      have : diagonal (s t) *ᵥ us = 0 := by
        funext q
        rw [mulVec_diagonal]
        by_cases h : ∃ p, ι p = q
        · obtain ⟨p, rfl⟩ := h
          rw [hs0]; simp
        · push Not at h
          rw [hus, spreadOut_new u h]; simp
      rw [this, add_zero]
    have hb : b = M *ᵥ us + c := by rw [hMus, hc]; abel
    have hinv : M⁻¹ *ᵥ b = us + M⁻¹ *ᵥ c := by
      conv_lhs => rw [hb]
      rw [mulVec_add, mulVec_mulVec, nonsing_inv_mul _ hdet, one_mulVec]
    rw [hinv, dotProduct_add]
    congr 1
    conv_lhs => rw [hb]
    rw [add_dotProduct]
    have hT : Mᵀ = M := by
      have := hMpd.isHermitian.eq
      rwa [conjTranspose_eq_transpose_of_trivial] at this
    have : M *ᵥ us ⬝ᵥ M⁻¹ *ᵥ c = us ⬝ᵥ c := by
      rw [dotProduct_comm, dotProduct_mulVec, ← mulVec_transpose, hT, mulVec_mulVec, mul_nonsing_inv _ hdet, one_mulVec, dotProduct_comm]
    rw [this, husc, zero_add]
  have hup : ∀ t, (∀ q, (∀ p, ι p ≠ q) → 0 < s t q) → c ⬝ᵥ (C + diagonal (s t))⁻¹ *ᵥ c ≤ ∑ q, c q ^ 2 / s t q := by
    intro t ht
    rw [← quad_eq (hpd t ht)]
    set w := (C + diagonal (s t))⁻¹ *ᵥ c
    have h0 : 0 ≤ w ⬝ᵥ C *ᵥ w := by simpa using hC.posSemidef.dotProduct_mulVec_nonneg w
    rw [add_mulVec, dotProduct_add]
    have h1 : 2 * (w ⬝ᵥ c) - w ⬝ᵥ diagonal (s t) *ᵥ w ≤ ∑ q, c q ^ 2 / s t q := by
      simp only [dotProduct, mulVec_diagonal, Finset.mul_sum]
      rw [← Finset.sum_sub_distrib]
      refine Finset.sum_le_sum fun q _ => ?_
      by_cases h : ∃ p, ι p = q
      · obtain ⟨p, rfl⟩ := h
        rw [hs0, hc0]; simp
      · push Not at h
        have hp := ht q h
        rw [le_div_iff₀ hp]
        nlinarith [sq_nonneg (c q - s t q * w q)]
    linarith
  have hz : Tendsto (fun t => ∑ q, c q ^ 2 / s t q) l (𝓝 0) := by
    rw [← Finset.sum_const_zero (ι := Fin n') (s := Finset.univ)]
    refine tendsto_finsetSum _ fun q _ => ?_
    by_cases h : ∃ p, ι p = q
    · obtain ⟨p, rfl⟩ := h
      simpa [hc0] using tendsto_const_nhds
    · push Not at h
      exact (hs q h).const_div_atTop _
  have hz2 : Tendsto (fun t => c ⬝ᵥ (C + diagonal (s t))⁻¹ *ᵥ c) l (𝓝 0) := by
    refine tendsto_of_tendsto_of_tendsto_of_le_of_le' tendsto_const_nhds hz ?_ ?_
    · filter_upwards [hev] with t ht
      simpa using (hpd t ht).inv.posSemidef.dotProduct_mulVec_nonneg c
    · filter_upwards [hev] with t ht using hup t ht
  rw [hlim]
  have := (tendsto_const_nhds (x := b ⬝ᵥ us)).add hz2
  rw [add_zero] at this
  refine this.congr' ?_
  filter_upwards [hev] with t ht using (key t ht).symm

theorem bil_polar {M : Mat n n} (hM : Mᵀ = M) (a b : Vec n) :
    a ⬝ᵥ M *ᵥ b = ((a + b) ⬝ᵥ M *ᵥ (a + b) - (a - b) ⬝ᵥ M *ᵥ (a - b)) / 4 := by
  have : b ⬝ᵥ M *ᵥ a = a ⬝ᵥ M *ᵥ b := by rw [dotProduct_mulVec, ← mulVec_transpose, hM, dotProduct_comm]
  simp only [mulVec_add, mulVec_sub, dotProduct_add, dotProduct_sub, add_dotProduct, sub_dotProduct]
  linarith

theorem bil_spread_tendsto {T : Type*} {l : Filter T} {C : Mat n' n'} (hC : C.PosDef) {ι : Fin n → Fin n'} (hι : Function.Injective ι)
    {s : T → Vec n'} (hs0 : ∀ t p, s t (ι p) = 0) (hs : ∀ q, (∀ p, ι p ≠ q) → Tendsto (fun t => s t q) l atTop) (a b : Vec n') :
    Tendsto (fun t => a ⬝ᵥ (C + diagonal (s t))⁻¹ *ᵥ b) l (𝓝 ((a ∘ ι) ⬝ᵥ (C.submatrix ι ι)⁻¹ *ᵥ (b ∘ ι))) := by
  have hCT : Cᵀ = C := by
    have := hC.isHermitian.eq
    rwa [conjTranspose_eq_transpose_of_trivial] at this
  have hT : ∀ t, ((C + diagonal (s t))⁻¹)ᵀ = (C + diagonal (s t))⁻¹ := fun t => by
    rw [transpose_nonsing_inv, transpose_add, hCT, diagonal_transpose]
  have hT' : ((C.submatrix ι ι)⁻¹)ᵀ = (C.submatrix ι ι)⁻¹ := by
    rw [transpose_nonsing_inv, transpose_submatrix, hCT]
  have h1 := quad_spread_tendsto hC hι hs0 hs (a + b)
  have h2 := quad_spread_tendsto hC hι hs0 hs (a - b)
  have := (h1.sub h2).div_const 4
  rw [bil_polar hT' (a ∘ ι) (b ∘ ι)]
  refine this.congr fun t => (bil_polar (hT t) a b).symm
end

section
variable {g g' : Gp} {hp hp' : HpVals} {π τ : ℕ → ℕ} (hg : GpOk g) (hg' : GpOk g') (h : MoreData π τ g hp g' hp')

theorem kd_moreRow (x : Pt) {i : ℕ} (hi : i < g.dim) : kd g' hp' x i ∘ moreRow hg hg' h = kd g hp x i := by
  funext q
  unfold kd
  show radKG _ _ _ _ _ _ (dco g' (moreRow hg hg' h q)) _ = _
  rw [dco_moreRow, thF_more h, h.kernel, h.kpar, h.dim]
  refine radKG_congr (fun d hd => ?_) (dco_lt hg q) (by simpa using hi)
  show dpt g' (moreRow hg hg' h q) d - x d = _
  rw [dpt_moreRow hg hg' h q hd]

/-- The covariances of the old data with a datum of the larger data set. -/
theorem kk_col_val {q : Fin g'.nData} (hq : dco g' q = none) :
    (fun p => kk g' hp' (moreRow hg hg' h p) q) = kv g hp (dpt g' q) := by
  rw [← kv_moreRow hg hg' h]
  funext p
  rw [kk, hq]
  rfl

theorem kk_col_grad {q : Fin g'.nData} {i : ℕ} (hq : dco g' q = some i) :
    (fun p => kk g' hp' (moreRow hg hg' h p) q) = kd g hp (dpt g' q) i := by
  have hi : i < g.dim := lt_of_lt_of_eq (dco_lt hg' q i hq) h.dim
  rw [← kd_moreRow hg hg' h _ hi]
  funext p
  rw [kk, hq]
  rfl

theorem new_val {q : Fin g'.nData} (hq : ∀ p, moreRow hg hg' h p ≠ q) {p : ℕ} (hp : dIx g' q = .v p) : NewVal π g g' p := by
  obtain ⟨hs, hqq⟩ := dIx_spec hg' q
  rw [hp] at hs hqq
  refine ⟨hs, fun r hr he => ?_⟩
  have hlt : r < g.nData := by rw [hg.nData]; omega
  refine hq ⟨r, hlt⟩ (Fin.ext ?_)
  show (moreIx π τ (dIx g r)).pos g'.nEval g'.nGrad = q
  rw [dIx_val hr, ← hqq, ← he]
  rfl

theorem new_grad {q : Fin g'.nData} (hq : ∀ p, moreRow hg hg' h p ≠ q) {i b : ℕ} (hp : dIx g' q = .g i b) : NewGrad τ g g' b := by
  obtain ⟨hs, hqq⟩ := dIx_spec hg' q
  rw [hp] at hs hqq
  refine ⟨hs.2, fun a ha he => ?_⟩
  have hi : i < g.dim := lt_of_lt_of_eq hs.1 h.dim
  have hlt : g.nEval + i * g.nGrad + a < g.nData := by
    rw [hg.nData]
    have : i * g.nGrad + a < g.nGrad * g.dim := by nlinarith
    omega
  refine hq ⟨_, hlt⟩ (Fin.ext ?_)
  show (moreIx π τ (dIx g (g.nEval + i * g.nGrad + a))).pos g'.nEval g'.nGrad = q
  rw [dIx_grad hi ha, ← hqq, ← he]
  rfl

theorem noise_sameRow (ho : MoreObs π τ g hp g' hp') {Na Na' : Arr1} (hN : NoiseSpec g hp Na) (hN' : NoiseSpec g' hp' Na') (q : Fin g.nData) :
    toVec g'.nData Na' (moreRow hg hg' h q) = toVec g.nData Na q := by
  obtain ⟨hs, hq⟩ := dIx_spec hg q
  show Na'.get ((moreIx π τ (dIx g q)).pos g'.nEval g'.nGrad) = Na.get q
  cases hx : dIx g q with
  | v p =>
    rw [hx] at hs hq
    rw [← hq]
    have hp' : p < g.nEval := hs
    show Na'.get (π p) = Na.get p
    rw [hN.val p hp', hN'.val (π p) (h.pt_lt p hp')]
    exact ho.valVar p hp'
  | g i a =>
    rw [hx] at hs hq
    rw [← hq]
    show Na'.get (g'.nEval + i * g'.nGrad + τ a) = Na.get (g.nEval + i * g.nGrad + a)
    rw [hN.grad i hs.1 a hs.2, hN'.grad i (lt_of_lt_of_eq hs.1 h.dim.symm) (τ a) (h.gr_lt a hs.2)]
    exact ho.gradVar a hs.2 i hs.1

theorem data_sameRow (ho : MoreObs π τ g hp g' hp') {y : Vec g.nData} {y' : Vec g'.nData} (hy : DataSpec g y) (hy' : DataSpec g' y')
    (q : Fin g.nData) : y' (moreRow hg hg' h q) = y q := by
  obtain ⟨hs, hq⟩ := dIx_spec hg q
  cases hx : dIx g q with
  | v p =>
    rw [hx] at hs hq
    have hp' : p < g.nEval := hs
    have hq' : (q : ℕ) = p := hq.symm
    have he : (moreRow hg hg' h q : ℕ) = π p := by
      show (moreIx π τ (dIx g q)).pos g'.nEval g'.nGrad = π p
      rw [hx]; rfl
    rw [hy'.val _ (he.trans_lt (h.pt_lt p hp')), hy.val q (hq'.trans_lt hp'), he, hq', ho.fval p hp']
  | g i a =>
    rw [hx] at hs hq
    have hug : g.useGrad = true := by
      by_contra hu
      have := hg.nGrad
      rw [if_neg hu] at this
      have := hs.2
      omega
    have hug' : g'.useGrad = true := by
      by_contra hu
      have := hg'.nGrad
      rw [if_neg hu] at this
      have := h.gr_lt a hs.2
      omega
    obtain ⟨G, hG, -, -⟩ := hg.grad_some hug
    obtain ⟨G', hG', -, -⟩ := hg'.grad_some hug'
    have he : (moreRow hg hg' h q : ℕ) = g'.nEval + i * g'.nGrad + τ a := by
      show (moreIx π τ (dIx g q)).pos g'.nEval g'.nGrad = _
      rw [hx]; rfl
    rw [hy'.grad G' hG' _ i (lt_of_lt_of_eq hs.1 h.dim.symm) (τ a) (h.gr_lt a hs.2) he, hy.grad G hG q i hs.1 a hs.2 hq.symm,
      ho.grad G G' hG hG' a hs.2 i hs.1]

theorem priorMean_sameRow (β : ℝ) (q : Fin g.nData) : priorMean g' β (moreRow hg hg' h q) = priorMean g β q := by
  obtain ⟨hs, hq⟩ := dIx_spec hg q
  unfold priorMean
  cases hx : dIx g q with
  | v p =>
    rw [hx] at hs hq
    have hp' : p < g.nEval := hs
    have hq' : (q : ℕ) = p := hq.symm
    have he : (moreRow hg hg' h q : ℕ) = π p := by
      show (moreIx π τ (dIx g q)).pos g'.nEval g'.nGrad = π p
      rw [hx]; rfl
    rw [if_pos (he.trans_lt (h.pt_lt p hp')), if_pos (hq'.trans_lt hp')]
  | g i a =>
    rw [hx] at hs hq
    have he : (moreRow hg hg' h q : ℕ) = g'.nEval + i * g'.nGrad + τ a := by
      show (moreIx π τ (dIx g q)).pos g'.nEval g'.nGrad = _
      rw [hx]; rfl
    have hq' : (q : ℕ) = g.nEval + i * g.nGrad + a := hq.symm
    rw [if_neg (by omega), if_neg (by omega)]

include hg hg' h in
/-- The covariance matrix of the data that both objects hold is the same. -/
theorem kernEta_sub (ho : MoreObs π τ g hp g' hp') (hh : HpAdm g hp) (hh' : HpAdm g' hp') (hpr : g'.o.precon = g.o.precon) {β β' : ℝ}
    {cc cc' : Bool} {N : Vec g.nData} {K : Mat g.nData g.nData} {st : EvalState g.nData} {N' : Vec g'.nData} {K' : Mat g'.nData g'.nData}
    {st' : EvalState g'.nData} (hs : SetupSpec g hp β cc N K st) (hs' : SetupSpec g' hp' β' cc' N' K' st') (hη : st'.etaK = st.etaK) :
    st'.KernEta.submatrix (moreRow hg hg' h) (moreRow hg hg' h) = st.KernEta := by
  set ι := moreRow hg hg' h with hι
  obtain ⟨Na, h1, rfl⟩ := hs.noise
  obtain ⟨Na', h1', rfl⟩ := hs'.noise
  have hN : ∀ q, toVec g'.nData Na' (ι q) = toVec g.nData Na q := noise_sameRow hg hg' h ho h1 h1'
  have hK : ∀ p q, K' (ι p) (ι q) = K p q := by
    intro p q
    rw [isKern_entry hg hh hs.isKern p q, isKern_entry hg' hh' hs'.isKern, kk_moreRow]
  rw [hs.cov, hs'.cov]
  ext p q
  have hinj : ι p = ι q ↔ p = q := (moreRow_inj hg hg' h).eq_iff
  simp only [submatrix_apply, Matrix.add_apply, diagonal_apply, hinj, hK, addDiag, hN, hpr, hη]
end

end GP
