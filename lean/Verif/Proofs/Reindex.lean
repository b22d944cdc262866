import Verif.Proofs.EvalMask1
import Verif.Spec.DataSetSpec

/-! Rearranging the data rearranges the covariance matrix and nothing else. -/

open Np Spec Matrix

noncomputable section

namespace GP

section
variable {n n' : ℕ} (ρ : Fin n ≃ Fin n')

theorem quad_perm {M : Mat n n} {M' : Mat n' n'} (hM : M'.submatrix ρ ρ = M) {u r : Vec n} {u' r' : Vec n'} (hu : u' ∘ ρ = u) (hr : r' ∘ ρ = r) :
    u' ⬝ᵥ M'⁻¹ *ᵥ r' = u ⬝ᵥ M⁻¹ *ᵥ r := by
  rw [← hM, inv_submatrix_equiv, ← hu, ← hr, submatrix_mulVec_equiv]
  rw [show (r' ∘ ρ) ∘ ρ.symm = r' by funext i; simp]
  exact (comp_equiv_dotProduct_comp_equiv _ _ ρ).symm

theorem rowSup_perm {A : Mat n n} {A' : Mat n' n'} (hA : A'.submatrix ρ ρ = A) : (⨆ i, ∑ j, |A' i j|) = ⨆ i, ∑ j, |A i j| := by
  rw [← ρ.iSup_comp (g := fun i => ∑ j, |A' i j|)]
  congr 1
  funext i
  rw [← Equiv.sum_comp ρ (fun j => |A' (ρ i) j|), ← hA]
  rfl

theorem corr_perm {K : Mat n n} {K' : Mat n' n'} (hK : K'.submatrix ρ ρ = K) {N : Vec n} {N' : Vec n'} (hN : N' ∘ ρ = N) :
    (corr (kwn 1 K' N')).submatrix ρ ρ = corr (kwn 1 K N) := by
  ext i j
  rw [← hK, ← hN]
  simp only [corr, kwn, submatrix_apply, of_apply, Matrix.add_apply, diagonal_apply, Function.comp, ρ.injective.eq_iff]

end

/-- The symbolic row of `D` that corresponds to one of `g`. -/
def mapIx (π τ : Equiv.Perm ℕ) : Ix → Ix
  | .v p => .v (π p)
  | .g i a => .g i (τ a)

theorem mapIx_inj (π τ : Equiv.Perm ℕ) : Function.Injective (mapIx π τ) := by
  intro x y h
  cases x <;> cases y <;> simp_all [mapIx]

section
variable {π τ : Equiv.Perm ℕ} {c : Pt} {g : Gp} {D : DataSet}

theorem mapIx_ok (h : Rearranged π τ c g D) {x : Ix} (hx : x.ok g.nEval g.nGrad g.dim) : (mapIx π τ x).ok g.nEval g.nGrad g.dim := by
  cases x with
  | v p => exact h.pt_lt p hx
  | g i a => exact ⟨hx.1, h.gr_lt a hx.2⟩

theorem permRow_lt (hg : GpOk g) (h : Rearranged π τ c g D) (q : Fin g.nData) :
    (mapIx π τ (dIx g q)).pos g.nEval g.nGrad < g.nData := by
  exact lt_of_lt_of_eq (Ix.pos_lt (mapIx_ok h (dIx_spec hg q).1)) hg.nData.symm

/-- The row of `D` that corresponds to a row of `g`. -/
def permRow (hg : GpOk g) (h : Rearranged π τ c g D) : Fin g.nData ≃ Fin (withData g D).nData :=
  Equiv.ofBijective (fun q : Fin g.nData => (⟨(mapIx π τ (dIx g q)).pos g.nEval g.nGrad, permRow_lt hg h q⟩ : Fin g.nData)) <| by
    refine Finite.injective_iff_bijective.mp fun q q' he => ?_
    have he' := Fin.mk.inj_iff.mp he
    have h1 := dIx_pos (mapIx_ok h (dIx_spec hg q).1)
    have h2 := dIx_pos (mapIx_ok h (dIx_spec hg q').1)
    rw [he', h2] at h1
    have := mapIx_inj π τ h1
    exact Fin.ext (by rw [← (dIx_spec hg q).2, ← (dIx_spec hg q').2, this])

theorem dIx_permRow (hg : GpOk g) (h : Rearranged π τ c g D) (q : Fin g.nData) :
    dIx (withData g D) (permRow hg h q) = mapIx π τ (dIx g q) :=
  dIx_pos (mapIx_ok h (dIx_spec hg q).1)

theorem dco_permRow (hg : GpOk g) (h : Rearranged π τ c g D) (q : Fin g.nData) :
    dco (withData g D) (permRow hg h q) = dco g q := by
  rw [dco, dIx_permRow, dco]
  cases dIx g q <;> rfl

theorem dpt_permRow (hg : GpOk g) (h : Rearranged π τ c g D) (q : Fin g.nData) {d : ℕ} (hd : d < g.dim) :
    dpt (withData g D) (permRow hg h q) d = dpt g q d + c d := by
  have hlt := dpt_lt hg q
  have hs := (dIx_spec hg q).1
  rw [dpt, dIx_permRow, dpt]
  cases hx : dIx g q with
  | v p =>
    rw [hx] at hlt
    exact h.x p hlt d hd
  | g i a =>
    rw [hx] at hlt hs
    show D.x.get (gSel D.bvec (τ a)) d = _
    rw [h.gsel a hs.2]
    exact h.x _ hlt d hd

theorem kk_permRow (hg : GpOk g) {hp : HpVals} (h : Rearranged π τ c g D) (p q : Fin g.nData) :
    kk (withData g D) hp (permRow hg h p) (permRow hg h q) = kk g hp p q := by
  rw [kk, kk, dco_permRow, dco_permRow]
  refine radKG_congr (fun d hd => ?_) (dco_lt hg p) (dco_lt hg q)
  rw [dpt_permRow hg h p hd, dpt_permRow hg h q hd]
  ring

theorem kv_permRow (hg : GpOk g) {hp : HpVals} (h : Rearranged π τ c g D) {x x' : Pt} (hx : ∀ d < g.dim, x' d = x d + c d) :
    kv (withData g D) hp x' ∘ permRow hg h = kv g hp x := by
  funext q
  unfold kv
  show radKG _ _ _ _ _ _ (dco (withData g D) (permRow hg h q)) _ = _
  rw [dco_permRow]
  refine radKG_congr (fun d hd => ?_) (dco_lt hg q) (by simp)
  show dpt (withData g D) (permRow hg h q) d - x' d = _
  rw [dpt_permRow hg h q hd, hx d hd]
  ring

theorem kd_permRow (hg : GpOk g) {hp : HpVals} (h : Rearranged π τ c g D) {x x' : Pt} (hx : ∀ d < g.dim, x' d = x d + c d)
    {i : ℕ} (hi : i < g.dim) : kd (withData g D) hp x' i ∘ permRow hg h = kd g hp x i := by
  funext q
  unfold kd
  show radKG _ _ _ _ _ _ (dco (withData g D) (permRow hg h q)) _ = _
  rw [dco_permRow]
  refine radKG_congr (fun d hd => ?_) (dco_lt hg q) (by rintro j hj; cases hj; exact hi)
  show dpt (withData g D) (permRow hg h q) d - x' d = _
  rw [dpt_permRow hg h q hd, hx d hd]
  ring

theorem valVar_perm (hg : GpOk g) (hg' : GpOk (withData g D)) {hp : HpVals} (h : Rearranged π τ c g D) {p : ℕ} (hp' : p < g.nEval) :
    valVar (withData g D) hp (π p) = valVar g hp p := by
  unfold valVar
  show (if g.fvalZero && g.fgradZero then (0 : ℝ) else if g.knownFval then ((D.stdFval.getD _).get (π p)) ^ 2 else _) = _
  cases hk : g.knownFval with
  | false => simp
  | true =>
    obtain ⟨s, hs, -⟩ := hg.std_fval hk
    obtain ⟨s', hs', -⟩ := hg'.std_fval hk
    have hs'' : D.stdFval = some s' := hs'
    rw [hs, hs'']
    simp only [Option.getD_some, h.stdF s s' hs hs'' p hp']

theorem gradVar_perm (hg : GpOk g) (hg' : GpOk (withData g D)) {hp : HpVals} (h : Rearranged π τ c g D) {a i : ℕ} (ha : a < g.nGrad)
    (hi : i < g.dim) : gradVar (withData g D) hp (τ a) i = gradVar g hp a i := by
  unfold gradVar
  show (if g.fvalZero && g.fgradZero then (0 : ℝ) else if g.knownFgrad then ((D.stdGrad.getD _).get (τ a) i) ^ 2 else _) = _
  cases hk : g.knownFgrad with
  | false => simp
  | true =>
    obtain ⟨s, hs, -⟩ := hg.std_fgrad hk
    obtain ⟨s', hs', -⟩ := hg'.std_fgrad hk
    have hs'' : D.stdGrad = some s' := hs'
    rw [hs, hs'']
    simp only [Option.getD_some, h.stdG s s' hs hs'' a ha i hi]

theorem noise_perm (hg : GpOk g) (hg' : GpOk (withData g D)) {hp : HpVals} (h : Rearranged π τ c g D) {Na Na' : Arr1}
    (hN : NoiseSpec g hp Na) (hN' : NoiseSpec (withData g D) hp Na') :
    (toVec (withData g D).nData Na') ∘ permRow hg h = toVec g.nData Na := by
  funext q
  obtain ⟨hs, hq⟩ := dIx_spec hg q
  show Na'.get ((mapIx π τ (dIx g q)).pos g.nEval g.nGrad) = Na.get q
  cases hx : dIx g q with
  | v p =>
    rw [hx] at hs hq
    rw [← hq]
    have hp' : p < g.nEval := hs
    show Na'.get (π p) = Na.get p
    rw [hN.val p hp', hN'.val (π p) (h.pt_lt p hp'), valVar_perm hg hg' h hp']
  | g i a =>
    rw [hx] at hs hq
    rw [← hq]
    show Na'.get (g.nEval + i * g.nGrad + τ a) = Na.get (g.nEval + i * g.nGrad + a)
    have h1 := hN.grad i hs.1 a hs.2
    have h2 : Na'.get (g.nEval + i * g.nGrad + τ a) = _ := hN'.grad i hs.1 (τ a) (h.gr_lt a hs.2)
    rw [h1, h2, gradVar_perm hg hg' h hs.2 hs.1]

theorem data_perm (hg : GpOk g) (hg' : GpOk (withData g D)) (h : Rearranged π τ c g D) {y : Vec g.nData} (hy : DataSpec g y)
    {y' : Vec (withData g D).nData} (hy' : DataSpec (withData g D) y') {β : ℝ} : (y' - priorMean (withData g D) β) ∘ permRow hg h = y - priorMean g β := by
  funext q
  obtain ⟨hs, hq⟩ := dIx_spec hg q
  have hval : ((permRow hg h q : Fin (withData g D).nData) : ℕ) = (mapIx π τ (dIx g q)).pos g.nEval g.nGrad := rfl
  show y' (permRow hg h q) - (if ((permRow hg h q : Fin (withData g D).nData) : ℕ) < g.nEval then β else 0) = y q - (if (q : ℕ) < g.nEval then β else 0)
  cases hx : dIx g q with
  | v p =>
    rw [hx] at hs hq hval
    have hp' : p < g.nEval := hs
    have hqp : (q : ℕ) = p := hq.symm
    have hval' : ((permRow hg h q : Fin (withData g D).nData) : ℕ) = π p := hval
    have hlt := h.pt_lt p hp'
    rw [hy.val q (by omega), hy'.val (permRow hg h q) (by rw [hval']; exact hlt), hval', hqp, if_pos hlt, if_pos hp']
    show D.fval.get (π p) - β = _
    rw [h.fval p hp']
  | g i a =>
    rw [hx] at hs hq hval
    have hval' : ((permRow hg h q : Fin (withData g D).nData) : ℕ) = g.nEval + i * g.nGrad + τ a := hval
    have hq' : (q : ℕ) = g.nEval + i * g.nGrad + a := hq.symm
    have hu : g.useGrad = true := by
      cases hu : g.useGrad with
      | true => rfl
      | false =>
        have := hg.nGrad
        rw [hu] at this
        simp only [Bool.false_eq_true, if_false] at this
        have := hs.2
        omega
    obtain ⟨G, hG, -⟩ := hg.grad_some hu
    obtain ⟨G', hG', -⟩ := hg'.grad_some hu
    rw [if_neg (by omega), if_neg (by omega), hy.grad G hG q i hs.1 a hs.2 hq',
      hy'.grad G' hG' (permRow hg h q) i hs.1 (τ a) (h.gr_lt a hs.2) hval', h.grad G G' hG hG' a hs.2 i hs.1]

/-- Everything the predictions are made of is rearranged. -/
theorem setup_perm (hg : GpOk g) (hg' : GpOk (withData g D)) {hp : HpVals} (hh : HpAdm g hp) (hh' : HpAdm (withData g D) hp) {β : ℝ}
    (h : Rearranged π τ c g D) {cc cc' : Bool} {N : Vec g.nData} {K : Mat g.nData g.nData} {st : EvalState g.nData}
    {N' : Vec (withData g D).nData} {K' : Mat (withData g D).nData (withData g D).nData} {st' : EvalState (withData g D).nData}
    (hs : SetupSpec g hp β cc N K st) (hs' : SetupSpec (withData g D) hp β cc' N' K' st') :
    st'.etaK = st.etaK ∧ st'.KernEta.submatrix (permRow hg h) (permRow hg h) = st.KernEta := by
  have hK : K'.submatrix (permRow hg h) (permRow hg h) = K := by
    ext p q
    have e1 := isKern_entry hg hh hs.isKern p q
    have e2 : K' (permRow hg h p) (permRow hg h q) = _ := isKern_entry hg' hh' hs'.isKern (permRow hg h p) (permRow hg h q)
    rw [submatrix_apply, e1, e2, kk_permRow]
  have hN : N' ∘ permRow hg h = N := by
    obtain ⟨Na, h1, rfl⟩ := hs.noise
    obtain ⟨Na', h1', e⟩ := hs'.noise
    rw [e]
    exact noise_perm hg hg' h h1 h1'
  have hη : st'.etaK = st.etaK := by
    have e1 := hs.etaEq
    have e2 : st'.etaK = if g.o.etaConst then g.o.etaK else
      (⨆ i, ∑ j, |(if g.o.precon then corr (kwn 1 K' N') else K') i j|) / (g.o.condMaxTarget - 1) := hs'.etaEq
    rw [e1, e2, rowSup_perm (permRow hg h)]
    split_ifs
    · exact corr_perm _ hK hN
    · exact hK
  refine ⟨hη, ?_⟩
  have e2 : st'.KernEta = K' + diagonal (fun i => N' i + st'.etaK * (if g.o.precon then K' i i + N' i else 1)) := hs'.cov
  rw [hs.cov, e2, hη, ← hK, ← hN]
  ext p q
  simp only [submatrix_apply, Matrix.add_apply, diagonal_apply, addDiag, Function.comp, (permRow hg h).injective.eq_iff]

end

end GP
