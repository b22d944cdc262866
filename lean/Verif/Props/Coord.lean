import Verif.Proofs.Coord
import Verif.Props.Restate
import Verif.Props.RestatePred

/-! Property C102: the labels and the orientation of the coordinates. -/

open Np Spec GP Matrix

noncomputable section

namespace GP

section
variable {n n' : ℕ} (ρ : Fin n ≃ Fin n') {s : Vec n} (hs : ∀ i, s i * s i = 1)
include hs

theorem kwn_co {K : Mat n n} {K' : Mat n' n'} (hK : K'.submatrix ρ ρ = signed s K) {N : Vec n} {N' : Vec n'} (hN : N' ∘ ρ = N) (v : ℝ) :
    (kwn v K' N').submatrix ρ ρ = signed s (kwn v K N) := by
  have := kwn_perm ρ (s := 1) (v := v) hK one_ne_zero (by rw [one_smul, hN])
  rw [one_mul] at this
  rw [this, signed_kwn hs]

theorem cov_co {o : CondOpts} {v : ℝ} {K : Mat n n} {K' : Mat n' n'} (hK : K'.submatrix ρ ρ = signed s K) {N : Vec n}
    {N' : Vec n'} (hN : N' ∘ ρ = N) {cf cc : Bool} {out : CovOut n} {out' : CovOut n'} (h : CovSpec o v K N cf cc out)
    (h' : CovSpec o v K' N' cf cc out') : out'.etaK = out.etaK ∧ out'.Kcov.submatrix ρ ρ = signed s out.Kcov := by
  have hkw := kwn_co ρ hs hK hN v
  have hη : out'.etaK = out.etaK := by
    rw [h.eta, h'.eta, rowSup_perm ρ (A := if o.precon then signed s (corr (kwn v K N)) else signed s K)]
    · split_ifs
      · rfl
      · rw [signed_rowSup hs]
      · rw [signed_rowSup hs]
    · split_ifs
      · rw [corr_sub ρ hkw, signed_corr hs]
      · exact hK
  refine ⟨hη, ?_⟩
  have hcorr : ∀ i, kwn v K' N' (ρ i) (ρ i) = kwn v K N i i := fun i => by
    have := congrFun (congrFun hkw i) i
    rw [signed_diag hs] at this
    exact this
  rw [h.cov, h'.cov, hη]
  ext i j
  have e1 : K' (ρ i) (ρ j) = s i * s j * K i j := congrFun (congrFun hK i) j
  have e2 : N' (ρ i) = N i := congrFun hN i
  have e3 : kwn v K' N' (ρ i) (ρ j) = s i * s j * kwn v K N i j := congrFun (congrFun hkw i) j
  have e4 := hs j
  by_cases hij : i = j
  · subst hij
    split_ifs <;> simp only [signed, of_apply, submatrix_apply, Matrix.smul_apply, Matrix.add_apply, smul_eq_mul, diagonal_apply, one_apply,
      if_true, e1, e2, e3, hcorr, e4, one_mul]
  · have hij' : ρ i ≠ ρ j := fun h => hij (ρ.injective h)
    split_ifs <;> simp only [signed, of_apply, submatrix_apply, Matrix.smul_apply, Matrix.add_apply, smul_eq_mul, diagonal_apply, one_apply,
      if_neg hij, if_neg hij', e1, e2, e3, hcorr] <;> ring

theorem condNum_co {o : CondOpts} {A : Mat n n} {A' : Mat n' n'} (hn : 0 < n) (hA : A.PosDef) (h : A'.submatrix ρ ρ = signed s A) :
    condNum o A' = condNum o A := by
  have hnn : n = n' := by simpa using Fintype.card_congr ρ
  have h1 := isCondNum_signed hs (isCondNum_condNum (o := o) hn hA)
  have h2 := isCondNum_perm ρ h h1
  exact isCondNum_unique (isCondNum_condNum (o := o) (hnn ▸ hn) (posDef_perm ρ one_pos (signed_posDef hs hA) (by rw [h, one_smul]))) h2

theorem condK_co {o : CondOpts} {v : ℝ} (hv : 0 < v) (hn : 0 < n) {K : Mat n n} {K' : Mat n' n'} (hK : K'.submatrix ρ ρ = signed s K) {N : Vec n}
    {N' : Vec n'} (hN : N' ∘ ρ = N) {cf cc : Bool} {out : CovOut n} {out' : CovOut n'} (h : CovSpec o v K N cf cc out)
    (h' : CovSpec o v K' N' cf cc out') (hpsd : K.PosSemidef) (hd : ∀ i, 0 < K i i) (hN0 : ∀ i, 0 ≤ N i) (hη : 0 < out.etaK) :
    out'.condK = out.condK := by
  obtain ⟨e1, e2⟩ := cov_co ρ hs hK hN h h'
  have hpd := h.posDef hv hpsd hd hN0 hη
  rw [h.cond, h'.cond]
  split_ifs with h1 h2
  · have hkd : ∀ i, 0 < kwn v K N i i := by
      intro i
      simp only [kwn, Matrix.add_apply, diagonal_apply_eq]
      have := hd i
      have := hN0 i
      positivity
    refine congrArg some (condNum_co ρ hs hn ?_ ?_)
    · have hs' : (diagonal fun i => Real.sqrt (kwn v K N i i)) * (v • (corr (kwn v K N) + out.etaK • (1 : Mat n n))) *
          (diagonal fun i => Real.sqrt (kwn v K N i i)) = out.Kcov := by
        rw [precon_conj hkd, h.cov, if_pos h2]
      exact (posDef_diag_conj (fun i => Real.sqrt_pos.mpr (hkd i))).mp (by rw [hs']; exact hpd)
    · have hc := corr_sub ρ (kwn_co ρ hs hK hN v)
      rw [signed_corr hs] at hc
      rw [e1, signed_smul, signed_add, signed_smul, signed_one hs, ← hc]
      ext i j
      simp only [submatrix_apply, Matrix.smul_apply, Matrix.add_apply, smul_eq_mul, one_apply, ρ.injective.eq_iff]
  · exact congrArg some (condNum_co ρ hs hn hpd e2)
  · rfl

end

section
variable {n n' : ℕ} (ρ : Fin n ≃ Fin n') {s : Vec n} (hs : ∀ i, s i * s i = 1)
include hs

theorem quad_co {M : Mat n n} {M' : Mat n' n'} (hM : M'.submatrix ρ ρ = signed s M) (hd : M.det ≠ 0) {k r : Vec n} {k' r' : Vec n'}
    (hk : k' ∘ ρ = diagonal s *ᵥ k) (hr : r' ∘ ρ = diagonal s *ᵥ r) : k' ⬝ᵥ M'⁻¹ *ᵥ r' = k ⬝ᵥ M⁻¹ *ᵥ r := by
  rw [quad_perm ρ hM hk hr, signed_quad hs hd]

end

section
variable {σ : Equiv.Perm ℕ} {ε : ℕ → ℝ} {g : Gp} {D : DataSet}

theorem resid_co (hg : GpOk g) (hg' : GpOk (withData g D)) (h : Relabelled σ ε g D)
    {y : Vec g.nData} (hy : DataSpec g y) {y' : Vec (withData g D).nData} (hy' : DataSpec (withData g D) y') (β : ℝ) :
    (y' - priorMean (withData g D) β) ∘ coRow hg h = diagonal (coVec ε g) *ᵥ (y - priorMean g β) := by
  set V : Mat g.nData nBetaCoeff := of fun q _ => if (q : ℕ) < g.nEval then 1 else 0 with hV
  set V' : Mat (withData g D).nData nBetaCoeff := of fun q _ => if (q : ℕ) < g.nEval then 1 else 0 with hV'
  obtain ⟨h1, h2⟩ := vec_co hg hg' h hy hy' (V := V) (fun _ _ => rfl) (V' := V') (fun _ _ => rfl)
  funext q
  have e1 : y' (coRow hg h q) = coVec ε g q * y q := by
    have := congrFun h2 q
    rwa [mulVec_diagonal] at this
  have e3 : (if ((coRow hg h q : Fin (withData g D).nData) : ℕ) < g.nEval then (1 : ℝ) else 0) =
      coVec ε g q * (if (q : ℕ) < g.nEval then 1 else 0) := by
    have := congrFun (congrFun h1 q) ⟨0, Nat.one_pos⟩
    rwa [diagonal_mul] at this
  rw [mulVec_diagonal]
  show y' (coRow hg h q) - (if ((coRow hg h q : Fin (withData g D).nData) : ℕ) < g.nEval then β else 0) =
    coVec ε g q * (y q - if (q : ℕ) < g.nEval then β else 0)
  have e4 : ∀ P : Prop, ∀ [Decidable P], (if P then β else 0) = β * (if P then 1 else 0) := by intro P _; split_ifs <;> simp
  rw [e1, e4, e4, e3]
  ring

/-- The matrix that predictions are made with is the same up to the order and the signs of its rows. -/
theorem setup_co (hg : GpOk g) (hg' : GpOk (withData g D)) (h : Relabelled σ ε g D) {hp : HpVals} (hh : HpAdm g hp)
    {β β' : ℝ} {cc cc' : Bool} {N : Vec g.nData} {K : Mat g.nData g.nData} {st : EvalState g.nData}
    {N' : Vec (withData g D).nData} {K' : Mat (withData g D).nData (withData g D).nData} {st' : EvalState (withData g D).nData}
    (hs : SetupSpec g hp β cc N K st) (hs' : SetupSpec (withData g D) (relabelHp σ hp) β' cc' N' K' st') :
    st'.etaK = st.etaK ∧ st'.KernEta.submatrix (coRow hg h) (coRow hg h) = signed (coVec ε g) st.KernEta := by
  have hsg := coVec_sq hg h
  have hK : K'.submatrix (coRow hg h) (coRow hg h) = signed (coVec ε g) K := kern_co hg hg' h hh hs.isKern hs'.isKern
  have hN : N' ∘ coRow hg h = N := by
    obtain ⟨Na, h1, rfl⟩ := hs.noise
    obtain ⟨Na', h1', e⟩ := hs'.noise
    rw [e, noise_co hg hg' h h1 h1']
  have hkw := kwn_co (coRow hg h) hsg hK hN 1
  have hη : st'.etaK = st.etaK := by
    have e1 := hs.etaEq
    have e2 : st'.etaK = if g.o.etaConst then g.o.etaK else
      (⨆ i, ∑ j, |(if g.o.precon then corr (kwn 1 K' N') else K') i j|) / (g.o.condMaxTarget - 1) := hs'.etaEq
    rw [e1, e2, rowSup_perm (coRow hg h) (A := if g.o.precon then signed (coVec ε g) (corr (kwn 1 K N)) else signed (coVec ε g) K)]
    · split_ifs
      · rfl
      · rw [signed_rowSup hsg]
      · rw [signed_rowSup hsg]
    · split_ifs
      · rw [corr_sub _ hkw, signed_corr hsg]
      · exact hK
  refine ⟨hη, ?_⟩
  have e2 : st'.KernEta = K' + diagonal (fun i => N' i + st'.etaK * (if g.o.precon then K' i i + N' i else 1)) := hs'.cov
  rw [hs.cov, e2, hη]
  ext p q
  have e1 : K' (coRow hg h p) (coRow hg h q) = coVec ε g p * coVec ε g q * K p q := congrFun (congrFun hK p) q
  have e5 : K' (coRow hg h p) (coRow hg h p) = K p p := by
    have := congrFun (congrFun hK p) p
    rwa [signed_diag hsg] at this
  have e3 : N' (coRow hg h p) = N p := congrFun hN p
  by_cases hpq : p = q
  · subst hpq
    simp only [signed, of_apply, submatrix_apply, Matrix.add_apply, diagonal_apply, addDiag, if_true, e5, e3, hsg p, one_mul]
  · have hpq' : coRow hg h p ≠ coRow hg h q := fun h' => hpq ((coRow hg h).injective h')
    simp only [signed, of_apply, submatrix_apply, Matrix.add_apply, diagonal_apply, addDiag, if_neg hpq, if_neg hpq', e1, add_zero]

end

section
variable {σ : Equiv.Perm ℕ} {ε : ℕ → ℝ} {g : Gp} {D : DataSet} (hg : GpOk g) {hp : HpVals} (hh : HpAdm g hp) (h : Relabelled σ ε g D)
    {M : Mat g.nData g.nData} {M' : Mat (withData g D).nData (withData g D).nData}
    (hM : M'.submatrix (coRow hg h) (coRow hg h) = signed (coVec ε g) M) (hd : M.det ≠ 0)
    {x x' : Pt} (hx : ∀ d < g.dim, x' (σ d) = ε d * x d)
include hh hM hd hx

theorem muF_co {r : Vec g.nData} {r' : Vec (withData g D).nData} (hr : r' ∘ coRow hg h = diagonal (coVec ε g) *ᵥ r) (β : ℝ) :
    muF (withData g D) (relabelHp σ hp) (M'⁻¹ *ᵥ r') β x' = muF g hp (M⁻¹ *ᵥ r) β x := by
  unfold muF
  rw [quad_co _ (coVec_sq hg h) hM hd (kv_coRow hg hh h hx) hr]

theorem dmuF_co {r : Vec g.nData} {r' : Vec (withData g D).nData} (hr : r' ∘ coRow hg h = diagonal (coVec ε g) *ᵥ r) {i : ℕ} (hi : i < g.dim) :
    dmuF (withData g D) (relabelHp σ hp) (M'⁻¹ *ᵥ r') x' (σ i) = ε i * dmuF g hp (M⁻¹ *ᵥ r) x i := by
  unfold dmuF
  rw [quad_co _ (coVec_sq hg h) hM hd (kd_coRow hg hh h hx hi) hr, smul_dotProduct, smul_eq_mul]

theorem d2muF_co {r : Vec g.nData} {r' : Vec (withData g D).nData} (hr : r' ∘ coRow hg h = diagonal (coVec ε g) *ᵥ r) {e i : ℕ} (he : e < g.dim)
    (hi : i < g.dim) : d2muF (withData g D) (relabelHp σ hp) (M'⁻¹ *ᵥ r') x' (σ e) (σ i) = ε e * ε i * d2muF g hp (M⁻¹ *ᵥ r) x e i := by
  unfold d2muF
  rw [quad_co _ (coVec_sq hg h) hM hd (kh_coRow hg hh h hx he hi) hr, smul_dotProduct, smul_eq_mul]

theorem sgF_co (v : ℝ) : sgF (withData g D) (relabelHp σ hp) M' v x' = sgF g hp M v x := by
  unfold sgF s2F
  rw [quad_co _ (coVec_sq hg h) hM hd (kv_coRow hg hh h hx) (kv_coRow hg hh h hx)]

theorem dsgF_co (v : ℝ) {i : ℕ} (hi : i < g.dim) :
    dsgF (withData g D) (relabelHp σ hp) M' v x' (σ i) = ε i * dsgF g hp M v x i := by
  unfold dsgF
  rw [sgF_co hg hh h hM hd hx, quad_co _ (coVec_sq hg h) hM hd (kd_coRow hg hh h hx hi) (kv_coRow hg hh h hx), smul_dotProduct, smul_eq_mul]
  split_ifs <;> ring

theorem d2sgF_co (v : ℝ) {e i : ℕ} (he : e < g.dim) (hi : i < g.dim) :
    d2sgF (withData g D) (relabelHp σ hp) M' v x' (σ e) (σ i) = ε e * ε i * d2sgF g hp M v x e i := by
  unfold d2sgF
  rw [sgF_co hg hh h hM hd hx, dsgF_co hg hh h hM hd hx v he, dsgF_co hg hh h hM hd hx v hi,
    quad_co _ (coVec_sq hg h) hM hd (kh_coRow hg hh h hx he hi) (kv_coRow hg hh h hx),
    quad_co _ (coVec_sq hg h) hM hd (kd_coRow hg hh h hx he) (kd_coRow hg hh h hx hi)]
  simp only [mulVec_smul, smul_dotProduct, dotProduct_smul, smul_eq_mul]
  ring

end

theorem evalClosed_co {σ : Equiv.Perm ℕ} {ε : ℕ → ℝ} {g : Gp} {D : DataSet} (hg : GpOk g) {hp : HpVals} (hh : HpAdm g hp) (h : Relabelled σ ε g D)
    {M : Mat g.nData g.nData} {M' : Mat (withData g D).nData (withData g D).nData}
    (hM : M'.submatrix (coRow hg h) (coRow hg h) = signed (coVec ε g) M) (hd : M.det ≠ 0) {r : Vec g.nData} {r' : Vec (withData g D).nData}
    (hr : r' ∘ coRow hg h = diagonal (coVec ε g) *ᵥ r) (β v : ℝ) {X : Arr2} (cg ch : Bool) :
    SameIn σ ε (evalClosed g hp M (M⁻¹ *ᵥ r) β v X cg ch : EvalOut X.r g.dim)
      (evalClosed (withData g D) (relabelHp σ hp) M' (M'⁻¹ *ᵥ r') β v (relabelPts σ ε X) cg ch) := by
  have hx : ∀ a, ∀ d < g.dim, (relabelPts σ ε X).get a (σ d) = ε d * X.get a d := fun a d _ => by simp [relabelPts]
  refine ⟨funext fun a => muF_co hg hh h hM hd (hx a) hr β, funext fun a => sgF_co hg hh h hM hd (hx a) v, ?_, ?_, ?_, ?_⟩
  · cases cg with
    | false => exact .none
    | true =>
      refine .some ?_
      intro a i j hj
      show dmuF (withData g D) (relabelHp σ hp) _ _ (j : ℕ) = _
      rw [hj]
      exact dmuF_co hg hh h hM hd (hx a) hr i.2
  · cases cg with
    | false => exact .none
    | true =>
      refine .some ?_
      intro a i j hj
      show dsgF (withData g D) (relabelHp σ hp) _ _ _ (j : ℕ) = _
      rw [hj]
      exact dsgF_co hg hh h hM hd (hx a) v i.2
  · cases ch with
    | false => exact .none
    | true =>
      refine .some ?_
      intro i j k l hk hl
      show d2muF (withData g D) (relabelHp σ hp) _ _ (k : ℕ) (l : ℕ) = _
      rw [hk, hl]
      exact d2muF_co hg hh h hM hd (hx 0) hr i.2 j.2
  · cases ch with
    | false => exact .none
    | true =>
      refine .some ?_
      have e := sgF_co hg hh h hM hd (hx 0) v
      by_cases h0 : sgF g hp M v (X.get 0) = 0
      · have h0' : sgF (withData g D) (relabelHp σ hp) M' v ((relabelPts σ ε X).get 0) = 0 := by rw [e, h0]
        rw [if_pos h0', if_pos h0]
        exact .none
      · have h0' : sgF (withData g D) (relabelHp σ hp) M' v ((relabelPts σ ε X).get 0) ≠ 0 := by rw [e]; exact h0
        rw [if_neg h0', if_neg h0]
        refine .some ?_
        intro i j k l hk hl
        show d2sgF (withData g D) (relabelHp σ hp) _ _ _ (k : ℕ) (l : ℕ) = _
        rw [hk, hl]
        exact d2sgF_co hg hh h hM hd (hx 0) v i.2 j.2

end GP

namespace Props

variable {σ : Equiv.Perm ℕ} {ε : ℕ → ℝ} {g : Gp} {D : DataSet}

theorem relabel_ready (h : Relabelled σ ε g D) {hp : HpVals} {v β : ℝ} (hr : Ready g hp v β) (hg' : GpOk (withData g D)) :
    Ready (withData g D) (relabelHp σ hp) v β where
  ok := hg'
  adm := relabelHp_adm h hr.adm
  noise := hr.noise
  precon := hr.precon
  ne := hr.ne
  vpos := hr.vpos
  varK := hr.varK
  beta := hr.beta
  eta := hr.eta
  mask := by
    intro hk
    show fullMask D.bvec g.nEval
    rw [h.bvec]
    exact hr.mask hk

theorem sep_co (h : Relabelled σ ε g D) {hp : HpVals} (hh : HpAdm g hp) {x x' : Pt} (hx : ∀ d < g.dim, x' (σ d) = ε d * x d) (hs : SepAt g hp x) :
    SepAt (withData g D) (relabelHp σ hp) x' := by
  obtain ⟨th, hth, -⟩ := hh.theta
  intro hk hug q hq
  have e : wdist2 g.dim (thF (relabelHp σ hp)) x' (D.x.get q) = wdist2 g.dim (thF hp) x (g.x.get q) := by
    unfold wdist2
    rw [← sum_relabel h.co_lt]
    refine Finset.sum_congr rfl fun d hd => ?_
    have hd' := Finset.mem_range.mp hd
    rw [thF_relabel σ hp (by rw [hth]; simp), hx d hd', h.x q hq d hd']
    have : ε d ^ 2 = 1 := by rcases h.sign d hd' with e | e <;> rw [e] <;> norm_num
    linear_combination (thF hp d * (x d - g.x.get q d) ^ 2) * this
  have := hs hk hug q hq
  rw [← e] at this
  exact this

/-- **C102**, predictions: with the coordinates in another order and some axes turned around, and the length scales put in the same order, the
same nugget is used, the model can be set up again, and at corresponding points means and standard deviations are the same, and gradients
and Hessians are those of the old coordinates, expressed in the new ones. -/
theorem C102_predictions (h : Relabelled σ ε g D) {hp : HpVals} {v β : ℝ}
    (hr : Ready g hp v β) (hg' : GpOk (withData g D)) {cc cc' : Bool} {st : EvalState g.nData}
    {st' : EvalState (withData g D).nData} (hst : setupEvalModel g hp cc = .ok st)
    (hst' : setupEvalModel (withData g D) (relabelHp σ hp) cc' = .ok st') (hF : st.chofac ≠ none) (hc : cc' = false ∨ g.o.precon = true)
    {X : Arr2} (hX : X.c = g.dim) (hXr : 0 < X.r) (cg ch : Bool) (hch : HessOk g hp X cg ch) :
    st'.etaK = st.etaK ∧ ∃ out out' : EvalOut X.r g.dim, evalModel g st hp X cg ch = .ok out ∧
      evalModel (withData g D) st' (relabelHp σ hp) (relabelPts σ ε X) cg ch = .ok out' ∧ SameIn σ ε out out' := by
  have hr' := relabel_ready h hr hg'
  obtain ⟨N, K, hs, -⟩ := ready_setup hr.toV hst
  obtain ⟨N', K', hs', -⟩ := ready_setup hr'.toV hst'
  obtain ⟨hη, hM⟩ := setup_co hr.ok hg' h hr.adm hs hs'
  have hpd := ready_pd hs hF
  have hF' : st'.chofac ≠ none := by
    obtain ⟨F, hF'⟩ := hs'.facSome hc (posDef_perm (coRow hr.ok h) one_pos (signed_posDef (coVec_sq hr.ok h) hpd) (by rw [hM, one_smul]))
    rw [hF']; simp
  have hch' : HessOk (withData g D) (relabelHp σ hp) (relabelPts σ ε X) cg ch := by
    intro h1
    obtain ⟨a1, a2, a3, a4⟩ := hch h1
    exact ⟨a1, a2, a3, sep_co h hr.adm (fun d _ => by simp [relabelPts]) a4⟩
  exact ⟨hη, _, _, ready_eval hr hs hF hX hXr cg ch hch, ready_eval hr' hs' hF' (X := relabelPts σ ε X) hX hXr cg ch hch',
    evalClosed_co hr.ok hr.adm h hM (posDef_detne hpd) (resid_co hr.ok hg' h hs.data hs'.data β) β v cg ch⟩

/-- **C102**, likelihood: the covariance matrix can be factorised in both cases or in neither, and the condition number, the fitted mean, the
fitted variance and the log likelihood are the same. -/
theorem C102_likelihood (hg : GpOk g) (hg' : GpOk (withData g D))
    (h : Relabelled σ ε g D) {hp : HpVals} (hh : HpAdm g hp) (hk : g.useGrad = true ∨ g.knownFval = true)
    (hprec : g.o.precon = true → g.useGrad = true) (hne : 0 < g.nEval) (hη : if g.o.etaConst then 0 < g.o.etaK else 1 < g.o.condMaxTarget)
    (hv : g.noisy = true → ∃ v, hp.varK = some v ∧ 0 < v) (env : LkdEnv) (cc : Bool) :
    ∃ li li' ok, calcLkdAll g env hp cc false = .ok (li, ok) ∧ calcLkdAll (withData g D) env (relabelHp σ hp) cc false = .ok (li', ok) ∧
      li'.cond = li.cond ∧ (cc = false → ok = true) ∧ (ok = true → ∃ l β, li.lnLkd = some l ∧ li.beta = some β ∧
        li'.lnLkd = some l ∧ li'.beta = some β ∧ (g.noisy = false → ∃ w, li.varK = some w ∧ li'.varK = some w)) := by
  have hnd : 0 < g.nData := by rw [hg.nData]; omega
  obtain ⟨v, hv0, hvk, hvk'⟩ : ∃ v, 0 < v ∧ (vkArg g).or hp.varK = some v ∧
      (vkArg (withData g D)).or (relabelHp σ hp).varK = some v := by
    cases hno : g.noisy with
    | true =>
      obtain ⟨v, h1, h2⟩ := hv hno
      have e : (withData g D).noisy = true := hno
      exact ⟨v, h2, by simp [vkArg, hno, h1], by simp [vkArg, e, relabelHp, h1]⟩
    | false =>
      have e : (withData g D).noisy = false := hno
      exact ⟨1, one_pos, by simp [vkArg, hno], by simp [vkArg, e]⟩
  obtain ⟨Na, K, out, y, V, li, a1, a2, a3, a4, a5, a6, a7, a8, a9, a10, a11, a12, a13, a14, a15⟩ :=
    lkd_form hg hh hk hprec hne hη env cc hv0 hvk
  obtain ⟨Na', K', out', y', V', li', b1, b2, b3, b4, b5, b6, b7, b8, b9, b10, b11, b12, b13, b14, b15⟩ :=
    lkd_form hg' (relabelHp_adm h hh) hk hprec hne hη env cc hv0 hvk'
  have hsg := coVec_sq hg h
  set ρ := coRow hg h with hρ
  have hK : K'.submatrix ρ ρ = signed (coVec ε g) K := kern_co hg hg' h hh a2 b2
  have hN : (toVec (withData g D).nData Na') ∘ ρ = toVec g.nData Na := noise_co hg hg' h a1 b1
  obtain ⟨hE, hC⟩ := cov_co (o := g.o) ρ hsg hK hN a6 b6
  have hcK : out'.condK = out.condK := condK_co (o := g.o) ρ hsg hv0 hnd hK hN a6 b6 a3 a4 a5 a7
  have hcN : ∀ o : CondOpts, condNum o out'.Kcov = condNum o out.Kcov := fun o => condNum_co ρ hsg hnd a8 hC
  have hc2 : cond2 out'.Kcov = cond2 out.Kcov := by
    have := hcN { g.o with fro := false }
    simpa [condNum] using this
  have hok : out'.chofac.isSome = out.chofac.isSome := by
    rw [Bool.eq_iff_iff, a13, b13]
    show (cc = true → g.o.precon = false → condNum g.o out'.Kcov ≤ g.o.condMaxAbs) ↔ _
    rw [hcN]
  obtain ⟨hVV, hyy⟩ := vec_co hg hg' h a9 b9 a11 b11
  rw [← hρ] at hVV hyy
  refine ⟨li, li', out.chofac.isSome, a12, by rw [← hok]; exact b12, ?_, fun hc => a13.mpr fun hc' => (by rw [hc] at hc'; cases hc'), fun hS => ?_⟩
  · rw [a14, b14, hok, hcK, hc2]; rfl
  obtain ⟨p1, p2, p3⟩ := a15 hS
  obtain ⟨q1, q2, q3⟩ := b15 (by rw [hok]; exact hS)
  have hd := posDef_detne a8
  have hpd := signed_posDef hsg a8
  have hC1 : out'.Kcov.submatrix ρ ρ = (1 : ℝ) • signed (coVec ε g) out.Kcov := by rw [hC, one_smul]
  have hyy' : y' ∘ ρ = (1 : ℝ) • (diagonal (coVec ε g) *ᵥ y) + (diagonal (coVec ε g) * V) *ᵥ (0 : Vec nBetaCoeff) := by
    rw [hyy, one_smul, mulVec_zero, add_zero]
  have hrk := signed_rank hsg a10
  have hgls : gls out'.Kcov V' y' = gls out.Kcov V y := by
    rw [gls_perm ρ one_pos hpd hC1 hVV hrk hyy', signed_gls hsg hd, one_smul, add_zero]
  have hrss : rss out'.Kcov V' y' = rss out.Kcov V y := by
    rw [rss_perm ρ one_pos hpd hC1 hVV hrk hyy', signed_rss hsg hd]; ring
  have hdet : out'.Kcov.det = out.Kcov.det := by
    rw [det_perm ρ hC1, signed_det hsg]; ring
  have hvar : varOf out'.Kcov V' y' = varOf out.Kcov V y := by
    unfold varOf
    rw [hrss]; rfl
  have hfv : npVar (withData g D).fval = npVar g.fval := by
    have := npVar_perm (f := g.fval) (f' := D.fval) (π := Equiv.refl ℕ) (u := 1) (b := 0) (by rw [hg.fval_n]; exact hg'.fval_n) (fun _ hp => hp)
      (fun p hp => by
        rw [hg.fval_n] at hp
        rw [Equiv.refl_apply, h.fval p hp]; ring)
    rw [one_pow, one_mul] at this
    exact this
  cases hno : g.noisy with
  | true =>
    refine ⟨_, _, p2 hno, p1, ?_, by rw [q1, hgls], fun h => by (cases h)⟩
    rw [q2 hno, hrss, hdet]
  | false =>
    obtain ⟨p4, p5⟩ := p3 hno
    obtain ⟨q4, q5⟩ := q3 hno
    refine ⟨_, _, p5, p1, ?_, by rw [q1, hgls], fun _ => ⟨_, p4, by rw [q4, hvar]⟩⟩
    rw [q5]
    unfold lkdOf varKPnlt
    rw [hvar, hdet, hfv]
    rfl

/-- The data of `exGp` with the two coordinates exchanged and the second axis turned around. -/
def exTurned : DataSet where
  x := ⟨2, 2, fun p d => (if Equiv.swap 0 1 d = 1 then -1 else 1) * exX.get p (Equiv.swap 0 1 d)⟩
  fval := exGp.fval
  bvec := some [false, true]
  grad := some ⟨1, 2, fun _ d => (if Equiv.swap 0 1 d = 1 then -1 else 1) * (Equiv.swap 0 1 d : ℕ)⟩
  stdFval := exGp.stdFval
  stdGrad := none

theorem exTurned_ok : GpOk (withData exGp exTurned) := by
  have h := exReady.ok
  exact ⟨rfl, rfl, rfl, h.mask, h.nGrad, h.noMask, h.nData, (by intro h; cases h), fun _ => ⟨_, rfl, rfl, rfl⟩, fun _ => ⟨_, rfl, rfl⟩, h.std_fgrad, h.fzero, h.gzero, h.noisy⟩

theorem exTurned_of : Relabelled (Equiv.swap 0 1) (fun d => if d = 1 then -1 else 1) exGp exTurned where
  co_lt := by
    intro p hp
    have : p = 0 ∨ p = 1 := by have : p < 2 := hp; omega
    rcases this with rfl | rfl <;> simp [exGp]
  sign := by intro d _; split_ifs <;> simp
  x := by intro p _ d _; simp [exTurned, exGp]
  fval := by intro p _; rfl
  bvec := rfl
  grad := by intro G G' h h'; cases h; cases h'; intro a _ i _; simp
  stdF := by intro s s' h h'; cases h; cases h'; intro p _; rfl
  stdG := by intro s s' h; cases h

-- C102, predictions with gradients: the derivative along the old second axis is minus the derivative along the new first axis
example : ∃ st st', ∃ out out' : EvalOut 2 2, setupEvalModel exGp exHpB false = .ok st ∧
    setupEvalModel (withData exGp exTurned) (relabelHp (Equiv.swap 0 1) exHpB) false = .ok st' ∧
    evalModel exGp st exHpB ⟨2, 2, fun a d => a + 3 * d⟩ true false = .ok out ∧
    evalModel (withData exGp exTurned) st' (relabelHp (Equiv.swap 0 1) exHpB)
      (relabelPts (Equiv.swap 0 1) (fun d => if d = 1 then -1 else 1) ⟨2, 2, fun a d => a + 3 * d⟩) true false = .ok out' ∧
    out'.mu = out.mu ∧ ∃ A A', out.dmu = some A ∧ out'.dmu = some A' ∧ ∀ a, A' a 0 = -A a 1 ∧ A' a 1 = A a 0 := by
  obtain ⟨st, hst, hF⟩ := ready_total exReady.toV (by norm_num [exGp])
  obtain ⟨st', hst', hF'⟩ := ready_total (relabel_ready exTurned_of exReady exTurned_ok).toV (by norm_num [exGp, withData])
  obtain ⟨-, out, out', h1, h2, h3⟩ := C102_predictions exTurned_of exReady exTurned_ok hst hst' hF (.inl rfl)
    (X := ⟨2, 2, fun a d => a + 3 * d⟩) rfl (by decide) true false noHess
  have hd := h3.dmu
  have hsome : ∃ A, out.dmu = some A := by
    obtain ⟨N, K, hs, -⟩ := ready_setup exReady.toV hst
    rw [ready_eval exReady hs hF (X := ⟨2, 2, fun a d => a + 3 * d⟩) rfl (by decide) true false noHess] at h1
    cases h1
    exact ⟨_, rfl⟩
  obtain ⟨A, hA⟩ := hsome
  rw [hA] at hd
  cases hA' : out'.dmu with
  | none => rw [hA'] at hd; cases hd
  | some A' =>
    rw [hA'] at hd
    cases hd with
    | some hd =>
      refine ⟨st, st', out, out', hst, hst', h1, h2, h3.mu, A, A', hA, hA', fun a => ⟨?_, ?_⟩⟩
      · have := hd a ⟨1, by decide⟩ ⟨0, by decide⟩ (by simp)
        rw [if_pos rfl, neg_one_mul] at this
        exact this
      · have := hd a ⟨0, by decide⟩ ⟨1, by decide⟩ (by simp)
        rw [if_neg (by simp), one_mul] at this
        exact this

-- C102, the likelihood
example (env : LkdEnv) : ∃ li li' l, calcLkdAll exGp env exHpB false false = .ok (li, true) ∧
    calcLkdAll (withData exGp exTurned) env (relabelHp (Equiv.swap 0 1) exHpB) false false = .ok (li', true) ∧
    li'.cond = li.cond ∧ li.lnLkd = some l ∧ li'.lnLkd = some l := by
  obtain ⟨li, li', ok, h1, h2, h3, h4, h5⟩ := C102_likelihood exReady.ok exTurned_ok exTurned_of exReady.adm exReady.noise exReady.precon
    exReady.ne exReady.eta (fun _ => ⟨3, exReady.varK, exReady.vpos⟩) env false
  rw [h4 rfl] at h1 h2 h5
  obtain ⟨l, β, k1, -, k2, -⟩ := h5 rfl
  exact ⟨li, li', l, h1, h2, h3, k1, k2⟩

end Props
