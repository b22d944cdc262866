import Verif.Proofs.CoordUnits
import Verif.Props.Coord

/-! Property C103: the units of the coordinates. -/

open Np Spec GP Matrix

noncomputable section

namespace GP

section
variable {a : ℕ → ℝ} {g : Gp} {D : DataSet}

/-- Without gradients no row has a factor. -/
theorem unitVec_one (hg : GpOk g) (hug : g.useGrad = false) (q : Fin g.nData) : unitVec a g q = 1 := by
  obtain ⟨hs, -⟩ := dIx_spec hg q
  unfold unitVec dco
  cases hx : dIx g q with
  | v p => rfl
  | g i b =>
    rw [hx] at hs
    have := hg.nGrad
    rw [hug] at this
    simp only [Bool.false_eq_true, if_false] at this
    have := hs.2
    omega

theorem unitVec_ok (hg : GpOk g) (ho : g.o.precon = true ∨ g.useGrad = false) : g.o.precon = true ∨ ∀ q, unitVec a g q = 1 :=
  ho.imp_right fun h q => unitVec_one hg h q

theorem resid_units (hg : GpOk g) (hg' : GpOk (withData g D)) (h : CoordUnits a g D)
    {y y' : Vec g.nData} (hy : DataSpec g y) (hy' : DataSpec (withData g D) y') (β : ℝ) :
    y' - priorMean g β = diagonal (unitVec a g) *ᵥ (y - priorMean g β) := by
  set V : Mat g.nData nBetaCoeff := of fun q _ => if (q : ℕ) < g.nEval then 1 else 0 with hV
  obtain ⟨h1, h2⟩ := vec_units hg h hg' hy hy' (V := V) (fun _ _ => rfl)
  funext q
  have e3 : (if (q : ℕ) < g.nEval then (1 : ℝ) else 0) = unitVec a g q * (if (q : ℕ) < g.nEval then 1 else 0) := by
    have := congrFun (congrFun h1 q) ⟨0, Nat.one_pos⟩
    rwa [diagonal_mul] at this
  have e4 : (if (q : ℕ) < g.nEval then β else 0) = unitVec a g q * (if (q : ℕ) < g.nEval then β else 0) := by
    split_ifs at e3 ⊢
    · rw [mul_one] at e3; rw [← e3, one_mul]
    · simp
  rw [mulVec_diagonal, h2, Pi.sub_apply, Pi.sub_apply, mulVec_diagonal]
  show _ - (if (q : ℕ) < g.nEval then β else 0) = unitVec a g q * (y q - if (q : ℕ) < g.nEval then β else 0)
  rw [mul_sub, ← e4]

/-- The matrix that predictions are made with is the same up to factors of its rows and columns. -/
theorem setup_units (hg : GpOk g) (hg' : GpOk (withData g D)) (h : CoordUnits a g D) (ho : g.o.precon = true ∨ g.useGrad = false)
    {hp : HpVals} (hh : HpAdm g hp) {w : Option ℝ} (hw : NoiseFollows a g.dim hp.varFgrad w)
    {β β' : ℝ} {cc cc' : Bool} {N N' : Vec g.nData} {K K' : Mat g.nData g.nData} {st st' : EvalState g.nData}
    (hs : SetupSpec g hp β cc N K st) (hs' : SetupSpec (withData g D) (coordHp a w hp) β' cc' N' K' st') :
    st'.etaK = st.etaK ∧ st'.KernEta = signed (unitVec a g) st.KernEta := by
  have hne := unitVec_ne hg h
  have hsg := sgn_sq hne
  have hK : K' = signed (unitVec a g) K := kern_units hg hh h hg' hw hs.isKern hs'.isKern
  have hN : ∀ q, N' q = unitVec a g q ^ 2 * N q := by
    obtain ⟨Na, h1, rfl⟩ := hs.noise
    obtain ⟨Na', h1', e⟩ := hs'.noise
    intro q
    rw [e]
    exact noise_units hg hh h hg' hw h1 h1' q
  have hkw : kwn 1 K' N' = signed (unitVec a g) (kwn 1 K N) := by rw [hK]; exact sc_kwn 1 K hN
  have hη : st'.etaK = st.etaK := by
    have e1 := hs.etaEq
    have e2 : st'.etaK = if g.o.etaConst then g.o.etaK else
      (⨆ i, ∑ j, |(if g.o.precon then corr (kwn 1 K' N') else K') i j|) / (g.o.condMaxTarget - 1) := hs'.etaEq
    rw [e1, e2, hkw]
    split_ifs with h1 h2
    · rfl
    · rw [sc_corr hne, signed_rowSup hsg]
    · have h1 := (unitVec_ok (a := a) hg ho).resolve_left (by simpa using h2)
      rw [hK, signed_rowSup (fun i => by rw [h1 i]; ring)]
  refine ⟨hη, ?_⟩
  have e2 : st'.KernEta = K' + diagonal (fun i => N' i + st'.etaK * (if g.o.precon then K' i i + N' i else 1)) := hs'.cov
  rw [hs.cov, e2, hη]
  ext p q
  have e1 : K' p q = unitVec a g p * unitVec a g q * K p q := congrFun (congrFun hK p) q
  have e5 : K' p p = unitVec a g p * unitVec a g p * K p p := congrFun (congrFun hK p) p
  by_cases hpq : p = q
  · subst hpq
    simp only [signed, of_apply, Matrix.add_apply, diagonal_apply, addDiag, if_true, e5, hN p]
    split_ifs with h2
    · ring
    · have h1 := (unitVec_ok (a := a) hg ho).resolve_left (by simpa using h2)
      rw [h1 p]; ring
  · simp only [signed, of_apply, Matrix.add_apply, diagonal_apply, addDiag, if_neg hpq, e1, add_zero]

end

section
variable {a : ℕ → ℝ} {g : Gp} {D : DataSet}

/-- Rows keep their places. -/
def sameRow (g : Gp) (D : DataSet) : Fin g.nData ≃ Fin (withData g D).nData := Equiv.refl _

theorem quad_un {n n' : ℕ} (ρ : Fin n ≃ Fin n') {s : Vec n} (hs : ∀ i, s i ≠ 0) {M : Mat n n} {M' : Mat n' n'} (hM : M'.submatrix ρ ρ = signed s M)
    (hd : M.det ≠ 0) {k r : Vec n} {k' r' : Vec n'} (hk : k' ∘ ρ = diagonal s *ᵥ k) (hr : r' ∘ ρ = diagonal s *ᵥ r) :
    k' ⬝ᵥ M'⁻¹ *ᵥ r' = k ⬝ᵥ M⁻¹ *ᵥ r := by
  rw [quad_perm ρ hM hk hr, sc_quad hs hd]

variable (hg : GpOk g) {hp : HpVals} (hh : HpAdm g hp) {w : Option ℝ} (h : CoordUnits a g D)
    {M : Mat g.nData g.nData} {M' : Mat (withData g D).nData (withData g D).nData}
    (hM : M'.submatrix (sameRow g D) (sameRow g D) = signed (unitVec a g) M) (hd : M.det ≠ 0) {x x' : Pt} (hx : ∀ d < g.dim, x' d = a d * x d)
include hg hh h hM hd hx

omit hM hd in
theorem kvU : kv (withData g D) (coordHp a w hp) x' ∘ sameRow g D = diagonal (unitVec a g) *ᵥ kv g hp x := kv_units hg hh h hx

omit hM hd in
theorem kdU {i : ℕ} (hi : i < g.dim) :
    kd (withData g D) (coordHp a w hp) x' i ∘ sameRow g D = diagonal (unitVec a g) *ᵥ ((a i)⁻¹ • kd g hp x i) := kd_units hg hh h hx hi

omit hM hd in
theorem khU {e i : ℕ} (he : e < g.dim) (hi : i < g.dim) :
    kh (withData g D) (coordHp a w hp) x' e i ∘ sameRow g D = diagonal (unitVec a g) *ᵥ (((a e)⁻¹ * (a i)⁻¹) • kh g hp x e i) :=
  kh_units hg hh h hx he hi

theorem muF_units {r : Vec g.nData} {r' : Vec (withData g D).nData} (hr : r' ∘ sameRow g D = diagonal (unitVec a g) *ᵥ r) (β : ℝ) :
    muF (withData g D) (coordHp a w hp) (M'⁻¹ *ᵥ r') β x' = muF g hp (M⁻¹ *ᵥ r) β x := by
  unfold muF
  rw [quad_un _ (unitVec_ne hg h) hM hd (kvU hg hh h hx) hr]

theorem dmuF_units {r : Vec g.nData} {r' : Vec (withData g D).nData} (hr : r' ∘ sameRow g D = diagonal (unitVec a g) *ᵥ r) {i : ℕ} (hi : i < g.dim) :
    dmuF (withData g D) (coordHp a w hp) (M'⁻¹ *ᵥ r') x' i = (a i)⁻¹ * dmuF g hp (M⁻¹ *ᵥ r) x i := by
  unfold dmuF
  rw [quad_un _ (unitVec_ne hg h) hM hd (kdU hg hh h hx hi) hr, smul_dotProduct, smul_eq_mul]

theorem d2muF_units {r : Vec g.nData} {r' : Vec (withData g D).nData} (hr : r' ∘ sameRow g D = diagonal (unitVec a g) *ᵥ r) {e i : ℕ}
    (he : e < g.dim) (hi : i < g.dim) :
    d2muF (withData g D) (coordHp a w hp) (M'⁻¹ *ᵥ r') x' e i = (a e)⁻¹ * (a i)⁻¹ * d2muF g hp (M⁻¹ *ᵥ r) x e i := by
  unfold d2muF
  rw [quad_un _ (unitVec_ne hg h) hM hd (khU hg hh h hx he hi) hr, smul_dotProduct, smul_eq_mul]

theorem sgF_units (v : ℝ) : sgF (withData g D) (coordHp a w hp) M' v x' = sgF g hp M v x := by
  unfold sgF s2F
  rw [quad_un _ (unitVec_ne hg h) hM hd (kvU hg hh h hx) (kvU hg hh h hx)]

theorem dsgF_units (v : ℝ) {i : ℕ} (hi : i < g.dim) :
    dsgF (withData g D) (coordHp a w hp) M' v x' i = (a i)⁻¹ * dsgF g hp M v x i := by
  unfold dsgF
  rw [sgF_units hg hh h hM hd hx, quad_un _ (unitVec_ne hg h) hM hd (kdU hg hh h hx hi) (kvU hg hh h hx), smul_dotProduct, smul_eq_mul]
  split_ifs <;> ring

theorem d2sgF_units (v : ℝ) {e i : ℕ} (he : e < g.dim) (hi : i < g.dim) :
    d2sgF (withData g D) (coordHp a w hp) M' v x' e i = (a e)⁻¹ * (a i)⁻¹ * d2sgF g hp M v x e i := by
  unfold d2sgF
  rw [sgF_units hg hh h hM hd hx, dsgF_units hg hh h hM hd hx v he, dsgF_units hg hh h hM hd hx v hi,
    quad_un _ (unitVec_ne hg h) hM hd (khU hg hh h hx he hi) (kvU hg hh h hx),
    quad_un _ (unitVec_ne hg h) hM hd (kdU hg hh h hx he) (kdU hg hh h hx hi)]
  simp only [mulVec_smul, smul_dotProduct, dotProduct_smul, smul_eq_mul]
  ring

end

theorem evalClosed_units {a : ℕ → ℝ} {g : Gp} {D : DataSet} (hg : GpOk g) {hp : HpVals} (hh : HpAdm g hp) {w : Option ℝ} (h : CoordUnits a g D)
    {M : Mat g.nData g.nData} {M' : Mat (withData g D).nData (withData g D).nData}
    (hM : M'.submatrix (sameRow g D) (sameRow g D) = signed (unitVec a g) M) (hd : M.det ≠ 0) {r : Vec g.nData} {r' : Vec (withData g D).nData}
    (hr : r' ∘ sameRow g D = diagonal (unitVec a g) *ᵥ r) (β v : ℝ) {X : Arr2} (cg ch : Bool) :
    SameUnits a (evalClosed g hp M (M⁻¹ *ᵥ r) β v X cg ch : EvalOut X.r g.dim)
      (evalClosed (withData g D) (coordHp a w hp) M' (M'⁻¹ *ᵥ r') β v (coordPts a X) cg ch) := by
  have hx : ∀ b, ∀ d < g.dim, (coordPts a X).get b d = a d * X.get b d := fun b d _ => rfl
  have hc : ∀ (i : Fin g.dim) (z : ℝ), a i * ((a i)⁻¹ * z) = z := fun i z => mul_inv_cancel_left₀ (h.ne i i.2) z
  have hc2 : ∀ (i j : Fin g.dim) (z : ℝ), a i * a j * ((a i)⁻¹ * (a j)⁻¹ * z) = z := fun i j z => by
    have h1 := h.ne i i.2
    have h2 := h.ne j j.2
    field_simp
  refine ⟨funext fun b => muF_units hg hh h hM hd (hx b) hr β, funext fun b => sgF_units hg hh h hM hd (hx b) v, ?_, ?_, ?_, ?_⟩
  · cases cg with
    | false => exact .none
    | true =>
      refine .some ?_
      intro b i
      exact (congrArg (a i * ·) (dmuF_units hg hh h hM hd (hx b) hr i.2)).trans (hc i _)
  · cases cg with
    | false => exact .none
    | true =>
      refine .some ?_
      intro b i
      exact (congrArg (a i * ·) (dsgF_units hg hh h hM hd (hx b) v i.2)).trans (hc i _)
  · cases ch with
    | false => exact .none
    | true =>
      refine .some ?_
      intro i j
      exact (congrArg (a i * a j * ·) (d2muF_units hg hh h hM hd (hx 0) hr i.2 j.2)).trans (hc2 i j _)
  · cases ch with
    | false => exact .none
    | true =>
      refine .some ?_
      have e := sgF_units (w := w) hg hh h hM hd (hx 0) v
      by_cases h0 : sgF g hp M v (X.get 0) = 0
      · have h0' : sgF (withData g D) (coordHp a w hp) M' v ((coordPts a X).get 0) = 0 := by rw [e, h0]
        rw [if_pos h0', if_pos h0]
        exact .none
      · have h0' : sgF (withData g D) (coordHp a w hp) M' v ((coordPts a X).get 0) ≠ 0 := by rw [e]; exact h0
        rw [if_neg h0', if_neg h0]
        refine .some ?_
        intro i j
        exact (congrArg (a i * a j * ·) (d2sgF_units hg hh h hM hd (hx 0) v i.2 j.2)).trans (hc2 i j _)

end GP

namespace Props

variable {a : ℕ → ℝ} {g : Gp} {D : DataSet}

theorem coord_ready (h : CoordUnits a g D) {hp : HpVals} {w : Option ℝ} (hw : NoiseFollows a g.dim hp.varFgrad w) {v β : ℝ}
    (hr : Ready g hp v β) (hg' : GpOk (withData g D)) : Ready (withData g D) (coordHp a w hp) v β where
  ok := hg'
  adm := coordHp_adm h hr.adm hw
  noise := hr.noise
  precon := hr.precon
  ne := hr.ne
  vpos := hr.vpos
  varK := hr.varK
  beta := hr.beta
  eta := hr.eta
  mask := by
    intro hk
    show fullMask D.bvec g.nEval
    rw [h.bvec]
    exact hr.mask hk

theorem sep_units (h : CoordUnits a g D) {hp : HpVals} (hh : HpAdm g hp) {w : Option ℝ} {x x' : Pt} (hx : ∀ d < g.dim, x' d = a d * x d)
    (hs : SepAt g hp x) : SepAt (withData g D) (coordHp a w hp) x' := by
  obtain ⟨th, hth, -⟩ := hh.theta
  intro hk hug q hq
  have e : wdist2 g.dim (thF (coordHp a w hp)) x' (D.x.get q) = wdist2 g.dim (thF hp) x (g.x.get q) := by
    rw [wdist2_eq, wdist2_eq]
    refine ssq_units h.ne (fun d _ => thF_units a w hp (by rw [hth]; simp) d) fun d hd => ?_
    show x' d - D.x.get q d = _
    rw [hx d hd, h.x q hq d hd]
    ring
  have := hs hk hug q hq
  rw [← e] at this
  exact this

/-- **C103**, predictions: measure every coordinate in other units (partial derivatives and their noise follow). If the matrix is
preconditioned, or gradients are not used, then with the length scales in the new units the same nugget is used, the model can be set
up again, and at corresponding points means and standard deviations are the same and their gradients and Hessians follow the units.
(The code has one variance of gradient noise for all coordinates; if that is a hyperparameter and not zero, it must be possible to
express it in the new units, `NoiseFollows`.) Without preconditioning this is false, see `C103_base_units_discrepancy`. -/
theorem C103_predictions (h : CoordUnits a g D) (ho : g.o.precon = true ∨ g.useGrad = false) {hp : HpVals} {w : Option ℝ}
    (hw : NoiseFollows a g.dim hp.varFgrad w) {v β : ℝ}
    (hr : Ready g hp v β) (hg' : GpOk (withData g D)) {cc cc' : Bool} {st : EvalState g.nData}
    {st' : EvalState (withData g D).nData} (hst : setupEvalModel g hp cc = .ok st)
    (hst' : setupEvalModel (withData g D) (coordHp a w hp) cc' = .ok st') (hF : st.chofac ≠ none) (hc : cc' = false ∨ g.o.precon = true)
    {X : Arr2} (hX : X.c = g.dim) (hXr : 0 < X.r) (cg ch : Bool) (hch : HessOk g hp X cg ch) :
    st'.etaK = st.etaK ∧ ∃ out out' : EvalOut X.r g.dim, evalModel g st hp X cg ch = .ok out ∧
      evalModel (withData g D) st' (coordHp a w hp) (coordPts a X) cg ch = .ok out' ∧ SameUnits a out out' := by
  have hr' := coord_ready h hw hr hg'
  obtain ⟨N, K, hs, -⟩ := ready_setup hr.toV hst
  obtain ⟨N', K', hs', -⟩ := ready_setup hr'.toV hst'
  obtain ⟨hη, hM⟩ := setup_units hr.ok hg' h ho hr.adm hw hs hs'
  have hpd := ready_pd hs hF
  have hF' : st'.chofac ≠ none := by
    obtain ⟨F, hF'⟩ := hs'.facSome hc (by rw [hM]; exact sc_posDef (unitVec_ne hr.ok h) hpd)
    rw [hF']; simp
  have hch' : HessOk (withData g D) (coordHp a w hp) (coordPts a X) cg ch := by
    intro h1
    obtain ⟨a1, a2, a3, a4⟩ := hch h1
    exact ⟨a1, a2, a3, sep_units h hr.adm (fun d _ => rfl) a4⟩
  exact ⟨hη, _, _, ready_eval hr hs hF hX hXr cg ch hch, ready_eval hr' hs' hF' (X := coordPts a X) hX hXr cg ch hch',
    evalClosed_units hr.ok hr.adm h hM (posDef_detne hpd) (resid_units hr.ok hg' h hs.data hs'.data β) β v cg ch⟩

/-- A sum over all data, by coordinates. -/
theorem sum_rows (hg : GpOk g) (f : Option ℕ → ℝ) :
    ∑ q : Fin g.nData, f (dco g q) = g.nEval * f none + g.nGrad * ∑ d ∈ Finset.range g.dim, f (some d) := by
  have hblock : ∀ m : ℕ, ∑ j ∈ Finset.range (m * g.nGrad), f (dco g (g.nEval + j)) = g.nGrad * ∑ d ∈ Finset.range m, f (some d) := by
    intro m
    induction m with
    | zero => simp
    | succ m ih =>
      rw [Nat.succ_mul, Finset.sum_range_add, ih, Finset.sum_range_succ, mul_add]
      congr 1
      have : ∀ j ∈ Finset.range g.nGrad, f (dco g (g.nEval + (m * g.nGrad + j))) = f (some m) := by
        intro j hj
        have hj := Finset.mem_range.mp hj
        have h0 : 0 < g.nGrad := by omega
        unfold dco dIx
        rw [if_neg (by omega)]
        show f (some ((g.nEval + (m * g.nGrad + j) - g.nEval) / g.nGrad)) = _
        rw [Nat.add_sub_cancel_left, Nat.mul_comm, Nat.mul_add_div h0, Nat.div_eq_of_lt hj, Nat.add_zero]
      rw [Finset.sum_congr rfl this]
      simp
  rw [Fin.sum_univ_eq_sum_range (fun q => f (dco g q)) g.nData, hg.nData, Finset.sum_range_add, Nat.mul_comm g.nGrad, hblock]
  congr 1
  have : ∀ q ∈ Finset.range g.nEval, f (dco g q) = f none := by
    intro q hq
    unfold dco dIx
    rw [if_pos (Finset.mem_range.mp hq)]
    rfl
  rw [Finset.sum_congr rfl this]
  simp

theorem logdet_units (hg : GpOk g) (h : CoordUnits a g D) {A : Mat g.nData g.nData} (hA : A.PosDef) :
    Real.log (signed (unitVec a g) A).det = Real.log A.det - 2 * (g.nGrad * ∑ d ∈ Finset.range g.dim, Real.log |a d|) := by
  have hne := unitVec_ne hg h
  have e1 : Real.log (∏ q, unitVec a g q) = ∑ q, Real.log (unitVec a g q) := Real.log_prod fun q _ => hne q
  have e2 := sum_rows hg fun o => Real.log (unitFac a o)
  rw [sc_det, Real.log_mul (pow_ne_zero 2 (Finset.prod_ne_zero_iff.mpr fun q _ => hne q)) hA.det_pos.ne', Real.log_pow, e1]
  have e3 : ∑ q, Real.log (unitVec a g q) = g.nEval * Real.log (unitFac a none) + g.nGrad * ∑ d ∈ Finset.range g.dim, Real.log (unitFac a (some d)) := e2
  rw [e3]
  simp only [unitFac, Real.log_one, mul_zero, zero_add, Real.log_inv, Finset.sum_neg_distrib, Real.log_abs]
  push_cast
  ring

/-- **C103**, likelihood: under the same conditions the covariance matrix can be factorised in both cases or in neither, the condition number, the
fitted mean and the fitted variance are the same, and the log likelihood changes by a constant, the number of gradients times the sum of the
logarithms of the factors; so the ranking of hyperparameters stays. -/
theorem C103_likelihood (hg : GpOk g) (hg' : GpOk (withData g D))
    (h : CoordUnits a g D) (ho : g.o.precon = true ∨ g.useGrad = false) {hp : HpVals} (hh : HpAdm g hp) {w : Option ℝ}
    (hw : NoiseFollows a g.dim hp.varFgrad w) (hk : g.useGrad = true ∨ g.knownFval = true)
    (hprec : g.o.precon = true → g.useGrad = true) (hne : 0 < g.nEval) (hη : if g.o.etaConst then 0 < g.o.etaK else 1 < g.o.condMaxTarget)
    (hv : g.noisy = true → ∃ v, hp.varK = some v ∧ 0 < v) (env : LkdEnv) (cc : Bool) :
    ∃ li li' ok, calcLkdAll g env hp cc false = .ok (li, ok) ∧ calcLkdAll (withData g D) env (coordHp a w hp) cc false = .ok (li', ok) ∧
      li'.cond = li.cond ∧ (cc = false → ok = true) ∧ (ok = true → ∃ l β, li.lnLkd = some l ∧ li.beta = some β ∧
        li'.lnLkd = some (l + g.nGrad * ∑ d ∈ Finset.range g.dim, Real.log |a d|) ∧ li'.beta = some β ∧
        (g.noisy = false → ∃ w, li.varK = some w ∧ li'.varK = some w)) := by
  have hnd : 0 < g.nData := by rw [hg.nData]; omega
  obtain ⟨v, hv0, hvk, hvk'⟩ : ∃ v, 0 < v ∧ (vkArg g).or hp.varK = some v ∧
      (vkArg (withData g D)).or (coordHp a w hp).varK = some v := by
    cases hno : g.noisy with
    | true =>
      obtain ⟨v, h1, h2⟩ := hv hno
      have e : (withData g D).noisy = true := hno
      exact ⟨v, h2, by simp [vkArg, hno, h1], by simp [vkArg, e, coordHp, h1]⟩
    | false =>
      have e : (withData g D).noisy = false := hno
      exact ⟨1, one_pos, by simp [vkArg, hno], by simp [vkArg, e]⟩
  obtain ⟨Na, K, out, y, V, li, a1, a2, a3, a4, a5, a6, a7, a8, a9, a10, a11, a12, a13, a14, a15⟩ :=
    lkd_form hg hh hk hprec hne hη env cc hv0 hvk
  obtain ⟨Na', K', out', y', V', li', b1, b2, b3, b4, b5, b6, b7, b8, b9, b10, b11, b12, b13, b14, b15⟩ :=
    lkd_form hg' (coordHp_adm h hh hw) hk hprec hne hη env cc hv0 hvk'
  have hs := unitVec_ne hg h
  have hK : K' = signed (unitVec a g) K := kern_units hg hh h hg' hw a2 b2
  have hN : ∀ q, toVec g.nData Na' q = unitVec a g q ^ 2 * toVec g.nData Na q := noise_units hg hh h hg' hw a1 b1
  obtain ⟨hE, hC, hcK⟩ := cov_units (o := g.o) hs hv0 hnd hK hN (unitVec_ok hg ho) a6 b6
  have hcK := hcK a3 a4 a5 a7
  have hbase : g.o.precon = false → out'.Kcov = out.Kcov := by
    intro hp
    have h1 := (unitVec_ok (a := a) hg ho).resolve_left (by simp [hp])
    refine Eq.trans hC ?_
    ext i j
    simp [signed, h1]
  have hok : out'.chofac.isSome = out.chofac.isSome := by
    rw [Bool.eq_iff_iff, a13, b13]
    show (cc = true → g.o.precon = false → condNum g.o out'.Kcov ≤ g.o.condMaxAbs) ↔ _
    refine forall_congr' fun _ => forall_congr' fun hp => ?_
    have := hbase hp
    exact iff_of_eq (congrArg (fun A : Mat g.nData g.nData => condNum g.o A ≤ g.o.condMaxAbs) this)
  obtain ⟨hVV, hyy⟩ := vec_units hg h hg' a9 b9 a11
  have hV' : V' = V := by
    ext q j
    have e1 := b11 q j
    rw [e1, a11 q j]
    rfl
  refine ⟨li, li', out.chofac.isSome, a12, by rw [← hok]; exact b12, ?_, fun hc => a13.mpr fun hc' => (by rw [hc] at hc'; cases hc'), fun hS => ?_⟩
  · rw [a14, b14, hok, hcK]
    show (if (out.chofac.isSome || g.noisy) = true then out.condK else some (cond2 out'.Kcov)) = _
    split_ifs with h1
    · rfl
    · have hp : g.o.precon = false := by
        by_contra hc
        have hs : out.chofac.isSome = true := a13.mpr fun _ h => absurd h hc
        rw [hs] at h1
        simp at h1
      exact congrArg (fun A : Mat g.nData g.nData => some (cond2 A)) (hbase hp)
  obtain ⟨p1, p2, p3⟩ := a15 hS
  obtain ⟨q1, q2, q3⟩ := b15 (by rw [hok]; exact hS)
  have hd := posDef_detne a8
  have key : ∀ (C' : Mat g.nData g.nData) (W : Mat g.nData nBetaCoeff) (z : Vec g.nData), C' = signed (unitVec a g) out.Kcov → W = V →
      z = diagonal (unitVec a g) *ᵥ y → gls C' W z = gls out.Kcov V y ∧ rss C' W z = rss out.Kcov V y ∧
        Real.log C'.det = Real.log out.Kcov.det - 2 * (g.nGrad * ∑ d ∈ Finset.range g.dim, Real.log |a d|) := by
    rintro C' W z rfl rfl rfl
    have e1 : gls (signed (unitVec a g) out.Kcov) W (diagonal (unitVec a g) *ᵥ y) =
        gls (signed (unitVec a g) out.Kcov) (diagonal (unitVec a g) * W) (diagonal (unitVec a g) *ᵥ y) := by rw [← hVV]
    have e2 : rss (signed (unitVec a g) out.Kcov) W (diagonal (unitVec a g) *ᵥ y) =
        rss (signed (unitVec a g) out.Kcov) (diagonal (unitVec a g) * W) (diagonal (unitVec a g) *ᵥ y) := by rw [← hVV]
    exact ⟨e1.trans (sc_gls hs hd W y), e2.trans (sc_rss hs hd W y), logdet_units hg h a8⟩
  obtain ⟨hgls, hrss, hdet⟩ := key out'.Kcov V' y' hC hV' hyy
  have hfv : npVar (withData g D).fval = npVar g.fval := by
    have := npVar_perm (f := g.fval) (f' := D.fval) (π := Equiv.refl ℕ) (u := 1) (b := 0) (by rw [hg.fval_n]; exact hg'.fval_n) (fun _ hp => hp)
      (fun p hp => by
        rw [hg.fval_n] at hp
        rw [Equiv.refl_apply, h.fval p hp]; ring)
    rw [one_pow, one_mul] at this
    exact this
  cases hno : g.noisy with
  | true =>
    refine ⟨_, _, p2 hno, p1, ?_, q1.trans (congrArg some hgls), fun h => by (cases h)⟩
    refine (q2 hno).trans (congrArg some ?_)
    have e : Real.log out'.Kcov.det + rss out'.Kcov V' y' = _ := congrArg₂ (· + ·) hdet hrss
    rw [e]
    ring
  | false =>
    obtain ⟨p4, p5⟩ := p3 hno
    obtain ⟨q4, q5⟩ := q3 hno
    have hvar : varOf out'.Kcov V' y' = varOf out.Kcov V y := by
      have : rss out'.Kcov V' y' / ((withData g D).nData : ℝ) = rss out.Kcov V y / (g.nData : ℝ) := congrArg (· / (g.nData : ℝ)) hrss
      unfold varOf
      rw [this]
    refine ⟨_, _, p5, p1, ?_, q1.trans (congrArg some hgls), fun _ => ⟨_, p4, by rw [q4, hvar]⟩⟩
    rw [q5]
    refine congrArg some ?_
    have hdet' : Real.log out'.Kcov.det = Real.log out.Kcov.det - 2 * (g.nGrad * ∑ d ∈ Finset.range g.dim, Real.log |a d|) := hdet
    unfold lkdOf varKPnlt
    rw [hvar, hdet', hfv]
    show -((g.nData : ℝ) * _ + _) / 2 - _ = _
    ring

/-- One point with its gradient, no noise, no preconditioning: what the model predicts for the derivative at that point. -/
theorem single_grad {hp : HpVals} {v β : ℝ} (hr : Ready g hp v β) (hone : g.nEval = 1) (hgr : g.nGrad = 1) (hno : g.noisy = false)
    (hb : g.o.precon = false) {cc : Bool} {N : Vec g.nData} {K : Mat g.nData g.nData} {st : EvalState g.nData} (hs : SetupSpec g hp β cc N K st)
    (hη : 0 < st.etaK) {i : ℕ} (hi : i < g.dim) {q : Fin g.nData} (hq : (q : ℕ) = 1 + i) :
    dmuF g hp (st.KernEta⁻¹ *ᵥ (st.dataVec - priorMean g β)) (g.x.get 0) i = K q q / (K q q + st.etaK) * st.dataVec q := by
  have hg := hr.ok
  have hpt : ∀ p : Fin g.nData, dpt g p = g.x.get 0 := by
    intro p
    have := dpt_lt hg p
    unfold dpt
    congr 1
    omega
  have hco : ∀ p : Fin g.nData, (p : ℕ) = 0 ∧ dco g p = none ∨ 0 < (p : ℕ) ∧ dco g p = some ((p : ℕ) - 1) := by
    intro p
    unfold dco dIx
    rw [hone, hgr]
    split_ifs with h
    · exact .inl ⟨by omega, rfl⟩
    · exact .inr ⟨by omega, by rw [Nat.div_one]; rfl⟩
  have hcq : dco g q = some i := by
    rcases hco q with h | h
    · omega
    · rw [h.2]; congr 1; omega
  have hdiff : ∀ p : Fin g.nData, p ≠ q → dco g p ≠ some i := by
    intro p hp he
    rcases hco p with h | h
    · rw [h.2] at he; cases he
    · rw [h.2] at he
      have : (p : ℕ) - 1 = i := Option.some.inj he
      exact hp (Fin.ext (by omega))
  have hkk : ∀ p p' : Fin g.nData, p ≠ p' → K p p' = 0 := by
    intro p p' hne
    rw [isKern_entry hg hr.adm hs.isKern p p', kk, hpt, hpt]
    have hr0 : (fun d => g.x.get 0 d - g.x.get 0 d) = fun _ => (0 : ℝ) := by funext d; ring
    rw [hr0]
    rcases hco p with h | h <;> rcases hco p' with h' | h' <;> rw [h.2, h'.2]
    · exact absurd (Fin.ext (by omega)) hne
    · simp [radKG]
    · simp [radKG]
    · have : (p : ℕ) - 1 ≠ (p' : ℕ) - 1 := fun he => hne (Fin.ext (by omega))
      simp [radKG, kron, this]
  have hkd : kd g hp (g.x.get 0) i = fun p => K p q := by
    funext p
    rw [isKern_entry hg hr.adm hs.isKern p q, kk, kd, hcq, hpt, hpt]
  have hN : N = 0 := by
    obtain ⟨Na, h1, rfl⟩ := hs.noise
    exact noise_zero hg hno h1
  have hM : st.KernEta = diagonal fun p => K p p + st.etaK := by
    rw [hs.cov, hN]
    ext p p'
    by_cases h : p = p'
    · subst h
      simp [addDiag, hb]
    · rw [Matrix.add_apply, diagonal_apply_ne _ h, diagonal_apply_ne _ h, hkk p p' h, add_zero]
  have hpos : ∀ p, K p p + st.etaK ≠ 0 := fun p => (add_pos (hs.diag p) hη).ne'
  have hMi : st.KernEta⁻¹ = diagonal fun p => (K p p + st.etaK)⁻¹ := by
    apply Matrix.inv_eq_right_inv
    rw [hM, diagonal_mul_diagonal]
    simp only [mul_inv_cancel₀ (hpos _)]
    exact diagonal_one
  unfold dmuF
  rw [hkd, hMi, dotProduct, Finset.sum_eq_single q (fun p _ hp => by rw [hkk p q hp, zero_mul]) (fun h => absurd (Finset.mem_univ _) h), mulVec_diagonal,
    Pi.sub_apply]
  have hp0 : priorMean g β q = 0 := by unfold priorMean; rw [if_neg (by omega)]
  rw [hp0]
  ring

/-- **C103**, why the preconditioning matters. Without it the same nugget is added to the variances of values and of partial derivatives, and
those are in units of the coordinates. For one noise-free point with its gradient and a constant nugget, the predicted derivative at that
point along every coordinate whose units change (and whose derivative is not zero) is never the old one in the new units. -/
theorem C103_base_units_discrepancy (h : CoordUnits a g D) {hp : HpVals} {w : Option ℝ}
    (hw : NoiseFollows a g.dim hp.varFgrad w) {v β : ℝ} (hr : Ready g hp v β) (hg' : GpOk (withData g D)) (hb : g.o.precon = false)
    (hc : g.o.etaConst = true) (hη : 0 < g.o.etaK) (hno : g.noisy = false) (hone : g.nEval = 1) (hgr : g.nGrad = 1)
    {cc cc' : Bool} {st : EvalState g.nData} {st' : EvalState (withData g D).nData} (hst : setupEvalModel g hp cc = .ok st)
    (hst' : setupEvalModel (withData g D) (coordHp a w hp) cc' = .ok st') (hF : st.chofac ≠ none) (hF' : st'.chofac ≠ none) :
    ∃ out out' : EvalOut g.x.r g.dim, ∃ A A', evalModel g st hp g.x true false = .ok out ∧
      evalModel (withData g D) st' (coordHp a w hp) (coordPts a g.x) true false = .ok out' ∧ out.dmu = some A ∧ out'.dmu = some A' ∧
      ∀ (r : Fin g.x.r) (i : Fin g.dim) (G : Arr2), g.grad = some G → G.get 0 i ≠ 0 → |a i| ≠ 1 → a i * A' r i ≠ A r i := by
  have hr' := coord_ready h hw hr hg'
  obtain ⟨N, K, hs, -⟩ := ready_setup hr.toV hst
  obtain ⟨N', K', hs', -⟩ := ready_setup hr'.toV hst'
  have hX : g.x.c = g.dim := hr.ok.x_c
  have hXr : 0 < g.x.r := by rw [hr.ok.x_r]; exact hr.ne
  refine ⟨_, _, _, _, ready_eval hr hs hF hX hXr true false noHess, ready_eval hr' hs' hF' (X := coordPts a g.x) hX hXr true false noHess, rfl, rfl, ?_⟩
  intro r i G hG hG0 ha1 he
  have hr0 : (r : ℕ) = 0 := by have := r.2; have e := hr.ok.x_r; omega
  have hnd : g.nData = 1 + g.dim := by rw [hr.ok.nData, hone, hgr]; ring
  have hai := h.ne i i.2
  set q : Fin g.nData := ⟨1 + i, by have := i.2; omega⟩ with hq
  have hE : st.etaK = g.o.etaK := hs.etaConst hc
  have hE' : st'.etaK = g.o.etaK := hs'.etaConst hc
  have e1 := single_grad hr hone hgr hno hb hs (by rw [hE]; exact hη) i.2 (q := q) rfl
  have e2 := single_grad (g := withData g D) hr' hone hgr hno hb hs' (by rw [hE']; exact hη) i.2 (q := q) rfl
  have hKq : K' q q = unitVec a g q * unitVec a g q * K q q :=
    congrFun (congrFun (show K' = signed (unitVec a g) K from kern_units hr.ok hr.adm h hg' hw hs.isKern hs'.isKern) q) q
  have hyq : st'.dataVec q = unitVec a g q * st.dataVec q := by
    obtain ⟨-, h2⟩ := vec_units hr.ok h hg' hs.data hs'.data (V := of fun q _ => if (q : ℕ) < g.nEval then 1 else 0) (fun _ _ => rfl)
    have h3 : st'.dataVec q = (diagonal (unitVec a g) *ᵥ st.dataVec) q := congrFun h2 q
    rw [h3, mulVec_diagonal]
  have hfac : unitVec a g q = (a i)⁻¹ := by
    unfold unitVec dco dIx
    rw [hone, hgr, if_neg (by show ¬ 1 + (i : ℕ) < 1; omega)]
    show (a ((1 + (i : ℕ) - 1) / 1))⁻¹ = _
    rw [Nat.div_one, Nat.add_sub_cancel_left]
  have hdat : st.dataVec q = G.get 0 i := hs.data.grad G hG q i i.2 0 (by omega) (by rw [hone, hgr]; simp [hq])
  have hpt : ∀ d < g.dim, (coordPts a g.x).get r d = D.x.get 0 d := by
    intro d hd
    rw [h.x 0 (by omega) d hd, hr0]
    rfl
  have e3 : dmuF (withData g D) (coordHp a w hp) (st'.KernEta⁻¹ *ᵥ (st'.dataVec - priorMean (withData g D) β)) ((coordPts a g.x).get r) i =
      dmuF (withData g D) (coordHp a w hp) (st'.KernEta⁻¹ *ᵥ (st'.dataVec - priorMean (withData g D) β)) (D.x.get 0) i := by
    unfold dmuF
    congr 1
    funext p
    unfold kd
    refine radKG_congr (fun d hd => ?_) (dco_lt hg' p) (by rintro j hj; cases hj; exact i.2)
    rw [hpt d hd]
  have he' : a i * dmuF (withData g D) (coordHp a w hp) (st'.KernEta⁻¹ *ᵥ (st'.dataVec - priorMean (withData g D) β)) ((coordPts a g.x).get r) i =
      dmuF g hp (st.KernEta⁻¹ *ᵥ (st.dataVec - priorMean g β)) (g.x.get r) i := he
  have e2' : dmuF (withData g D) (coordHp a w hp) (st'.KernEta⁻¹ *ᵥ (st'.dataVec - priorMean (withData g D) β)) (D.x.get 0) i =
      K' q q / (K' q q + st'.etaK) * st'.dataVec q := e2
  rw [e3, e2', hr0, e1, hyq, hKq, hfac, hdat, hE, hE'] at he'
  have hK := hs.diag q
  set κ := K q q
  set η := g.o.etaK
  have ha2 : 0 < a i ^ 2 := by positivity
  have hden : κ + a i ^ 2 * η ≠ 0 := by positivity
  have hden' : κ + η ≠ 0 := by positivity
  have e4 : a i * ((a i)⁻¹ * (a i)⁻¹ * κ / ((a i)⁻¹ * (a i)⁻¹ * κ + η) * ((a i)⁻¹ * G.get 0 i)) = κ / (κ + a i ^ 2 * η) * G.get 0 i := by
    have : (a i)⁻¹ * (a i)⁻¹ * κ + η = (κ + a i ^ 2 * η) / a i ^ 2 := by field_simp
    rw [this]
    field_simp
  rw [e4] at he'
  have e5 := mul_right_cancel₀ hG0 he'
  rw [div_eq_div_iff hden hden'] at e5
  have e6 : a i ^ 2 = 1 := by
    have : κ * (η * (1 - a i ^ 2)) = 0 := by linear_combination e5
    rcases mul_eq_zero.mp this with h | h
    · exact absurd h hK.ne'
    · rcases mul_eq_zero.mp h with h | h
      · exact absurd h hη.ne'
      · linarith
  exact ha1 (by rw [← sq_eq_sq₀ (abs_nonneg _) zero_le_one, sq_abs, e6, one_pow])

/-- `exGp` with known noise of the gradient, different in the two coordinates. -/
def exGpKg : Gp := { exGp with
  knownFgrad := true
  stdGrad := some ⟨1, 2, fun _ d => (d + 1) / 10⟩ }

def exHpKg : HpVals := { exHpB with varFgrad := none }

theorem exReadyKg : Ready exGpKg exHpKg 3 4 where
  ok := by
    have h := exReady.ok
    exact ⟨rfl, rfl, rfl, h.mask, h.nGrad, h.noMask, h.nData, h.grad_none, h.grad_some, h.std_fval, fun _ => ⟨_, rfl, rfl, rfl⟩, h.fzero,
      (by intro _ h; cases h), h.noisy⟩
  adm := ⟨exReady.adm.theta, exReady.adm.kernel, exReady.adm.vf_none, exReady.adm.vf_some, fun _ _ => rfl, (by intro _ h; cases h)⟩
  noise := exReady.noise
  precon := exReady.precon
  ne := exReady.ne
  vpos := exReady.vpos
  varK := exReady.varK
  beta := exReady.beta
  eta := exReady.eta
  mask := exReady.mask

/-- Its data with the first coordinate in units of one half, the second in units of one third. -/
def exStretched : DataSet where
  x := ⟨2, 2, fun p d => (d + 2) * exX.get p d⟩
  fval := exGp.fval
  bvec := some [false, true]
  grad := some ⟨1, 2, fun _ d => d / (d + 2)⟩
  stdFval := exGp.stdFval
  stdGrad := some ⟨1, 2, fun _ d => (d + 1) / 10 / (d + 2)⟩

theorem exStretched_ok : GpOk (withData exGpKg exStretched) := by
  have h := exReadyKg.ok
  exact ⟨rfl, rfl, rfl, h.mask, h.nGrad, h.noMask, h.nData, (by intro h; cases h), fun _ => ⟨_, rfl, rfl, rfl⟩, h.std_fval, fun _ => ⟨_, rfl, rfl, rfl⟩,
    h.fzero, h.gzero, h.noisy⟩

theorem exStretched_of : CoordUnits (fun d => d + 2) exGpKg exStretched where
  ne := by intro d _; positivity
  x := by intro p _ d _; rfl
  fval := by intro p _; rfl
  bvec := rfl
  grad := by
    intro G G' h h'; cases h; cases h'; intro r _ i _
    show ((i : ℝ) + 2) * (i / (i + 2)) = i
    have : (i : ℝ) + 2 ≠ 0 := by positivity
    field_simp
  stdF := by intro s s' h h'; cases h; cases h'; intro p _; rfl
  stdG := by
    intro s s' h h'; cases h; cases h'; intro r _ i _
    show |(i : ℝ) + 2| * ((i + 1) / 10 / (i + 2)) = (i + 1) / 10
    have : (i : ℝ) + 2 ≠ 0 := by positivity
    rw [abs_of_nonneg (by positivity)]
    field_simp

-- C103, predictions with gradients
example : ∃ st st', ∃ out out' : EvalOut 2 2, setupEvalModel exGpKg exHpKg false = .ok st ∧
    setupEvalModel (withData exGpKg exStretched) (coordHp (fun d => d + 2) none exHpKg) false = .ok st' ∧
    evalModel exGpKg st exHpKg ⟨2, 2, fun a d => a + 3 * d⟩ true false = .ok out ∧
    evalModel (withData exGpKg exStretched) st' (coordHp (fun d => d + 2) none exHpKg) (coordPts (fun d => d + 2) ⟨2, 2, fun a d => a + 3 * d⟩) true false =
      .ok out' ∧ SameUnits (fun d => d + 2) out out' := by
  have hw : NoiseFollows (fun d => (d : ℝ) + 2) exGpKg.dim exHpKg.varFgrad none := .none
  obtain ⟨st, hst, hF⟩ := ready_total exReadyKg.toV (by norm_num [exGpKg, exGp])
  obtain ⟨st', hst', hF'⟩ := ready_total (coord_ready exStretched_of hw exReadyKg exStretched_ok).toV (by norm_num [exGpKg, exGp, withData])
  obtain ⟨-, out, out', h1, h2, h3⟩ := C103_predictions exStretched_of (.inl rfl) hw exReadyKg exStretched_ok hst hst' hF (.inl rfl)
    (X := ⟨2, 2, fun a d => a + 3 * d⟩) rfl (by decide) true false noHess
  exact ⟨st, st', out, out', hst, hst', h1, h2, h3⟩

-- C103, the likelihood: one gradient, so it grows by log 2 + log 3
example (env : LkdEnv) : ∃ li li' l, calcLkdAll exGpKg env exHpKg false false = .ok (li, true) ∧
    calcLkdAll (withData exGpKg exStretched) env (coordHp (fun d => d + 2) none exHpKg) false false = .ok (li', true) ∧
    li'.cond = li.cond ∧ li.lnLkd = some l ∧ li'.lnLkd = some (l + (Real.log 2 + Real.log 3)) := by
  obtain ⟨li, li', ok, h1, h2, h3, h4, h5⟩ := C103_likelihood exReadyKg.ok exStretched_ok exStretched_of (.inl rfl) exReadyKg.adm .none exReadyKg.noise
    exReadyKg.precon exReadyKg.ne exReadyKg.eta (fun _ => ⟨3, exReadyKg.varK, exReadyKg.vpos⟩) env false
  rw [h4 rfl] at h1 h2 h5
  obtain ⟨l, β, k1, -, k2, -⟩ := h5 rfl
  refine ⟨li, li', l, h1, h2, h3, k1, k2.trans ?_⟩
  have e : (exGpKg.nGrad : ℝ) * ∑ d ∈ Finset.range exGpKg.dim, Real.log |(d : ℝ) + 2| = Real.log 2 + Real.log 3 := by
    norm_num [exGpKg, exGp, Finset.sum_range_succ]
  rw [e]

/-- One noise-free point with its gradient, a constant nugget, no preconditioning. -/
def exGpOneG : Gp where
  dim := 2
  useGrad := true
  kernel := .sqExp
  nEval := 1
  nGrad := 1
  nData := 3
  bvec := none
  o := { precon := false, etaConst := true, etaK := 1 / 100, condMaxTarget := 10, condMax := 10, condMaxAbs := 100, fro := false }
  knownFval := true
  knownFgrad := true
  fvalZero := true
  fgradZero := true
  noisy := false
  x := ⟨1, 2, fun _ d => d + 1⟩
  fval := ⟨1, fun _ => 7⟩
  stdFval := some ⟨1, fun _ => 0⟩
  grad := some ⟨1, 2, fun _ d => d + 1⟩
  stdGrad := some ⟨1, 2, fun _ _ => 0⟩

def exHpOneG : HpVals where
  theta := some exTheta
  varK := some 3
  beta := some ⟨1, fun _ => 4⟩

theorem exReadyOneG : Ready exGpOneG exHpOneG 3 4 where
  ok := by
    constructor
    all_goals first
      | rfl
      | exact fun _ => rfl
      | exact fun _ => ⟨_, rfl, rfl⟩
      | exact fun _ => ⟨_, rfl, rfl, rfl⟩
      | (intro h; simp [exGpOneG] at h; done)
      | (intro _ h; simp [exGpOneG] at h; done)
      | (intro l h; cases h; done)
      | (intro s h; cases h; intro p _; rfl)
      | (simp [exGpOneG]; done)
  adm := ⟨⟨exTheta, rfl, rfl, exTheta_pos⟩, by intro h; simp [exGpOneG] at h, fun _ => rfl,
    by intro h; simp [exGpOneG] at h, fun _ _ => rfl, by intro _ h; simp [exGpOneG] at h⟩
  noise := .inl rfl
  precon := fun _ => rfl
  ne := Nat.one_pos
  vpos := by norm_num
  varK := rfl
  beta := ⟨_, rfl, rfl, rfl⟩
  eta := by norm_num [exGpOneG]
  mask := by intro h; cases h

-- C103, the discrepancy: in units of one half and one third both derivatives come out wrong
example : ∃ D : DataSet, CoordUnits (fun d => d + 2) exGpOneG D ∧ ∃ st st', ∃ out out' : EvalOut 1 2, ∃ A A',
    setupEvalModel exGpOneG exHpOneG false = .ok st ∧
    setupEvalModel (withData exGpOneG D) (coordHp (fun d => d + 2) none exHpOneG) false = .ok st' ∧
    evalModel exGpOneG st exHpOneG exGpOneG.x true false = .ok out ∧
    evalModel (withData exGpOneG D) st' (coordHp (fun d => d + 2) none exHpOneG) (coordPts (fun d => d + 2) exGpOneG.x) true false = .ok out' ∧
    out.dmu = some A ∧ out'.dmu = some A' ∧ 2 * A' 0 0 ≠ A 0 0 ∧ 3 * A' 0 1 ≠ A 0 1 := by
  set D : DataSet := ⟨⟨1, 2, fun _ d => (d + 2) * (d + 1)⟩, exGpOneG.fval, none, some ⟨1, 2, fun _ d => (d + 1) / (d + 2)⟩, exGpOneG.stdFval,
    exGpOneG.stdGrad⟩ with hD
  have hu : CoordUnits (fun d => d + 2) exGpOneG D :=
    { ne := by intro d _; positivity
      x := by intro p _ d _; rfl
      fval := by intro p _; rfl
      bvec := rfl
      grad := by
        intro G G' h h'; cases h; cases h'; intro r _ i _
        show ((i : ℝ) + 2) * ((i + 1) / (i + 2)) = i + 1
        have : (i : ℝ) + 2 ≠ 0 := by positivity
        field_simp
      stdF := by intro s s' h h'; cases h; cases h'; intro p _; rfl
      stdG := by intro s s' h h'; cases h; cases h'; intro r _ i _; exact mul_zero _ }
  have hok : GpOk (withData exGpOneG D) := by
    have h := exReadyOneG.ok
    exact ⟨rfl, rfl, rfl, h.mask, h.nGrad, h.noMask, h.nData, (by intro h; cases h), fun _ => ⟨_, rfl, rfl, rfl⟩, h.std_fval, h.std_fgrad,
      h.fzero, h.gzero, h.noisy⟩
  have hw : NoiseFollows (fun d => (d : ℝ) + 2) exGpOneG.dim exHpOneG.varFgrad none := .none
  obtain ⟨st, hst, hF⟩ := ready_total exReadyOneG.toV (by norm_num [exGpOneG])
  obtain ⟨st', hst', hF'⟩ := ready_total (coord_ready hu hw exReadyOneG hok).toV (by norm_num [exGpOneG, withData])
  obtain ⟨out, out', A, A', h1, h2, h3, h4, h5⟩ := C103_base_units_discrepancy hu hw exReadyOneG hok rfl rfl (by norm_num [exGpOneG]) rfl rfl rfl
    hst hst' hF hF'
  refine ⟨D, hu, st, st', out, out', A, A', hst, hst', h1, h2, h3, h4, ?_, ?_⟩
  · have := h5 ⟨0, Nat.one_pos⟩ ⟨0, by decide⟩ _ rfl (by norm_num) (by norm_num)
    intro he
    refine this (Eq.trans ?_ he)
    norm_num
    rfl
  · have := h5 ⟨0, Nat.one_pos⟩ ⟨1, by decide⟩ _ rfl (by norm_num) (by norm_num)
    intro he
    refine this (Eq.trans ?_ he)
    norm_num
    rfl

end Props
