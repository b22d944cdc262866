import Verif.Props.Restate
import Verif.Props.Invariance

/-! Property C101: predictions from restated data, Hessians included. -/

open Np Spec GP Matrix

noncomputable section

namespace GP

section
variable {π τ : Equiv.Perm ℕ} {c : Pt} {u b : ℝ} {g : Gp} {D : DataSet}

theorem kh_permRow (hg : GpOk g) {hp : HpVals} (h : Rearranged π τ c g D) {x x' : Pt} (hx : ∀ d < g.dim, x' d = x d + c d)
    {e i : ℕ} (he : e < g.dim) (hi : i < g.dim) : kh (withData g D) hp x' e i ∘ permRow hg h = kh g hp x e i := by
  funext q
  unfold kh
  show radKGx _ _ _ _ _ _ _ _ (dco (withData g D) (permRow hg h q)) = _
  rw [dco_permRow]
  refine radKGx_congr (fun d hd => ?_) he hi (dco_lt hg q)
  show x' d - dpt (withData g D) (permRow hg h q) d = _
  rw [dpt_permRow hg h q hd, hx d hd]
  ring

theorem kv_restated (hg : GpOk g) (hu : u ≠ 0) (h : Restated π τ c u b g D) {hp : HpVals} {x x' : Pt} (hx : ∀ d < g.dim, x' d = x d + c d) :
    kv (withData g D) (unitsFit u b hp) x' ∘ rowEq hg hu h = kv g hp x := kv_permRow hg (hp := hp) (restated_order hu h) hx

theorem kd_restated (hg : GpOk g) (hu : u ≠ 0) (h : Restated π τ c u b g D) {hp : HpVals} {x x' : Pt} (hx : ∀ d < g.dim, x' d = x d + c d)
    {i : ℕ} (hi : i < g.dim) : kd (withData g D) (unitsFit u b hp) x' i ∘ rowEq hg hu h = kd g hp x i :=
  kd_permRow hg (hp := hp) (restated_order hu h) hx hi

theorem kh_restated (hg : GpOk g) (hu : u ≠ 0) (h : Restated π τ c u b g D) {hp : HpVals} {x x' : Pt} (hx : ∀ d < g.dim, x' d = x d + c d)
    {e i : ℕ} (he : e < g.dim) (hi : i < g.dim) : kh (withData g D) (unitsFit u b hp) x' e i ∘ rowEq hg hu h = kh g hp x e i :=
  kh_permRow hg (hp := hp) (restated_order hu h) hx he hi

theorem unitsFit_adm (hu : u ≠ 0) {hp : HpVals} (hh : HpAdm g hp) : HpAdm (withData g D) (unitsFit u b hp) := by
  have := unitsHp_adm (D := D) hu hh
  exact ⟨this.theta, this.kernel, this.vf_none, this.vf_some, this.vg_none, this.vg_some⟩

theorem resid_restated (hg : GpOk g) (hg' : GpOk (withData g D)) (hu : u ≠ 0) (h : Restated π τ c u b g D)
    {y : Vec g.nData} (hy : DataSpec g y) {y' : Vec (withData g D).nData} (hy' : DataSpec (withData g D) y') (β : ℝ) :
    (y' - priorMean (withData g D) (u * β + b)) ∘ rowEq hg hu h = u • (y - priorMean g β) := by
  set V : Mat g.nData nBetaCoeff := of fun q _ => if (q : ℕ) < g.nEval then 1 else 0 with hV
  set V' : Mat (withData g D).nData nBetaCoeff := of fun q _ => if (q : ℕ) < g.nEval then 1 else 0 with hV'
  obtain ⟨h1, h2⟩ := vec_restated hg hg' hu h hy hy' (V := V) (fun _ _ => rfl) (V' := V') (fun _ _ => rfl)
  funext q
  have e1 : y' (rowEq hg hu h q) = u * y q + (V *ᵥ fun _ => b) q := congrFun h2 q
  have e2 : (V *ᵥ fun _ => b) q = if (q : ℕ) < g.nEval then b else 0 := by
    have : (Finset.univ : Finset (Fin nBetaCoeff)).card = 1 := rfl
    simp [mulVec, dotProduct, hV, this]
  have e3 : (if ((rowEq hg hu h q : Fin (withData g D).nData) : ℕ) < g.nEval then (1 : ℝ) else 0) = if (q : ℕ) < g.nEval then 1 else 0 :=
    congrFun (congrFun h1 q) ⟨0, Nat.one_pos⟩
  show y' (rowEq hg hu h q) - (if ((rowEq hg hu h q : Fin (withData g D).nData) : ℕ) < g.nEval then u * β + b else 0) =
    u * (y q - if (q : ℕ) < g.nEval then β else 0)
  rw [e1, e2]
  split_ifs at e3 ⊢ <;> first | (exfalso; norm_num at e3; done) | ring

/-- The matrix that predictions are made with is rearranged, if the noise is none or the size of the units stays. -/
theorem setup_restated (hg : GpOk g) (hg' : GpOk (withData g D)) (hu : u ≠ 0) (h : Restated π τ c u b g D) {hp : HpVals} (hh : HpAdm g hp)
    (hn : g.noisy = false ∨ |u| = 1) {β β' : ℝ} {cc cc' : Bool} {N : Vec g.nData} {K : Mat g.nData g.nData} {st : EvalState g.nData}
    {N' : Vec (withData g D).nData} {K' : Mat (withData g D).nData (withData g D).nData} {st' : EvalState (withData g D).nData}
    (hs : SetupSpec g hp β cc N K st) (hs' : SetupSpec (withData g D) (unitsFit u b hp) β' cc' N' K' st') :
    st'.etaK = st.etaK ∧ st'.KernEta.submatrix (rowEq hg hu h) (rowEq hg hu h) = st.KernEta := by
  have hK : K'.submatrix (rowEq hg hu h) (rowEq hg hu h) = K := kern_restated hg hg' hu h hh hs.isKern hs'.isKern
  have hN : N' ∘ rowEq hg hu h = N := by
    obtain ⟨Na, h1, rfl⟩ := hs.noise
    obtain ⟨Na', h1', e⟩ := hs'.noise
    have h1'' : NoiseSpec (withData g D) (unitsHp u hp) Na' := ⟨h1'.n, h1'.val, h1'.grad⟩
    rw [e, noise_restated hg hg' hu h hh h1 h1'']
    rcases hn with hn | hn
    · rw [Props.noise_zero hg hn h1]; simp
    · rw [← sq_abs, hn, one_pow, one_smul]
  have hη : st'.etaK = st.etaK := by
    have e1 := hs.etaEq
    have e2 : st'.etaK = if g.o.etaConst then g.o.etaK else
      (⨆ i, ∑ j, |(if g.o.precon then corr (kwn 1 K' N') else K') i j|) / (g.o.condMaxTarget - 1) := hs'.etaEq
    rw [e1, e2, rowSup_perm (rowEq hg hu h)]
    split_ifs
    · exact corr_perm _ hK hN
    · exact hK
  refine ⟨hη, ?_⟩
  have e2 : st'.KernEta = K' + diagonal (fun i => N' i + st'.etaK * (if g.o.precon then K' i i + N' i else 1)) := hs'.cov
  rw [hs.cov, e2, hη, ← hK, ← hN]
  ext p q
  simp only [submatrix_apply, Matrix.add_apply, diagonal_apply, addDiag, Function.comp, (rowEq hg hu h).injective.eq_iff]

end

section
variable {π τ : Equiv.Perm ℕ} {c : Pt} {u b : ℝ} {g : Gp} {D : DataSet} (hg : GpOk g) (hu : u ≠ 0) {hp : HpVals} (h : Restated π τ c u b g D)
    {M : Mat g.nData g.nData} {M' : Mat (withData g D).nData (withData g D).nData} (hM : M'.submatrix (rowEq hg hu h) (rowEq hg hu h) = M)
    {x x' : Pt} (hx : ∀ d < g.dim, x' d = x d + c d)
include hM hx

theorem muF_restated {r : Vec g.nData} {r' : Vec (withData g D).nData} (hr : r' ∘ rowEq hg hu h = u • r) (β : ℝ) :
    muF (withData g D) (unitsFit u b hp) (M'⁻¹ *ᵥ r') (u * β + b) x' = u * muF g hp (M⁻¹ *ᵥ r) β x + b := by
  unfold muF
  rw [quad_perm _ hM (kv_restated hg hu h hx) hr, mulVec_smul, dotProduct_smul, smul_eq_mul]
  ring

theorem dmuF_restated {r : Vec g.nData} {r' : Vec (withData g D).nData} (hr : r' ∘ rowEq hg hu h = u • r) {i : ℕ} (hi : i < g.dim) :
    dmuF (withData g D) (unitsFit u b hp) (M'⁻¹ *ᵥ r') x' i = u * dmuF g hp (M⁻¹ *ᵥ r) x i := by
  unfold dmuF
  rw [quad_perm _ hM (kd_restated hg hu h hx hi) hr, mulVec_smul, dotProduct_smul, smul_eq_mul]

theorem d2muF_restated {r : Vec g.nData} {r' : Vec (withData g D).nData} (hr : r' ∘ rowEq hg hu h = u • r) {e i : ℕ} (he : e < g.dim)
    (hi : i < g.dim) : d2muF (withData g D) (unitsFit u b hp) (M'⁻¹ *ᵥ r') x' e i = u * d2muF g hp (M⁻¹ *ᵥ r) x e i := by
  unfold d2muF
  rw [quad_perm _ hM (kh_restated hg hu h hx he hi) hr, mulVec_smul, dotProduct_smul, smul_eq_mul]

theorem sgF_restated (v : ℝ) : sgF (withData g D) (unitsFit u b hp) M' (u ^ 2 * v) x' = |u| * sgF g hp M v x := by
  unfold sgF s2F
  rw [quad_perm _ hM (kv_restated hg hu h hx) (kv_restated hg hu h hx), Real.sqrt_mul (sq_nonneg u), Real.sqrt_sq_eq_abs]
  ring

theorem dsgF_restated (v : ℝ) {i : ℕ} (hi : i < g.dim) :
    dsgF (withData g D) (unitsFit u b hp) M' (u ^ 2 * v) x' i = |u| * dsgF g hp M v x i := by
  have hu' : |u| ≠ 0 := abs_ne_zero.mpr hu
  unfold dsgF
  rw [sgF_restated hg hu h hM hx, quad_perm _ hM (kd_restated hg hu h hx hi) (kv_restated hg hu h hx), ← sq_abs]
  by_cases h0 : sgF g hp M v x = 0
  · simp [h0]
  · rw [if_pos (mul_ne_zero hu' h0), if_pos h0]
    field_simp

theorem d2sgF_restated (v : ℝ) {e i : ℕ} (he : e < g.dim) (hi : i < g.dim) (h0 : sgF g hp M v x ≠ 0) :
    d2sgF (withData g D) (unitsFit u b hp) M' (u ^ 2 * v) x' e i = |u| * d2sgF g hp M v x e i := by
  have hu' : |u| ≠ 0 := abs_ne_zero.mpr hu
  unfold d2sgF
  rw [sgF_restated hg hu h hM hx, dsgF_restated hg hu h hM hx v he, dsgF_restated hg hu h hM hx v hi,
    quad_perm _ hM (kh_restated hg hu h hx he hi) (kv_restated hg hu h hx),
    quad_perm _ hM (kd_restated hg hu h hx he) (kd_restated hg hu h hx hi), ← sq_abs u]
  field_simp

end

theorem evalClosed_restated {π τ : Equiv.Perm ℕ} {c : Pt} {u b : ℝ} {g : Gp} {D : DataSet} (hg : GpOk g) (hu : u ≠ 0) {hp : HpVals}
    (h : Restated π τ c u b g D) {M : Mat g.nData g.nData} {M' : Mat (withData g D).nData (withData g D).nData}
    (hM : M'.submatrix (rowEq hg hu h) (rowEq hg hu h) = M) {r : Vec g.nData} {r' : Vec (withData g D).nData}
    (hr : r' ∘ rowEq hg hu h = u • r) (β v : ℝ) {X : Arr2} (cg ch : Bool) :
    (evalClosed (withData g D) (unitsFit u b hp) M' (M'⁻¹ *ᵥ r') (u * β + b) (u ^ 2 * v) (shifted c X) cg ch : EvalOut X.r g.dim) =
      inUnits u b (evalClosed g hp M (M⁻¹ *ᵥ r) β v X cg ch) := by
  have hx : ∀ a, ∀ d < g.dim, (shifted c X).get a d = X.get a d + c d := fun _ _ _ => rfl
  have hu' : |u| ≠ 0 := abs_ne_zero.mpr hu
  refine evalOut_eq (funext fun a => muF_restated hg hu h hM (hx a) hr β) (funext fun a => sgF_restated hg hu h hM (hx a) v) ?_ ?_ ?_ ?_
  · cases cg with
    | false => rfl
    | true => exact congrArg some (Matrix.ext fun a i => dmuF_restated hg hu h hM (hx a) hr i.2)
  · cases cg with
    | false => rfl
    | true => exact congrArg some (Matrix.ext fun a i => dsgF_restated hg hu h hM (hx a) v i.2)
  · cases ch with
    | false => rfl
    | true => exact congrArg some (Matrix.ext fun e i => d2muF_restated hg hu h hM (hx 0) hr e.2 i.2)
  · cases ch with
    | false => rfl
    | true =>
      refine congrArg some ?_
      have e := sgF_restated hg hu h hM (hx 0) v (hp := hp)
      by_cases h0 : sgF g hp M v (X.get 0) = 0
      · have h0' : sgF (withData g D) (unitsFit u b hp) M' (u ^ 2 * v) ((shifted c X).get 0) = 0 := by rw [e, h0, mul_zero]
        rw [if_pos h0', if_pos h0]
        rfl
      · have h0' : sgF (withData g D) (unitsFit u b hp) M' (u ^ 2 * v) ((shifted c X).get 0) ≠ 0 := by rw [e]; exact mul_ne_zero hu' h0
        rw [if_neg h0', if_neg h0]
        exact congrArg some (Matrix.ext fun e i => d2sgF_restated hg hu h hM (hx 0) v e.2 i.2 h0)

end GP

namespace Props

variable {π τ : Equiv.Perm ℕ} {c : Pt} {u b : ℝ} {g : Gp} {D : DataSet}

theorem perm_back {n : ℕ} (hlt : ∀ p < n, π p < n) : ∀ q < n, ∃ p < n, π p = q := by
  intro q hq
  have hmaps : Set.MapsTo π (Finset.range n) (Finset.range n : Set ℕ) := fun i hi => by simpa using hlt i (by simpa using hi)
  obtain ⟨p, hp, he⟩ := Finset.surjOn_of_injOn_of_card_le π hmaps (π.injective.injOn) le_rfl (show q ∈ (Finset.range n : Set ℕ) by simpa using hq)
  exact ⟨p, by simpa using hp, he⟩

theorem fit_ready (hu : u ≠ 0) {hp : HpVals} {v β : ℝ} (hr : Ready g hp v β) (hg' : GpOk (withData g D)) :
    Ready (withData g D) (unitsFit u b hp) (u ^ 2 * v) (u * β + b) where
  ok := hg'
  adm := unitsFit_adm hu hr.adm
  noise := hr.noise
  precon := hr.precon
  ne := hr.ne
  vpos := mul_pos (by positivity) hr.vpos
  varK := by simp [unitsFit, unitsHp, hr.varK]
  beta := by
    obtain ⟨β0, h1, h2, rfl⟩ := hr.beta
    exact ⟨β0.map fun t => u * t + b, by simp [unitsFit, h1], h2, rfl⟩
  eta := hr.eta
  mask := by
    intro hk
    have h1 := hr.mask hk
    cases hug : g.useGrad with
    | false =>
      have : D.bvec = none := hg'.noMask hug
      show fullMask D.bvec g.nEval
      rw [this]; rfl
    | true =>
      have e1 := hr.ok.nGrad
      have e2 : g.nGrad = if g.useGrad then gN D.bvec g.nEval else 0 := hg'.nGrad
      rw [hug, if_pos rfl] at e1 e2
      show gN D.bvec g.nEval = g.nEval
      rw [← e2, e1]; exact h1

theorem sep_restated (h : Restated π τ c u b g D) {hp : HpVals} {x x' : Pt} (hx : ∀ d < g.dim, x' d = x d + c d) (hs : SepAt g hp x) :
    SepAt (withData g D) (unitsFit u b hp) x' := by
  intro hk hug q hq
  obtain ⟨p, hp', rfl⟩ := perm_back h.pt_lt q hq
  have e : wdist2 g.dim (thF hp) x' (D.x.get (π p)) = wdist2 g.dim (thF hp) x (g.x.get p) := by
    unfold wdist2
    refine Finset.sum_congr rfl fun d hd => ?_
    rw [hx d (Finset.mem_range.mp hd), h.x p hp' d (Finset.mem_range.mp hd)]
    ring
  have := hs hk hug p hp'
  rw [← e] at this
  exact this

/-- **C101 (part).** Predictions from the same data in another order, with all points shifted, and with values in other units and from another zero:
if the data are noise-free, or the size of the units stays (`|u| = 1`), then with the hyperparameters in the new units the same nugget is
used, the model can be set up again, and the predictions at the shifted points are the old ones in the new units: means, standard
deviations, gradients and (where they can be requested) Hessians. For noisy data in units of another size this is false of the code, see
`C101_noise_units_discrepancy`. -/
theorem C101_units_partial (hu : u ≠ 0) (h : Restated π τ c u b g D) (hn : g.noisy = false ∨ |u| = 1) {hp : HpVals} {v β : ℝ}
    (hr : Ready g hp v β) (hg' : GpOk (withData g D)) {cc cc' : Bool} {st : EvalState g.nData}
    {st' : EvalState (withData g D).nData} (hst : setupEvalModel g hp cc = .ok st)
    (hst' : setupEvalModel (withData g D) (unitsFit u b hp) cc' = .ok st') (hF : st.chofac ≠ none) (hc : cc' = false ∨ g.o.precon = true)
    {X : Arr2} (hX : X.c = g.dim) (hXr : 0 < X.r) (cg ch : Bool) (hch : HessOk g hp X cg ch) :
    st'.etaK = st.etaK ∧ ∃ out : EvalOut X.r g.dim, evalModel g st hp X cg ch = .ok out ∧
      evalModel (withData g D) st' (unitsFit u b hp) (shifted c X) cg ch = .ok (inUnits u b out) := by
  have hr' := fit_ready (b := b) hu hr hg'
  obtain ⟨N, K, hs, -⟩ := ready_setup hr.toV hst
  obtain ⟨N', K', hs', -⟩ := ready_setup hr'.toV hst'
  obtain ⟨hη, hM⟩ := setup_restated hr.ok hg' hu h hr.adm hn hs hs'
  have hF' : st'.chofac ≠ none := by
    have hpd := ready_pd hs hF
    obtain ⟨F, hF'⟩ := hs'.facSome hc (posDef_perm (rowEq hr.ok hu h) one_pos hpd (by rw [hM, one_smul]))
    rw [hF']; simp
  refine ⟨hη, _, ready_eval hr hs hF hX hXr cg ch hch, ?_⟩
  have hch' : HessOk (withData g D) (unitsFit u b hp) (shifted c X) cg ch := by
    intro h1
    obtain ⟨a1, a2, a3, a4⟩ := hch h1
    exact ⟨a1, a2, a3, sep_restated h (fun _ _ => rfl) a4⟩
  rw [ready_eval hr' hs' hF' (X := shifted c X) hX hXr cg ch hch']
  exact congrArg _ (evalClosed_restated hr.ok hu h hM (resid_restated hr.ok hg' hu h hs.data hs'.data β) β v cg ch)

/-- Units of size one and the same zero change nothing. -/
theorem units_one (hp : HpVals) : unitsFit 1 0 hp = hp := by
  obtain ⟨b, t, k, v, vf, vg⟩ := hp
  have e : ∀ o : Option ℝ, o.map (fun t => (1 : ℝ) ^ 2 * t) = o := by intro o; cases o <;> simp
  simp only [unitsFit, unitsHp, e]
  congr 1
  cases b <;> simp [Arr1.map]

theorem inUnits_one {nx dim : ℕ} (o : EvalOut nx dim) : inUnits 1 0 o = o := by
  have e : ∀ {m k : ℕ} (A : Option (Mat m k)), A.map (fun A => of fun a i => A a i) = A := by
    intro m k A; cases A <;> rfl
  obtain ⟨a1, a2, a3, a4, a5, a6⟩ := o
  simp only [inUnits, one_mul, add_zero, abs_one]
  refine evalOut_eq rfl rfl (e a3) (e a4) (e a5) ?_
  cases a6 with
  | none => rfl
  | some H => cases H <;> rfl

theorem rearranged_restated (h : Rearranged π τ c g D) : Restated π τ c 1 0 g D where
  pt_lt := h.pt_lt
  gr_lt := h.gr_lt
  x := h.x
  fval p hp := by rw [h.fval p hp]; ring
  gsel := h.gsel
  grad G G' h1 h2 a ha i hi := by rw [h.grad G G' h1 h2 a ha i hi, one_mul]
  stdF s s' h1 h2 p hp := by rw [h.stdF s s' h1 h2 p hp, abs_one, one_mul]
  stdG s s' h1 h2 a ha i hi := by rw [h.stdG s s' h1 h2 a ha i hi, abs_one, one_mul]

/-- **C80/C81**, with Hessians: in the general form of C80 (another order, shifted points) the Hessians at one point are the same too. -/
theorem C80_hessian (h : Rearranged π τ c g D) {hp : HpVals} {v β : ℝ}
    (hr : Ready g hp v β) (hg' : GpOk (withData g D)) {cc cc' : Bool} {st : EvalState g.nData}
    {st' : EvalState (withData g D).nData} (hst : setupEvalModel g hp cc = .ok st)
    (hst' : setupEvalModel (withData g D) hp cc' = .ok st') (hF : st.chofac ≠ none) (hc : cc' = false ∨ g.o.precon = true)
    {X : Arr2} (hX : X.c = g.dim) (hXr : 0 < X.r) (cg ch : Bool) (hch : HessOk g hp X cg ch) :
    ∃ out : EvalOut X.r g.dim, evalModel g st hp X cg ch = .ok out ∧
      evalModel (withData g D) st' hp (shifted c X) cg ch = .ok out := by
  have e := units_one hp
  obtain ⟨-, out, h1, h2⟩ := C101_units_partial one_ne_zero (rearranged_restated h) (.inr abs_one) hr hg' hst (by rw [e]; exact hst') hF hc hX hXr cg ch hch
  rw [e] at h2
  exact ⟨out, h1, h2.trans (congrArg _ (inUnits_one out))⟩

/-- One observation: the inverse of the matrix is a division. -/
theorem quad_single {n : ℕ} (q0 : Fin n) (hall : ∀ q, q = q0) {M : Mat n n} (hM : M q0 q0 ≠ 0) (k : Vec n) :
    k ⬝ᵥ M⁻¹ *ᵥ k = k q0 ^ 2 / M q0 q0 := by
  have hs : ∀ f : Fin n → ℝ, ∑ q, f q = f q0 := fun f =>
    Finset.sum_eq_single q0 (fun q _ hq => absurd (hall q) hq) (fun h => absurd (Finset.mem_univ _) h)
  have hi : M⁻¹ = diagonal fun q => (M q q)⁻¹ := by
    apply Matrix.inv_eq_right_inv
    ext i j
    rw [hall i, hall j, Matrix.mul_apply, hs, diagonal_apply_eq, one_apply_eq, mul_inv_cancel₀ hM]
  rw [hi, dotProduct, hs, mulVec_diagonal]
  ring

/-- **C101**, why the noise matters. For one noisy observation without gradients, if the size of the units changes, the standard deviation
at that point is never the old one in the new units, although all data, noise levels and hyperparameters were restated: the code adds
the noise variances to the kernel matrix of unit variance without dividing them by the process variance (see C36). -/
theorem C101_noise_units_discrepancy (hu : u ≠ 0) (h : Restated π τ c u b g D) (hu1 : |u| ≠ 1) {hp : HpVals} {v β : ℝ}
    (hr : Ready g hp v β) (hg' : GpOk (withData g D)) (hug : g.useGrad = false) (hone : g.nEval = 1) (hno : 0 < valVar g hp 0)
    {cc cc' : Bool} {st : EvalState g.nData} {st' : EvalState (withData g D).nData} (hst : setupEvalModel g hp cc = .ok st)
    (hst' : setupEvalModel (withData g D) (unitsFit u b hp) cc' = .ok st') (hF : st.chofac ≠ none) (hF' : st'.chofac ≠ none) :
    ∃ out out' : EvalOut g.x.r g.dim, evalModel g st hp g.x false false = .ok out ∧
      evalModel (withData g D) st' (unitsFit u b hp) (shifted c g.x) false false = .ok out' ∧
      ∀ a, out'.sig a ≠ |u| * out.sig a := by
  have hr' := fit_ready (b := b) hu hr hg'
  obtain ⟨N, K, hs, -⟩ := ready_setup hr.toV hst
  obtain ⟨N', K', hs', -⟩ := ready_setup hr'.toV hst'
  have hX : g.x.c = g.dim := hr.ok.x_c
  have hXr : 0 < g.x.r := by rw [hr.ok.x_r]; exact hr.ne
  refine ⟨_, _, ready_eval hr hs hF hX hXr false false noHess, ready_eval hr' hs' hF' (X := shifted c g.x) hX hXr false false noHess, ?_⟩
  intro a he
  have ha : (a : ℕ) = 0 := by have := a.2; have e := hr.ok.x_r; omega
  have hx : ∀ d < g.dim, (shifted c g.x).get a d = g.x.get a d + c d := fun _ _ => rfl
  have hng : g.nGrad = 0 := by rw [hr.ok.nGrad, hug]; simp
  have hnd : g.nData = 1 := by rw [hr.ok.nData, hone, hng]; simp
  set ρ := rowEq hr.ok hu h with hρ
  have q0 : Fin g.nData := ⟨0, by omega⟩
  have hall : ∀ q : Fin g.nData, q = q0 := fun q => Fin.ext (by have := q.2; have := q0.2; omega)
  have hall' : ∀ q : Fin (withData g D).nData, q = ρ q0 := fun q => by
    have := hall (ρ.symm q); rw [← this]; simp
  have hK : K'.submatrix ρ ρ = K := kern_restated hr.ok hg' hu h hr.adm hs.isKern hs'.isKern
  have hKq : K' (ρ q0) (ρ q0) = K q0 q0 := congrFun (congrFun hK q0) q0
  have hpre : g.o.precon = false := by
    by_contra hc
    have := hr.precon (by simpa using hc)
    rw [hug] at this; cases this
  obtain ⟨Na, n1, n2⟩ := hs.noise
  obtain ⟨Na', n1', n2'⟩ := hs'.noise
  have hNN : N' (ρ q0) = u ^ 2 * N q0 := by
    have h1'' : NoiseSpec (withData g D) (unitsHp u hp) Na' := ⟨n1'.n, n1'.val, n1'.grad⟩
    rw [n2', n2]
    exact congrFun (noise_restated hr.ok hg' hu h hr.adm n1 h1'') q0
  have hNp : 0 < N q0 := by
    have e : (q0 : ℕ) = 0 := by have := q0.2; omega
    rw [n2]
    show 0 < Na.get q0
    rw [e, n1.val 0 (by omega)]
    exact hno
  have hη : st'.etaK = st.etaK := by
    have e1 := hs.etaEq
    have e2 : st'.etaK = if g.o.etaConst then g.o.etaK else
      (⨆ i, ∑ j, |(if g.o.precon then corr (kwn 1 K' N') else K') i j|) / (g.o.condMaxTarget - 1) := hs'.etaEq
    rw [hpre] at e1 e2
    simp only [Bool.false_eq_true, if_false] at e1 e2
    rw [e1, e2, rowSup_perm ρ hK]
  have hM : st.KernEta q0 q0 = K q0 q0 + (N q0 + st.etaK) := by
    rw [hs.cov, Matrix.add_apply, diagonal_apply_eq, addDiag, hpre]; simp
  have hM' : st'.KernEta (ρ q0) (ρ q0) = K q0 q0 + (u ^ 2 * N q0 + st.etaK) := by
    have e2 : st'.KernEta = K' + diagonal (fun i => N' i + st'.etaK * (if g.o.precon then K' i i + N' i else 1)) := hs'.cov
    rw [e2, Matrix.add_apply, diagonal_apply_eq, hpre, hKq, hNN, hη]; simp
  have hη0 := hs.etaNonneg hr.eta
  have hd := hs.diag q0
  have hMp : 0 < st.KernEta q0 q0 := by rw [hM]; linarith
  have hMp' : 0 < st'.KernEta (ρ q0) (ρ q0) := by rw [hM']; have := mul_pos (show 0 < u ^ 2 by positivity) hNp; linarith
  have hkv := kv_restated (hp := hp) (b := b) hr.ok hu h hx
  have hkq : kv (withData g D) (unitsFit u b hp) ((shifted c g.x).get a) (ρ q0) = kv g hp (g.x.get a) q0 := congrFun hkv q0
  have hkk : kv g hp (g.x.get a) q0 = K q0 q0 := by
    have e : (q0 : ℕ) = 0 := by have := q0.2; omega
    have e1 : dIx g q0 = .v 0 := by simp [dIx, e, hone]
    have e2 : dpt g q0 = g.x.get a := by rw [dpt, e1, ha]; rfl
    have e3 : dco g q0 = none := by rw [dco, e1]; rfl
    rw [isKern_entry hr.ok hr.adm hs.isKern q0 q0, kk, kv, e2, e3]
  have s1 := sgF_sq hr.toV hs hF (g.x.get a)
  have s2 := sgF_sq hr'.toV hs' hF' ((shifted c g.x).get a)
  have he' : sgF (withData g D) (unitsFit u b hp) st'.KernEta (u ^ 2 * v) ((shifted c g.x).get a) = |u| * sgF g hp st.KernEta v (g.x.get a) := he
  rw [he', mul_pow, sq_abs, s1, s2F, s2F, quad_single q0 hall hMp.ne', quad_single (ρ q0) hall' hMp'.ne', hkq, hkk, hM, hM'] at s2
  have hu2 : u ^ 2 ≠ 0 := by positivity
  have hne := hr.vpos.ne'
  rw [mul_assoc] at s2
  have s3 := mul_left_cancel₀ hne (mul_left_cancel₀ hu2 s2)
  have s4 : K q0 q0 ^ 2 / (K q0 q0 + (N q0 + st.etaK)) = K q0 q0 ^ 2 / (K q0 q0 + (u ^ 2 * N q0 + st.etaK)) := by linarith
  have hk2 : K q0 q0 ^ 2 ≠ 0 := by positivity
  rw [hM] at hMp; rw [hM'] at hMp'
  rw [div_eq_div_iff hMp.ne' hMp'.ne'] at s4
  have s5 := mul_left_cancel₀ hk2 s4
  have s6 : (u ^ 2 - 1) * N q0 = 0 := by linarith
  rcases mul_eq_zero.mp s6 with h6 | h6
  · exact hu1 (by rw [← sq_eq_sq₀ (abs_nonneg u) zero_le_one, sq_abs]; linarith)
  · exact hNp.ne' h6

/-! ### Concrete cases -/

/-- The data of `exGpQuiet` (noise-free values) swapped, shifted, times -2 plus 5. -/
def exQuietUnits : DataSet where
  x := ⟨2, 2, fun p d => exX.get (Equiv.swap 0 1 p) d + (d + 1)⟩
  fval := ⟨2, fun p => -2 * exGp.fval.get (Equiv.swap 0 1 p) + 5⟩
  bvec := none
  grad := none
  stdFval := some ⟨2, fun _ => 0⟩
  stdGrad := none

theorem exQuietUnits_ok : GpOk (withData exGpQuiet exQuietUnits) := by
  have h := exReadyQuiet.ok
  exact ⟨rfl, rfl, rfl, h.mask, h.nGrad, h.noMask, h.nData, h.grad_none, h.grad_some, fun _ => ⟨_, rfl, rfl⟩, h.std_fgrad, h.fzero, h.gzero, h.noisy⟩

theorem exQuietUnits_of : Restated (Equiv.swap 0 1) 1 (fun d => d + 1) (-2) 5 exGpQuiet exQuietUnits where
  pt_lt := by
    intro p hp
    have : p = 0 ∨ p = 1 := by have : p < 2 := hp; omega
    rcases this with rfl | rfl <;> simp [exGpQuiet, exGp]
  gr_lt := fun _ h => h
  x := by intro p _ d _; simp [exQuietUnits, exGpQuiet, exGp]
  fval := by intro p _; simp [exQuietUnits, exGpQuiet, exGp]
  gsel := by intro a ha; cases ha
  grad := by intro G G' h; cases h
  stdF := by intro s s' h h'; cases h; cases h'; intro p _; simp
  stdG := by intro s s' h; cases h

-- C101: without noise, in units of minus one half, Hessian at one point included
example (X : Arr2) (hX : X.c = 2) (hXr : X.r = 1) : ∃ st st' out, setupEvalModel exGpQuiet exHpQuiet false = .ok st ∧
    setupEvalModel (withData exGpQuiet exQuietUnits) (unitsFit (-2) 5 exHpQuiet) false = .ok st' ∧
    evalModel exGpQuiet st exHpQuiet X true true = .ok out ∧
    evalModel (withData exGpQuiet exQuietUnits) st' (unitsFit (-2) 5 exHpQuiet) (shifted (fun d => d + 1) X) true true = .ok (inUnits (-2) 5 out) := by
  have hu : (-2 : ℝ) ≠ 0 := by norm_num
  obtain ⟨st, hst, hF⟩ := ready_total exReadyQuiet.toV (by norm_num [exGpQuiet, exGp])
  obtain ⟨st', hst', hF'⟩ := ready_total (fit_ready (b := 5) hu exReadyQuiet exQuietUnits_ok).toV (by norm_num [exGpQuiet, exGp, withData])
  obtain ⟨-, out, h1, h2⟩ := C101_units_partial hu exQuietUnits_of (.inl rfl) exReadyQuiet exQuietUnits_ok hst hst' hF (.inl rfl) hX (by omega) true true
    (fun _ => ⟨rfl, hXr, fun h => (nomatch h), fun h => (nomatch h)⟩)
  exact ⟨st, st', out, hst, hst', h1, h2⟩

-- C101: with noise and gradients, the other sign and another zero
def exFlipped : DataSet where
  x := ⟨2, 2, fun p d => exX.get (Equiv.swap 0 1 p) d + (d + 1)⟩
  fval := ⟨2, fun p => -1 * exGp.fval.get (Equiv.swap 0 1 p) + 5⟩
  bvec := some [true, false]
  grad := some ⟨1, 2, fun _ d => -1 * d⟩
  stdFval := exGp.stdFval.map fun s => ⟨2, fun p => s.get (Equiv.swap 0 1 p)⟩
  stdGrad := none

theorem exFlipped_ok : GpOk (withData exGp exFlipped) := by
  have h := exSwapped_ready.ok
  exact ⟨rfl, rfl, rfl, h.mask, h.nGrad, h.noMask, h.nData, (by intro h; cases h), fun _ => ⟨_, rfl, rfl, rfl⟩, fun _ => ⟨_, rfl, rfl⟩, h.std_fgrad, h.fzero, h.gzero, h.noisy⟩

theorem exFlipped_of : Restated (Equiv.swap 0 1) 1 (fun d => d + 1) (-1) 5 exGp exFlipped where
  pt_lt := exSwapped_rearranged.pt_lt
  gr_lt := fun _ h => h
  x := by intro p _ d _; simp [exFlipped, exGp]
  fval := by intro p _; simp [exFlipped, exGp]
  gsel := exSwapped_rearranged.gsel
  grad := by intro G G' h h'; cases h; cases h'; intro a _ i _; rfl
  stdF := by
    intro s s' h h' p hp
    rw [exSwapped_rearranged.stdF s s' h h' p hp]; simp
  stdG := by intro s s' h; cases h

example : ∃ st st' out, setupEvalModel exGp exHpB false = .ok st ∧ setupEvalModel (withData exGp exFlipped) (unitsFit (-1) 5 exHpB) false = .ok st' ∧
    evalModel exGp st exHpB ⟨2, 2, fun a d => a + 3 * d⟩ true false = .ok out ∧
    evalModel (withData exGp exFlipped) st' (unitsFit (-1) 5 exHpB) (shifted (fun d => d + 1) ⟨2, 2, fun a d => a + 3 * d⟩) true false =
      .ok (inUnits (-1) 5 out) := by
  have hu : (-1 : ℝ) ≠ 0 := by norm_num
  obtain ⟨st, hst, hF⟩ := ready_total exReady.toV (by norm_num [exGp])
  obtain ⟨st', hst', hF'⟩ := ready_total (fit_ready (b := 5) hu exReady exFlipped_ok).toV (by norm_num [exGp, withData])
  obtain ⟨-, out, h1, h2⟩ := C101_units_partial hu exFlipped_of (.inr (by norm_num)) exReady exFlipped_ok hst hst' hF (.inl rfl)
    (X := ⟨2, 2, fun a d => a + 3 * d⟩) rfl (by decide) true false noHess
  exact ⟨st, st', out, hst, hst', h1, h2⟩

/-- The noisy value of `exGpNoisyOne` in units of one half. -/
def exNoisyUnits : DataSet where
  x := ⟨1, 2, fun _ _ => 0⟩
  fval := ⟨1, fun _ => 14⟩
  bvec := none
  grad := none
  stdFval := some ⟨1, fun _ => 1⟩
  stdGrad := none

-- C101, the discrepancy: one noisy value in units of one half
example : ∃ st st', ∃ out out' : EvalOut 1 2, setupEvalModel exGpNoisyOne exHpQuiet false = .ok st ∧
    setupEvalModel (withData exGpNoisyOne exNoisyUnits) (unitsFit 2 0 exHpQuiet) false = .ok st' ∧
    evalModel exGpNoisyOne st exHpQuiet ⟨1, 2, fun _ _ => 0⟩ false false = .ok out ∧
    evalModel (withData exGpNoisyOne exNoisyUnits) st' (unitsFit 2 0 exHpQuiet) (shifted (fun _ => 0) ⟨1, 2, fun _ _ => 0⟩) false false = .ok out' ∧
    out'.sig 0 ≠ 2 * out.sig 0 := by
  have hu : (2 : ℝ) ≠ 0 := by norm_num
  have h := exReadyNoisyOne.ok
  have hok : GpOk (withData exGpNoisyOne exNoisyUnits) :=
    ⟨rfl, rfl, rfl, h.mask, h.nGrad, h.noMask, h.nData, h.grad_none, h.grad_some, fun _ => ⟨_, rfl, rfl⟩, h.std_fgrad, h.fzero, h.gzero, h.noisy⟩
  have hre : Restated 1 1 (fun _ => 0) 2 0 exGpNoisyOne exNoisyUnits :=
    { pt_lt := fun _ h => h, gr_lt := fun _ h => h
      x := by intro p _ d _; simp [exNoisyUnits, exGpNoisyOne]
      fval := by intro p _; norm_num [exNoisyUnits, exGpNoisyOne]
      gsel := by intro a ha; cases ha
      grad := by intro G G' h; cases h
      stdF := by intro s s' h h'; cases h; cases h'; intro p _; norm_num
      stdG := by intro s s' h; cases h }
  obtain ⟨st, hst, hF⟩ := ready_total exReadyNoisyOne.toV (by norm_num [exGpNoisyOne, exGpQuiet, exGp])
  obtain ⟨st', hst', hF'⟩ := ready_total (fit_ready (b := 0) hu exReadyNoisyOne hok).toV (by norm_num [exGpNoisyOne, exGpQuiet, exGp, withData])
  obtain ⟨out, out', h1, h2, h3⟩ := C101_noise_units_discrepancy hu hre (by norm_num) exReadyNoisyOne hok rfl rfl
    (by norm_num [valVar, exGpNoisyOne, exGpQuiet, exGp]) hst hst' hF hF'
  exact ⟨st, st', out, out', hst, hst', h1, h2, by have := h3 ⟨0, Nat.one_pos⟩; rwa [abs_of_pos (by norm_num)] at this⟩

end Props
