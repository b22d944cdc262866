import Verif.Proofs.MoreData
import Verif.Props.Values

/-! Property C83: more data and less noise never make the predictions less certain. -/

open Np Spec GP Matrix

noncomputable section

namespace Props

/-- **C83**, general form: if the nugget used with `g'` is at most the one used with `g`. -/
theorem C83_nugget {π τ : ℕ → ℕ} {g g' : Gp} {hp hp' : HpVals} (h : MoreData π τ g hp g' hp') {v β β' : ℝ} (hr : ReadyV g hp v β)
    (hr' : ReadyV g' hp' v β') (hpr : g'.o.precon = g.o.precon) {cc cc' : Bool} {st : EvalState g.nData} {st' : EvalState g'.nData}
    (hst : setupEvalModel g hp cc = .ok st) (hst' : setupEvalModel g' hp' cc' = .ok st') (hF : st.chofac ≠ none) (hF' : st'.chofac ≠ none)
    (hη : st'.etaK ≤ st.etaK) {X : Arr2} (hX : X.c = g.dim) (hXr : 0 < X.r) (cg cg' : Bool) :
    ∃ out out', evalModel g st hp X cg false = .ok out ∧ evalModel g' st' hp' X cg' false = .ok out' ∧ ∀ a, out'.sig a ≤ out.sig a := by
  obtain ⟨N, K, hs, -⟩ := ready_setup hr hst
  obtain ⟨N', K', hs', -⟩ := ready_setup hr' hst'
  obtain ⟨out, h1, -, h2⟩ := ready_vals hr hs hF hX hXr cg
  obtain ⟨out', h1', -, h2'⟩ := ready_vals hr' hs' hF' (hX.trans h.dim.symm) hXr cg'
  refine ⟨out, out', h1, h1', fun a => ?_⟩
  rw [h2, h2']
  have := s2F_moreData hr.ok hr'.ok h hr.adm hr'.adm hpr hs hs' (hs'.etaNonneg hr'.eta) hη (ready_pd hs hF) (ready_pd hs' hF') (X.get a)
  exact mul_le_mul_of_nonneg_right (Real.sqrt_le_sqrt this) (Real.sqrt_nonneg _)

/-- **C83** With a constant nugget more data never make a prediction less certain: if the second object holds all the data of the first,
with noise that is at most as large, possibly more points, possibly more gradients, and uses the same prior covariance and nugget, then
every standard deviation it returns is at most the one the first returns. -/
theorem C83_more_data {π τ : ℕ → ℕ} {g g' : Gp} {hp hp' : HpVals} (h : MoreData π τ g hp g' hp') {v β β' : ℝ} (hr : ReadyV g hp v β)
    (hr' : ReadyV g' hp' v β') (hpr : g'.o.precon = g.o.precon) (he : g.o.etaConst = true) (he' : g'.o.etaConst = true)
    (hη : g'.o.etaK = g.o.etaK) {cc cc' : Bool} {st : EvalState g.nData} {st' : EvalState g'.nData}
    (hst : setupEvalModel g hp cc = .ok st) (hst' : setupEvalModel g' hp' cc' = .ok st') (hF : st.chofac ≠ none) (hF' : st'.chofac ≠ none)
    {X : Arr2} (hX : X.c = g.dim) (hXr : 0 < X.r) (cg cg' : Bool) :
    ∃ out out', evalModel g st hp X cg false = .ok out ∧ evalModel g' st' hp' X cg' false = .ok out' ∧ ∀ a, out'.sig a ≤ out.sig a := by
  obtain ⟨N, K, hs, -⟩ := ready_setup hr hst
  obtain ⟨N', K', hs', -⟩ := ready_setup hr' hst'
  exact C83_nugget h hr hr' hpr hst hst' hF hF' (by rw [hs.etaConst he, hs'.etaConst he', hη]) hX hXr cg cg'

theorem _root_.GP.ma_lt_one {s : ℝ} (hs : 0 < s) : maφ s < 1 := by
  have hq := Real.sqrt_pos.mpr hs
  have h5 : 0 < Real.sqrt 5 := Real.sqrt_pos.mpr (by norm_num)
  have h55 := five_sq
  set u := Real.sqrt 5 * Real.sqrt s with hu
  have hu0 : 0 < u := mul_pos h5 hq
  have h1 : Real.sqrt s ^ 2 = u ^ 2 / 5 := by rw [hu, mul_pow, h55]; ring
  have h2 := Real.quadratic_le_exp_of_nonneg hu0.le
  unfold maφ
  rw [neg_mul, ← hu, h1, Real.exp_neg, ← div_eq_mul_inv, div_lt_one (Real.exp_pos _)]
  nlinarith [sq_nonneg u, pow_pos hu0 2]

theorem _root_.GP.prφ_lt_one (k : KType) {α : ℝ} (hα : 0 < α) {s : ℝ} (hs : 0 < s) : prφ k α s < 1 := by
  cases k
  · show Real.exp (-s) < 1
    rw [← Real.exp_zero]
    exact Real.exp_lt_exp.mpr (by linarith)
  · exact ma_lt_one hs
  · exact Real.rpow_lt_one_of_one_lt_of_neg (by have := div_pos hs hα; linarith) (by linarith)

theorem _root_.GP.ssq_pos {dim : ℕ} {θ r : ℕ → ℝ} (hθ : ∀ d < dim, 0 < θ d) (hr : ∃ d < dim, r d ≠ 0) : 0 < ssq dim θ r := by
  obtain ⟨d, hd, hn⟩ := hr
  unfold ssq
  refine Finset.sum_pos' (fun e he => mul_nonneg (hθ e (Finset.mem_range.mp he)).le (sq_nonneg _)) ⟨d, Finset.mem_range.mpr hd, ?_⟩
  exact mul_pos (hθ d hd) (by positivity)

section
variable {n : ℕ}

theorem _root_.GP.quad_of_solve {M : Mat n n} (hM : M.PosDef) {k w : Vec n} (h : M *ᵥ w = k) : k ⬝ᵥ M⁻¹ *ᵥ k = k ⬝ᵥ w := by
  rw [← h, mulVec_mulVec, nonsing_inv_mul _ hM.det_pos.ne'.isUnit, one_mulVec]

theorem _root_.GP.quad_one (hn : n = 1) {M : Mat n n} (hM : M.PosDef) {η : ℝ} (hη : 0 < η) (h : ∀ i j, M i j = 1 + η) {k : Vec n}
    (hk : ∀ i, k i = 1) : k ⬝ᵥ M⁻¹ *ᵥ k = 1 / (1 + η) := by
  subst hn
  rw [quad_of_solve hM (w := fun _ => 1 / (1 + η))]
  · simp [dotProduct, hk]
  · funext i
    simp only [mulVec, dotProduct, h, hk, Fin.sum_univ_one]
    have : 1 + η ≠ 0 := by positivity
    field_simp

theorem _root_.GP.quad_two (hn : n = 2) {M : Mat n n} (hM : M.PosDef) {η ρ : ℝ} (hη : 0 < η) (hρ : 0 < ρ) (hρ1 : ρ < 1)
    (h : ∀ i j, M i j = if i = j then 1 + η else ρ) {k : Vec n} (hk : ∀ i, k i = if (i : ℕ) = 0 then 1 else ρ) :
    k ⬝ᵥ M⁻¹ *ᵥ k = (1 + η - 2 * ρ ^ 2 + ρ ^ 2 * (1 + η)) / ((1 + η) ^ 2 - ρ ^ 2) := by
  subst hn
  have hD : (1 + η) ^ 2 - ρ ^ 2 ≠ 0 := by nlinarith
  rw [quad_of_solve hM (w := fun i => if (i : ℕ) = 0 then (1 + η - ρ ^ 2) / ((1 + η) ^ 2 - ρ ^ 2) else ρ * η / ((1 + η) ^ 2 - ρ ^ 2))]
  · simp only [dotProduct, hk, Fin.sum_univ_two]
    simp
    field_simp
    ring
  · funext i
    simp only [mulVec, dotProduct, h, hk, Fin.sum_univ_two]
    fin_cases i <;> simp <;> field_simp <;> ring

theorem _root_.GP.rowSup_one (hn : n = 1) {K : Mat n n} (h : ∀ i j, K i j = 1) : (⨆ i, ∑ j, |K i j|) = 1 := by
  subst hn
  simp [h]

theorem _root_.GP.rowSup_two (hn : n = 2) {K : Mat n n} {ρ : ℝ} (hρ : 0 < ρ) (h : ∀ i j, K i j = if i = j then 1 else ρ) :
    (⨆ i, ∑ j, |K i j|) = 1 + ρ := by
  subst hn
  have : ∀ i : Fin 2, ∑ j, |K i j| = 1 + ρ := by
    intro i
    simp only [h, Fin.sum_univ_two]
    fin_cases i <;> simp [abs_of_pos hρ, add_comm]
  simp only [this, ciSup_const]

end

theorem _root_.GP.kk_base {g : Gp} {hp : HpVals} {p q : ℕ} (h1 : p < g.nEval) (h2 : q < g.nEval) :
    kk g hp p q = prφ g.kernel (alphaOf g.kernel hp.kernel) (ssq g.dim (thF hp) fun d => g.x.get p d - g.x.get q d) := by
  simp only [kk, dco, dpt, dIx, if_pos h1, if_pos h2]
  rfl

theorem _root_.GP.kv_base {g : Gp} {hp : HpVals} {q : Fin g.nData} (h : (q : ℕ) < g.nEval) (x : Pt) :
    kv g hp x q = prφ g.kernel (alphaOf g.kernel hp.kernel) (ssq g.dim (thF hp) fun d => g.x.get q d - x d) := by
  simp only [kv, dco, dpt, dIx, if_pos h]
  rfl

/-- Value-only, noise-free data with the varying nugget and without preconditioning. -/
structure PlainData (g : Gp) (n : ℕ) : Prop where
  nEval : g.nEval = n
  useGrad : g.useGrad = false
  fzero : g.fvalZero = true
  gzero : g.fgradZero = true
  precon : g.o.precon = false
  vary : g.o.etaConst = false

theorem PlainData.nData {g : Gp} {n : ℕ} (h : PlainData g n) (hg : GpOk g) : g.nData = n := by
  have : g.nGrad = 0 := by rw [hg.nGrad, h.useGrad]; rfl
  rw [hg.nData, this, h.nEval]; simp

theorem PlainData.cov {g : Gp} {n : ℕ} (h : PlainData g n) {hp : HpVals} {v β : ℝ} (hr : ReadyV g hp v β) {cc : Bool} {N : Vec g.nData}
    {K : Mat g.nData g.nData} {st : EvalState g.nData} (hs : SetupSpec g hp β cc N K st) :
    (∀ i j : Fin g.nData, K i j = kk g hp i j ∧ st.KernEta i j = kk g hp i j + if i = j then st.etaK else 0) ∧
      st.etaK = (⨆ i, ∑ j, |K i j|) / (g.o.condMaxTarget - 1) := by
  refine ⟨fun i j => ?_, ?_⟩
  · have hK := isKern_entry hr.ok hr.adm hs.isKern i j
    refine ⟨hK, ?_⟩
    obtain ⟨Na, hNa, rfl⟩ := hs.noise
    have hN : toVec g.nData Na i = 0 := by
      have hi : (i : ℕ) < g.nEval := lt_of_lt_of_eq i.2 ((h.nData hr.ok).trans h.nEval.symm)
      show Na.get i = 0
      rw [hNa.val i hi]
      simp [valVar, h.fzero, h.gzero]
    rw [hs.cov, Matrix.add_apply, hK, diagonal_apply]
    congr 1
    simp [addDiag, hN, h.precon]
  · rw [hs.etaEq]
    simp [h.vary, h.precon]

/-- **C83** fails with the default, varying nugget: of noise-free values at two distinct points, adding the second one always makes the
prediction at the first one strictly *less* certain, for every kernel, every hyperparameters and every bound of the condition number. -/
theorem C83_varying_nugget {g g' : Gp} {hp : HpVals} (h : PlainData g 1) (h' : PlainData g' 2) (hm : MoreData id id g hp g' hp)
    (hcond : g'.o.condMaxTarget = g.o.condMaxTarget) (hne : ∃ d < g.dim, g'.x.get 1 d ≠ g'.x.get 0 d) {v β : ℝ} (hr : ReadyV g hp v β)
    (hr' : ReadyV g' hp v β) {cc cc' : Bool} {st : EvalState g.nData} {st' : EvalState g'.nData}
    (hst : setupEvalModel g hp cc = .ok st) (hst' : setupEvalModel g' hp cc' = .ok st') (hF : st.chofac ≠ none) (hF' : st'.chofac ≠ none)
    {X : Arr2} (hX : X.c = g.dim) (hXr : X.r = 1) (hXx : ∀ d, X.get 0 d = g.x.get 0 d) (cg cg' : Bool) :
    ∃ out out', evalModel g st hp X cg false = .ok out ∧ evalModel g' st' hp X cg' false = .ok out' ∧ ∀ a, out.sig a < out'.sig a := by
  obtain ⟨N, K, hs, -⟩ := ready_setup hr hst
  obtain ⟨N', K', hs', -⟩ := ready_setup hr' hst'
  obtain ⟨out, h1, -, h2⟩ := ready_vals hr hs hF hX (by omega) cg
  obtain ⟨out', h1', -, h2'⟩ := ready_vals hr' hs' hF' (hX.trans hm.dim.symm) (by omega) cg'
  refine ⟨out, out', h1, h1', fun a => ?_⟩
  rw [h2, h2']
  have ha : (a : ℕ) = 0 := by have := a.2; omega
  simp only [ha]
  have hα := alphaOf_pos hr.adm.kernel
  have hθ := thF_pos hr.adm
  set φ := prφ g.kernel (alphaOf g.kernel hp.kernel) with hφ
  set s := ssq g.dim (thF hp) fun d => g'.x.get 1 d - g'.x.get 0 d with hs0
  have hspos : 0 < s := ssq_pos hθ (by obtain ⟨d, hd, hn⟩ := hne; exact ⟨d, hd, sub_ne_zero.mpr hn⟩)
  have hρ : 0 < φ s := prφ_pos _ hα hspos.le
  have hρ1 : φ s < 1 := prφ_lt_one _ hα hspos
  have hz : ∀ y : Pt, φ (ssq g.dim (thF hp) fun d => y d - y d) = 1 := by
    intro y
    have : ssq g.dim (thF hp) (fun d => y d - y d) = 0 := by simp [ssq]
    rw [this]; exact prφ_zero _ _
  have hsymm : (ssq g.dim (thF hp) fun d => g'.x.get 0 d - g'.x.get 1 d) = s := by
    unfold s ssq
    refine Finset.sum_congr rfl fun d _ => by ring
  have hkk' : ∀ p < 2, ∀ q < 2, kk g' hp p q = if p = q then 1 else φ s := by
    intro p hp' q hq'
    rw [kk_base (by rw [h'.nEval]; exact hp') (by rw [h'.nEval]; exact hq'), hm.kernel, hm.dim]
    have hpc : p = 0 ∨ p = 1 := by omega
    have hqc : q = 0 ∨ q = 1 := by omega
    rcases hpc with rfl | rfl <;> rcases hqc with rfl | rfl
    · exact hz _
    · simp only [if_neg (show ¬ (0 : ℕ) = 1 by decide)]; exact congrArg φ hsymm
    · rfl
    · exact hz _
  have hn := h.nData hr.ok
  have hn' := h'.nData hr'.ok
  have hx0 : ∀ d < g.dim, X.get 0 d = g'.x.get 0 d := fun d hd => by
    rw [hXx d]; exact (hm.x 0 (by rw [h.nEval]; norm_num) d hd).symm
  obtain ⟨hc, he⟩ := h.cov hr hs
  obtain ⟨hc', he'⟩ := h'.cov hr' hs'
  have hct : 1 < g.o.condMaxTarget := by have := hr.eta; rw [h.vary] at this; simpa using this
  have hct0 : 0 < g.o.condMaxTarget - 1 := by linarith
  have hK1 : ∀ i j, K i j = 1 := by
    intro i j
    have hi : (i : ℕ) = 0 := by have := i.2; omega
    have hj : (j : ℕ) = 0 := by have := j.2; omega
    rw [(hc i j).1, hi, hj, kk_base (by rw [h.nEval]; norm_num) (by rw [h.nEval]; norm_num)]
    exact hz _
  have hK2 : ∀ i j, K' i j = if i = j then 1 else φ s := by
    intro i j
    rw [(hc' i j).1, hkk' i (lt_of_lt_of_eq i.2 hn') j (lt_of_lt_of_eq j.2 hn')]
    simp only [Fin.ext_iff]
  rw [rowSup_one hn hK1] at he
  rw [rowSup_two hn' hρ hK2, hcond] at he'
  set e := st.etaK with hee
  have hepos : 0 < e := by rw [he]; positivity
  have hee' : st'.etaK = (1 + φ s) * e := by rw [he', he]; ring
  have hq : kv g hp (X.get 0) ⬝ᵥ st.KernEta⁻¹ *ᵥ kv g hp (X.get 0) = 1 / (1 + e) := by
    refine quad_one hn (ready_pd hs hF) hepos (fun i j => ?_) fun i => ?_
    · have hij : i = j := Fin.ext (by have := i.2; have := j.2; omega)
      rw [(hc i j).2, ← (hc i j).1, hK1, if_pos hij]
    · have hi : (i : ℕ) = 0 := by have := i.2; omega
      rw [kv_base (by rw [h.nEval, hi]; norm_num), hi]
      rw [show (fun d => g.x.get 0 d - X.get 0 d) = fun d => g.x.get 0 d - g.x.get 0 d from funext fun d => by rw [hXx d]]
      exact hz _
  have hq' : kv g' hp (X.get 0) ⬝ᵥ st'.KernEta⁻¹ *ᵥ kv g' hp (X.get 0) =
      (1 + st'.etaK - 2 * φ s ^ 2 + φ s ^ 2 * (1 + st'.etaK)) / ((1 + st'.etaK) ^ 2 - φ s ^ 2) := by
    refine quad_two hn' (ready_pd hs' hF') (by rw [hee']; positivity) hρ hρ1 (fun i j => ?_) fun i => ?_
    · rw [(hc' i j).2, ← (hc' i j).1, hK2]
      split_ifs <;> ring
    · have hi : (i : ℕ) < 2 := lt_of_lt_of_eq i.2 hn'
      rw [kv_base (by rw [h'.nEval]; exact hi), hm.kernel, hm.dim]
      have hsx : (ssq g.dim (thF hp) fun d => g'.x.get i d - X.get 0 d) = ssq g.dim (thF hp) fun d => g'.x.get i d - g'.x.get 0 d := by
        unfold ssq
        refine Finset.sum_congr rfl fun d hd => ?_
        show thF hp d * (g'.x.get i d - X.get 0 d) ^ 2 = _
        rw [hx0 d (Finset.mem_range.mp hd)]
      rw [hsx]
      have hic : (i : ℕ) = 0 ∨ (i : ℕ) = 1 := by omega
      rcases hic with hi | hi <;> rw [hi]
      · exact hz _
      · rfl
  have hlt : s2F g hp st.KernEta (X.get 0) < s2F g' hp st'.KernEta (X.get 0) := by
    unfold s2F
    rw [hq, hq', hee']
    have hD : 0 < (1 + (1 + φ s) * e) ^ 2 - φ s ^ 2 := by nlinarith [mul_pos (show (0:ℝ) < 1 + φ s by linarith) hepos]
    have : (1 + (1 + φ s) * e - 2 * φ s ^ 2 + φ s ^ 2 * (1 + (1 + φ s) * e)) / ((1 + (1 + φ s) * e) ^ 2 - φ s ^ 2) < 1 / (1 + e) := by
      rw [div_lt_div_iff₀ hD (by linarith)]
      have : 0 < (1 + φ s) * (1 + e) * e * (φ s * (1 - φ s)) := by
        have := sub_pos.mpr hρ1
        positivity
      nlinarith
    linarith
  unfold sgF
  refine mul_lt_mul_of_pos_right (Real.sqrt_lt_sqrt (s2_nonneg hr.ok hr.adm hs hepos.le (ready_pd hs hF) _).1 hlt) (Real.sqrt_pos.mpr hr.vpos)

/-- The first point of `exGpQuiet` only. -/
def exGpFirst : Gp := { exGpQuiet with
  nEval := 1
  nData := 1
  x := ⟨1, 2, exX.get⟩
  fval := ⟨1, exGp.fval.get⟩
  stdFval := some ⟨1, fun _ => 0⟩ }

theorem exReadyFirst : Ready exGpFirst exHpQuiet 3 4 where
  ok := by
    constructor
    all_goals first
      | rfl
      | exact fun _ => rfl
      | exact fun _ => ⟨_, rfl, rfl⟩
      | (intro h; simp [exGpFirst, exGpQuiet, exGp] at h; done)
      | (intro _ h; simp [exGpFirst, exGpQuiet, exGp] at h; done)
  adm := ⟨exReadyQuiet.adm.theta, exReadyQuiet.adm.kernel, exReadyQuiet.adm.vf_none, exReadyQuiet.adm.vf_some,
    exReadyQuiet.adm.vg_none, exReadyQuiet.adm.vg_some⟩
  noise := .inr rfl
  precon := exReadyQuiet.precon
  ne := Nat.one_pos
  vpos := exReadyQuiet.vpos
  varK := rfl
  beta := ⟨_, rfl, rfl, rfl⟩
  eta := exReadyQuiet.eta
  mask := by intro h; cases h

theorem exFirst_more : MoreData id id exGpFirst exHpQuiet exGpQuiet exHpQuiet where
  dim := rfl
  kernel := rfl
  theta := rfl
  kpar := rfl
  pt_lt := fun p hp => lt_trans hp (show 1 < 2 by norm_num)
  pt_inj := fun _ _ _ _ h => h
  gr_lt := fun a ha => absurd ha (Nat.not_lt_zero a)
  gr_inj := fun a ha => absurd ha (Nat.not_lt_zero a)
  x := fun _ _ _ _ => rfl
  gsel := fun a ha => absurd ha (Nat.not_lt_zero a)
  valVar_le := fun _ _ => le_of_eq rfl
  gradVar_le := fun a ha => absurd ha (Nat.not_lt_zero a)

-- C83: with the varying nugget the second point makes the first prediction less certain
example : ∃ st st' out out', setupEvalModel exGpFirst exHpQuiet false = .ok st ∧ setupEvalModel exGpQuiet exHpQuiet false = .ok st' ∧
    evalModel exGpFirst st exHpQuiet ⟨1, 2, exX.get⟩ true false = .ok out ∧
    evalModel exGpQuiet st' exHpQuiet ⟨1, 2, exX.get⟩ true false = .ok out' ∧ out.sig 0 < out'.sig 0 := by
  obtain ⟨st, hst, hF⟩ := ready_total exReadyFirst.toV (by norm_num [exGp, exGpFirst, exGpQuiet])
  obtain ⟨st', hst', hF'⟩ := ready_total exReadyQuiet.toV (by norm_num [exGp, exGpQuiet])
  obtain ⟨out, out', h1, h2, h3⟩ := C83_varying_nugget ⟨rfl, rfl, rfl, rfl, rfl, rfl⟩ ⟨rfl, rfl, rfl, rfl, rfl, rfl⟩ exFirst_more rfl
    ⟨0, by norm_num [exGpFirst, exGpQuiet, exGp], by norm_num [exGpQuiet, exGp, exX]⟩ exReadyFirst.toV exReadyQuiet.toV hst hst' hF hF'
    (X := ⟨1, 2, exX.get⟩) rfl rfl (fun _ => rfl) true true
  exact ⟨st, st', out, out', hst, hst', h1, h2, h3 0⟩

/-- `exGp` with a constant nugget, without preconditioning; and the same without gradients. -/
def exGpFixed : Gp := { exGp with o := { exGp.o with precon := false, etaConst := true, etaK := 1 / 100 } }
def exGpFixedVals : Gp := { exGpFixed with useGrad := false, nGrad := 0, nData := 2, bvec := none, grad := none }

theorem exReadyFixed : Ready exGpFixed exHpB 3 4 where
  ok := { exGp_ok with }
  adm := ⟨exReady.adm.theta, exReady.adm.kernel, exReady.adm.vf_none, exReady.adm.vf_some, exReady.adm.vg_none, exReady.adm.vg_some⟩
  noise := .inl rfl
  precon := fun _ => rfl
  ne := exReady.ne
  vpos := exReady.vpos
  varK := rfl
  beta := ⟨_, rfl, rfl, rfl⟩
  eta := by norm_num [exGpFixed]
  mask := by intro h; cases h

theorem exReadyFixedVals : Ready exGpFixedVals exHpB 3 4 where
  ok := by
    constructor
    all_goals first
      | rfl
      | exact fun _ => rfl
      | exact fun _ => ⟨_, rfl, rfl⟩
      | (intro l h; cases h; done)
      | (intro h; cases h; done)
      | (intro _ h; cases h; done)
  adm := ⟨exReady.adm.theta, exReady.adm.kernel, exReady.adm.vf_none, exReady.adm.vf_some, (by intro h; cases h), (by intro h; cases h)⟩
  noise := .inr rfl
  precon := by intro h; cases h
  ne := exReady.ne
  vpos := exReady.vpos
  varK := rfl
  beta := ⟨_, rfl, rfl, rfl⟩
  eta := by norm_num [exGpFixedVals, exGpFixed]
  mask := by intro h; cases h

-- C83: adding a gradient at one point to noisy values
example : MoreData id id exGpFixedVals exHpB exGpFixed exHpB :=
  ⟨rfl, rfl, rfl, rfl, fun _ h => h, fun _ _ _ _ h => h, fun a ha => absurd ha (Nat.not_lt_zero a), fun a ha => absurd ha (Nat.not_lt_zero a),
    fun _ _ _ _ => rfl, fun a ha => absurd ha (Nat.not_lt_zero a), fun _ _ => le_of_eq rfl, fun a ha => absurd ha (Nat.not_lt_zero a)⟩

end Props
