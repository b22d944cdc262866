import Verif.Proofs.LkdAllCore

/-! The likelihood as a function of one hyperparameter. -/

open Np GP Spec Matrix MD ED

noncomputable section

namespace GP

variable {n m : ℕ}

theorem cond2_cont {K : ℝ → Mat n n} {t : ℝ} (hn : 0 < n) (hK : ∀ᶠ s in nhds t, (K s).PosDef)
    (hc : ∀ i j, ContinuousAt (fun s => K s i j) t) : ContinuousAt (fun s => cond2 (K s)) t := by
  have hex : ∀ s, ∃ p : ℝ × ℝ, (K s).PosDef → IsMaxEig (K s) p.1 ∧ IsMinEig (K s) p.2 ∧ 0 < p.2 ∧ cond2 (K s) = p.1 / p.2 := by
    intro s
    by_cases hs : (K s).PosDef
    · obtain ⟨a, b, h1, h2, h3, h4⟩ := Props.cond2_quot hn hs
      exact ⟨(a, b), fun _ => ⟨h1, h2, h3, h4⟩⟩
    · exact ⟨(0, 0), fun h => (hs h).elim⟩
  choose p hp using hex
  have c1 : ContinuousAt (fun s => (p s).1) t := top_cont hc (by
    filter_upwards [hK] with s hs
    exact Props.isTop_of_max (hp s hs).1)
  have c2 : ContinuousAt (fun s => -(p s).2) t := top_cont (A := fun s => -(K s)) (fun i j => (hc i j).neg) (by
    filter_upwards [hK] with s hs
    exact Props.isTop_of_max (Props.isMin_iff.mp (hp s hs).2.1))
  have c3 : ContinuousAt (fun s => (p s).2) t := by
    have := c2.neg
    exact (continuousAt_congr (Filter.Eventually.of_forall fun s => by simp)).mp this
  refine (c1.div c3 (hp t hK.self_of_nhds).2.2.1.ne').congr ?_
  filter_upwards [hK] with s hs
  exact (hp s hs).2.2.2.symm

theorem condNum_cont (o : CondOpts) {K : ℝ → Mat n n} {D : Mat n n} {t : ℝ} (hn : 0 < n) (hK : ∀ᶠ s in nhds t, (K s).PosDef)
    (hd : MDeriv K D t) : ContinuousAt (fun s => condNum o (K s)) t := by
  unfold condNum
  cases o.fro with
  | false => simpa using cond2_cont hn hK fun i j => (hd i j).continuousAt
  | true =>
    have hpd := hK.self_of_nhds
    have hdet := posDef_detne hpd
    have hu : IsUnit (K t).det := isUnit_iff_ne_zero.mpr hdet
    have hK0 : K t ≠ 0 := by
      intro h
      have := hpd.diag_pos (i := ⟨0, hn⟩)
      rw [h] at this; simp at this
    have hKi0 : (K t)⁻¹ ≠ 0 := by
      intro h
      have := Matrix.mul_nonsing_inv _ hu
      rw [h, Matrix.mul_zero] at this
      have := congrFun (congrFun this ⟨0, hn⟩) ⟨0, hn⟩
      simp at this
    have d1 := Props.froNorm_deriv hd hK0
    have d2 := Props.froNorm_deriv (inv_deriv hd hdet) hKi0
    simpa [condFro] using (d1.fun_mul d2).continuousAt

/-! ### The covariance and its gradient at one hyperparameter vector -/

/-- The variance argument: noise-free data are modelled with unit variance. -/
def vkArg (g : Gp) : Option ℝ := if g.noisy then none else some 1

theorem lkdCov_eq (g : Gp) (hp : HpVals) (R : Arr3) (cc : Bool) : lkdCov g hp R cc = calcAllK g R hp none true cc (vkArg g) false := by
  unfold lkdCov vkArg calcKernWChofac
  cases h : g.noisy with
  | true => simp
  | false => simp [pyAssert_true]

/-- The standing assumptions: consistent data, known value noise unless gradients are used, preconditioning only with gradients,
a constant positive nugget. -/
structure LkdHyp (g : Gp) : Prop where
  ok : GpOk g
  noise : g.useGrad = true ∨ g.knownFval = true
  precon : g.o.precon = true → g.useGrad = true
  ne : 0 < g.nEval
  const : g.o.etaConst = true
  eta : 0 < g.o.etaK

theorem lkd_pieces {g : Gp} (H : LkdHyp g) {lo : LogOpts} {ok : Bool} {env : LkdEnv} (hi : setupHpIdx g lo ok = .ok env.info)
    {hp : HpVals} (hh : HpAdm g hp) (hall : ∀ s ∈ gpSlots g ok, ∃ y, getSlot hp s = some y ∧ 0 < y)
    (hsupp : ∀ th, hp.theta = some th → ThSupp g th) {R : Arr3} (hR : calcRtensor g.x g.x = .ok R) (cc : Bool) :
    ∃ out A, lkdCov g hp R cc = .ok out ∧ kcovGradArr g env hp out.Kern R = .ok A ∧ out.Kcov.PosDef ∧
      (∀ F, out.chofac = some F → FacOf F out.Kcov) ∧
      ((cc = true → g.o.precon = false → condNum g.o out.Kcov ≤ g.o.condMaxAbs) → ∃ F, out.chofac = some F) ∧
      (g.o.precon = false → cc = true → (∃ F, out.chofac = some F) → condNum g.o out.Kcov ≤ g.o.condMaxAbs) ∧
      (g.o.precon = false → out.condK = if cc then some (condNum g.o out.Kcov) else none) ∧
      ∀ p s, (gpSlots g ok)[p]? = some s → CovDeriv g R (vkArg g) hp s (slabMat A p) := by
  have hv : ∃ v, 0 < v ∧ (vkArg g).or hp.varK = some v := by
    unfold vkArg
    cases hn : g.noisy with
    | false => exact ⟨1, one_pos, rfl⟩
    | true =>
      obtain ⟨y, hy, hy0⟩ := hall .varK (by simp [gpSlots, hpSlots, hn])
      exact ⟨y, hy0, hy⟩
  obtain ⟨v, hv0, hvk⟩ := hv
  obtain ⟨N, K, out, hN, hNs, -, hpsd, hdiag, -, hout, hs⟩ := calcAllK_ok H.ok hh H.noise H.precon H.ne hR true cc (vkArg g) false
    (v := v) hv0 ⟨⟨v, hvk, fun _ => rfl⟩, fun h => by cases h⟩
  have heta : 0 < out.etaK := by rw [hs.eta, if_pos H.const]; exact H.eta
  have hpd := hs.posDef hv0 hpsd hdiag (NoiseSpec.nonneg H.ok hh hNs) heta
  have hA : ∃ A, kcovGradArr g env hp out.Kern R = .ok A ∧
      ∀ p s, (gpSlots g ok)[p]? = some s → CovDeriv g R (vkArg g) hp s (slabMat A p) := by
    unfold kcovGradArr vkArg
    cases hn : g.noisy with
    | true =>
      have hout' : calcAllK g R hp none true cc none false = .ok out := by simpa [vkArg, hn] using hout
      have hvk' : hp.varK = some v := by simpa [vkArg, hn] using hvk
      obtain ⟨A, h1, -, -, -, h2⟩ := Props.C31_covariance_gradient_partial H.ok hh H.noise H.precon H.ne H.const hsupp hv0 hvk' hall hi hR hout'
      exact ⟨A, by rw [if_pos rfl]; exact h1, by simpa using h2⟩
    | false =>
      obtain ⟨A, h1, -, -, -, h2⟩ := Props.C31_kernel_gradient_partial H.ok hh hn H.precon H.ne H.const hsupp hi hR
      exact ⟨A, by simpa using h1, by simpa using h2⟩
  obtain ⟨A, hA1, hA2⟩ := hA
  refine ⟨out, A, by rw [lkdCov_eq]; exact hout, hA1, hpd, ?_, fun h => hs.facSome rfl h hpd, ?_, ?_, hA2⟩
  · intro F hF
    obtain ⟨h1, h2, h3⟩ := hs.fac F hF
    exact ⟨h1, h3, h2⟩
  · rintro hp' hcc ⟨F, hF⟩
    exact hs.facCond hp' F hF hcc
  · intro hp'
    rw [hs.cond, hp']; simp

/-- The path of covariance matrices along one hyperparameter. -/
theorem lkd_path0 {g : Gp} (H : LkdHyp g) {lo : LogOpts} {ok : Bool} {env : LkdEnv} (hi : setupHpIdx g lo ok = .ok env.info)
    {hp : HpVals} (hh : HpAdm g hp) (hall : ∀ s ∈ gpSlots g ok, ∃ y, getSlot hp s = some y ∧ 0 < y)
    (hsupp : ∀ th, hp.theta = some th → KernSupp g th) {R : Arr3} (hR : calcRtensor g.x g.x = .ok R) (cc : Bool)
    {out : CovOut g.nData} (hout : lkdCov g hp R cc = .ok out) {A : Arr3} (hA : kcovGradArr g env hp out.Kern R = .ok A)
    {p : ℕ} {s : Slot} (hps : (gpSlots g ok)[p]? = some s) {y : ℝ} (hy : getSlot hp s = some y) :
    ∃ (C : ℝ → Mat g.nData g.nData) (outs : ℝ → CovOut g.nData) (As : ℝ → Arr3),
      MDeriv C (slabMat A p) y ∧ out.Kcov = C y ∧ outs y = out ∧ As y = A ∧ ∀ᶠ t in nhds y, (C t).PosDef ∧
        lkdCov g (setSlot hp s t) R cc = .ok (outs t) ∧ (outs t).Kcov = C t ∧
        kcovGradArr g env (setSlot hp s t) (outs t).Kern R = .ok (As t) ∧
        (∀ F, (outs t).chofac = some F → FacOf F (C t)) ∧
        ((cc = true → g.o.precon = false → condNum g.o (C t) ≤ g.o.condMaxAbs) → ∃ F, (outs t).chofac = some F) ∧
        (g.o.precon = false → cc = true → (∃ F, (outs t).chofac = some F) → condNum g.o (C t) ≤ g.o.condMaxAbs) := by
  have hs : s ∈ gpSlots g ok := List.mem_of_getElem? hps
  obtain ⟨out', A', ho', hA', -, -, -, -, -, hder⟩ := lkd_pieces H hi hh hall (fun th ht => GP.KernSupp.thSupp (hsupp th ht)) hR cc
  rw [hout] at ho'; cases ho'
  rw [hA] at hA'; cases hA'
  obtain ⟨y', hy0, hy', C, hC, hCd⟩ := hder p s hps
  rw [hy] at hy'; cases hy'
  have hposE : ∀ᶠ t in nhds y, 0 < t := lt_mem_nhds hy0
  have hadm : ∀ t, 0 < t → HpAdm g (setSlot hp s t) := fun t ht => GP.HpAdm.setSlot hh hs ht
  have hallt : ∀ t, 0 < t → ∀ s' ∈ gpSlots g ok, ∃ z, getSlot (setSlot hp s t) s' = some z ∧ 0 < z := by
    intro t ht s' hs'
    rw [getSlot_setSlot hy]
    split_ifs with h
    · exact ⟨t, rfl, ht⟩
    · exact hall s' hs'
  have hsuppE := kernSupp_event hy hsupp
  have hex : ∀ t, ∃ o : CovOut g.nData × Arr3, 0 < t → (∀ th, (setSlot hp s t).theta = some th → KernSupp g th) →
      lkdCov g (setSlot hp s t) R cc = .ok o.1 ∧ kcovGradArr g env (setSlot hp s t) o.1.Kern R = .ok o.2 ∧ o.1.Kcov = C t ∧ o.1.Kcov.PosDef ∧
      (∀ F, o.1.chofac = some F → FacOf F o.1.Kcov) ∧
      ((cc = true → g.o.precon = false → condNum g.o o.1.Kcov ≤ g.o.condMaxAbs) → ∃ F, o.1.chofac = some F) ∧
      (g.o.precon = false → cc = true → (∃ F, o.1.chofac = some F) → condNum g.o o.1.Kcov ≤ g.o.condMaxAbs) := by
    intro t
    by_cases h : 0 < t ∧ ∀ th, (setSlot hp s t).theta = some th → KernSupp g th
    · obtain ⟨o, A', h1, h2, h3, h4, h5, h6, -⟩ := lkd_pieces H hi (hadm t h.1) (hallt t h.1) (fun th ht => GP.KernSupp.thSupp (h.2 th ht)) hR cc
      refine ⟨(o, A'), fun _ _ => ⟨h1, h2, ?_, h3, h4, h5, h6⟩⟩
      obtain ⟨o', ho', hk'⟩ := hC t h.1 true cc
      rw [lkdCov_eq, ho'] at h1; cases h1
      exact hk'
    · exact ⟨(out, A), fun h1 h2 => (h ⟨h1, h2⟩).elim⟩
  choose o ho using hex
  have hself : setSlot hp s y = hp := setSlot_self hy
  have hoy := ho y hy0 (by rw [hself]; exact hsupp)
  have hoy1 : (o y).1 = out := by
    have h1 := hoy.1
    rw [hself, hout] at h1; cases h1; rfl
  have hoy2 : (o y).2 = A := by
    have h1 := hoy.2.1
    rw [hself, hoy1, hA] at h1; cases h1; rfl
  have hyC : out.Kcov = C y := by rw [← hoy1]; exact hoy.2.2.1
  refine ⟨C, fun t => (o t).1, fun t => (o t).2, hCd, hyC, hoy1, hoy2, ?_⟩
  filter_upwards [hposE, hsuppE] with t ht hst
  obtain ⟨h1, h2, h3, h4, h5, h6, h7⟩ := ho t ht hst
  rw [h3] at h4 h5 h6 h7
  exact ⟨h4, h1, h3, h2, h5, h6, h7⟩

/-- The path where the factorisation succeeds. -/
theorem lkd_path {g : Gp} (H : LkdHyp g) {lo : LogOpts} {ok : Bool} {env : LkdEnv} (hi : setupHpIdx g lo ok = .ok env.info)
    {hp : HpVals} (hh : HpAdm g hp) (hall : ∀ s ∈ gpSlots g ok, ∃ y, getSlot hp s = some y ∧ 0 < y)
    (hsupp : ∀ th, hp.theta = some th → KernSupp g th) {R : Arr3} (hR : calcRtensor g.x g.x = .ok R) (cc : Bool)
    {out : CovOut g.nData} (hout : lkdCov g hp R cc = .ok out) {A : Arr3} (hA : kcovGradArr g env hp out.Kern R = .ok A)
    (hcond : cc = true → g.o.precon = false → condNum g.o out.Kcov < g.o.condMaxAbs)
    (h00 : cc = true → g.o.fro = true → ∀ h : 0 < g.nData, 1 < out.Kcov ⟨0, h⟩ ⟨0, h⟩)
    {p : ℕ} {s : Slot} (hps : (gpSlots g ok)[p]? = some s) {y : ℝ} (hy : getSlot hp s = some y) :
    ∃ (C : ℝ → Mat g.nData g.nData) (outs : ℝ → CovOut g.nData) (F : ℝ → ChoFac g.nData) (As : ℝ → Arr3),
      MDeriv C (slabMat A p) y ∧ out.Kcov = C y ∧ outs y = out ∧ As y = A ∧ ∀ᶠ t in nhds y, FacOf (F t) (C t) ∧
        lkdCov g (setSlot hp s t) R cc = .ok (outs t) ∧ (outs t).Kcov = C t ∧ (outs t).chofac = some (F t) ∧
        kcovGradArr g env (setSlot hp s t) (outs t).Kern R = .ok (As t) ∧
        (cc = true → g.o.fro = true → ∀ h : 0 < g.nData, 1 < C t ⟨0, h⟩ ⟨0, h⟩) := by
  obtain ⟨C, outs, As, hCd, hyC, hoy1, hoy2, hev⟩ := lkd_path0 H hi hh hall hsupp hR cc hout hA hps hy
  have hCpd : ∀ᶠ t in nhds y, (C t).PosDef := hev.mono fun t ht => ht.1
  have hnd : 0 < g.nData := by rw [H.ok.nData]; have := H.ne; omega
  have hcondE : ∀ᶠ t in nhds y, cc = true → g.o.precon = false → condNum g.o (C t) ≤ g.o.condMaxAbs := by
    by_cases hcc : cc = true ∧ g.o.precon = false
    · have h1 := hcond hcc.1 hcc.2
      rw [hyC] at h1
      filter_upwards [(condNum_cont g.o hnd hCpd hCd).eventually_lt_const h1] with t ht _ _
      exact ht.le
    · exact Filter.Eventually.of_forall fun t h1 h2 => (hcc ⟨h1, h2⟩).elim
  have h00E : ∀ᶠ t in nhds y, cc = true → g.o.fro = true → ∀ h : 0 < g.nData, 1 < C t ⟨0, h⟩ ⟨0, h⟩ := by
    by_cases hcc : cc = true ∧ g.o.fro = true
    · have h1 := h00 hcc.1 hcc.2 hnd
      rw [hyC] at h1
      filter_upwards [(hCd ⟨0, hnd⟩ ⟨0, hnd⟩).continuousAt.eventually_const_lt h1] with t ht _ _ _
      exact ht
    · exact Filter.Eventually.of_forall fun t h1 h2 => (hcc ⟨h1, h2⟩).elim
  have hFex : ∀ t, ∃ F, (∃ F', (outs t).chofac = some F') → (outs t).chofac = some F := by
    intro t
    by_cases h : ∃ F', (outs t).chofac = some F'
    · obtain ⟨F', hF'⟩ := h
      exact ⟨F', fun _ => hF'⟩
    · exact ⟨⟨0, true⟩, fun h' => (h h').elim⟩
  choose F hF using hFex
  refine ⟨C, outs, F, As, hCd, hyC, hoy1, hoy2, ?_⟩
  filter_upwards [hev, hcondE, h00E] with t ⟨h4, h1, h3, h2, h5, h6, _⟩ hct h0t
  have hFt := hF t (h6 hct)
  exact ⟨h5 _ hFt, h1, h3, hFt, h2, h0t⟩

/-! ### The likelihood at one hyperparameter vector -/

theorem setCond_ok (env : LkdEnv) (o : CondOpts) {b : ℕ} (li : LkdInfo b m) {K : Mat n n} {F : ChoFac n} (hF : FacOf F K)
    (dK : Fin m → Mat n n) (condK : Option ℝ) (cc : Bool) (hn : 0 < n) (hpre : cc = true → o.precon = false)
    (h00 : cc = true → o.fro = true → 1 < K ⟨0, hn⟩ ⟨0, hn⟩) :
    ∃ li', setCond env o li K (some F) (some dK) condK cc true = .ok li' ∧ li'.lnLkd = li.lnLkd ∧ li'.lnLkdGrad = li.lnLkdGrad ∧
      li'.varK = li.varK ∧ li'.beta = li.beta ∧
      (cc = true → ∃ c, condWGrad env.eig o K (some F) (some dK) = .ok c ∧ c.1 = condNum o K ∧ li'.cond = some c.1 ∧ li'.condGrad = c.2 ∧
        ∃ gr, c.2 = some gr) ∧ (cc = false → li'.cond = condK) := by
  unfold setCond
  cases cc with
  | false => exact ⟨_, rfl, rfl, rfl, rfl, rfl, fun h => (by cases h), fun _ => rfl⟩
  | true =>
    have hp := hpre rfl
    have hc : ∃ c, condWGrad env.eig o K (some F) (some dK) = .ok c ∧ c.1 = condNum o K ∧ ∃ gr, c.2 = some gr := by
      unfold condWGrad condNum
      cases hf : o.fro with
      | true =>
        refine ⟨_, by rw [hp]; simpa using Props.condFro_val hF hn (h00 rfl hf) (some dK), by simp [condFro], _, rfl⟩
      | false =>
        obtain ⟨g, h1, -, -, h4⟩ := Props.condL2_val env.eig o.precon hn K (some dK)
        obtain ⟨gr, hgr⟩ := Option.isSome_iff_exists.mp (h4 hp rfl)
        exact ⟨_, by simpa using h1, by simp, gr, hgr⟩
    obtain ⟨c, hc1, hc2, hc3⟩ := hc
    refine ⟨{ li with cond := some c.1, condGrad := c.2 }, ?_, rfl, rfl, rfl, rfl, fun _ => ⟨c, hc1, hc2, rfl, rfl, hc3⟩, fun h => by cases h⟩
    simp only [Bool.and_self, if_true, hc1, ok_bind, pure_eq_ok]

theorem lkdBody_ok {g : Gp} (env : LkdEnv) {y : Vec g.nData} {V : Mat g.nData nBetaCoeff} (hV : FullRank V) {F : ChoFac g.nData}
    {K : Mat g.nData g.nData} (hF : FacOf F K) (dK : Option (Fin env.info.nHp → Mat g.nData g.nData)) :
    ∃ li, lkdBody g env y V F dK = .ok li ∧ (∃ l, li.lnLkd = some l) ∧ (∀ d, dK = some d → ∃ gr, li.lnLkdGrad = some gr) := by
  unfold lkdBody
  cases g.noisy with
  | true =>
    obtain ⟨r, h1, -, -, h2, h3⟩ := Props.lkdWNoise_ok hF hV y dK env.lkd.useAdj
    exact ⟨r, by simpa using h1, ⟨_, h2⟩, fun d hd => by rw [h3, hd]; exact ⟨_, rfl⟩⟩
  | false =>
    obtain ⟨r, h1, -, -, -, h2, h3⟩ := Props.lkdWoNoise_ok env.lkd g.fval hF hV y dK env.lkd.useAdj
    exact ⟨r, by simpa using h1, ⟨_, h2⟩, fun d hd => by rw [h3, hd]; exact ⟨_, rfl⟩⟩

/-- `calc_lkd_all` when the factorisation succeeds. -/
theorem calcLkdAll_eval {g : Gp} (H : LkdHyp g) (env : LkdEnv) {hp : HpVals} {R : Arr3} (hR : calcRtensor g.x g.x = .ok R) {cc : Bool}
    {out : CovOut g.nData} (hout : lkdCov g hp R cc = .ok out) {A : Arr3} (hA : kcovGradArr g env hp out.Kern R = .ok A)
    {F : ChoFac g.nData} (hf : out.chofac = some F) (hF : FacOf F out.Kcov) {y : Vec g.nData} {V : Mat g.nData nBetaCoeff}
    (hd : lkdData g = .ok (y, V)) {li : LkdInfo nBetaCoeff env.info.nHp}
    (hli : lkdBody g env y V F (some (toSlabs env.info.nHp g.nData A)) = .ok li) {li' : LkdInfo nBetaCoeff env.info.nHp}
    (hsc : setCond env g.o li out.Kcov (some F) (some (toSlabs env.info.nHp g.nData A)) out.condK cc true = .ok li') :
    calcLkdAll g env hp cc true = .ok (li', true) := by
  unfold calcLkdAll
  simp only [hR, ok_bind, hout]
  unfold kcovGradIf
  simp only [if_true, hA, ok_bind, pure_eq_ok, hf, hd, hli, hsc]

/-- `calc_lkd_all` when the factorisation fails, without noise or with the spectral norm. -/
theorem calcLkdAll_fail {g : Gp} (env : LkdEnv) {hp : HpVals} {R : Arr3} (hR : calcRtensor g.x g.x = .ok R) {cc : Bool}
    {out : CovOut g.nData} (hout : lkdCov g hp R cc = .ok out) {A : Arr3} (hA : kcovGradArr g env hp out.Kern R = .ok A)
    (hf : out.chofac = none) (hcc : cc = true) (hno : g.noisy = false ∨ g.o.fro = false) {c : ℝ} {cg : Option (Vec env.info.nHp)}
    (hc : condL2WGrad env.eig g.o.precon out.Kcov (some (toSlabs env.info.nHp g.nData A)) = .ok (c, cg)) :
    calcLkdAll g env hp cc true = .ok ({ cond := some c, condGrad := cg }, false) := by
  unfold calcLkdAll
  simp only [hR, ok_bind, hout]
  unfold kcovGradIf
  simp only [if_true, hA, ok_bind, pure_eq_ok, hf, hc]
  cases hn : g.noisy with
  | false => simp
  | true =>
    have hfr : g.o.fro = false := hno.resolve_left (by simp [hn])
    simp only [if_true, setCond, hcc, Bool.and_self, condWGrad, hfr, Bool.false_eq_true, if_false, hc, ok_bind, pure_eq_ok]

end GP
