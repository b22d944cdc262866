import Verif.Props.RatQuadLimit
import Verif.Props.Contin
import Verif.Props.CoordUnits

/-! Claim theorems for C113: with a large shape parameter the rational quadratic model behaves as the squared-exponential model. -/

open Np GP Spec Matrix Filter Topology

noncomputable section

namespace Props

variable {ι : Type*} {l : Filter ι}

/-- The same object with the squared-exponential kernel. -/
def asSq (g : Gp) : Gp := { g with kernel := .sqExp }

/-- The hyperparameters with shape parameter `α`. -/
def withShape (hp : HpVals) (α : ℝ) : HpVals := { hp with kernel := some α }

section
variable {g : Gp} {hp : HpVals} {α : ι → ℝ}

theorem asSq_ok (hg : GpOk g) : GpOk (asSq g) :=
  ⟨hg.x_r, hg.x_c, hg.fval_n, hg.mask, hg.nGrad, hg.noMask, hg.nData, hg.grad_none, hg.grad_some, hg.std_fval, hg.std_fgrad, hg.fzero,
    hg.gzero, hg.noisy⟩

theorem asSq_adm (hh : HpAdm g hp) : HpAdm (asSq g) hp :=
  ⟨hh.theta, (fun h => by cases h), hh.vf_none, hh.vf_some, hh.vg_none, hh.vg_some⟩

theorem shape_adm (hh : HpAdm (asSq g) hp) {a : ℝ} (ha : 0 < a) : HpAdm g (withShape hp a) :=
  ⟨hh.theta, fun _ => ⟨a, ha, rfl⟩, hh.vf_none, hh.vf_some, hh.vg_none, hh.vg_some⟩

theorem rad_lim (hk : g.kernel = .ratQuad) (hα : Tendsto α l atTop) (hh : HpAdm (asSq g) hp) (r : ℕ → ℝ) (ox oy : Option ℕ) :
    Tendsto (fun k => radKG (prφ g.kernel (alphaOf g.kernel (withShape hp (α k)).kernel)) (prφ1 g.kernel (alphaOf g.kernel (withShape hp (α k)).kernel))
        (prφ2 g.kernel (alphaOf g.kernel (withShape hp (α k)).kernel)) g.dim (thF (withShape hp (α k))) r ox oy) l
      (𝓝 (radKG (prφ (asSq g).kernel (alphaOf (asSq g).kernel hp.kernel)) (prφ1 (asSq g).kernel (alphaOf (asSq g).kernel hp.kernel))
        (prφ2 (asSq g).kernel (alphaOf (asSq g).kernel hp.kernel)) (asSq g).dim (thF hp) r ox oy)) := by
  rw [hk]
  exact (radKG_tendsto (r := r) (fun d hd => (thF_pos hh d hd).le) ox oy).comp hα

theorem kern_lim (hg : GpOk g) (hk : g.kernel = .ratQuad) (hα : Tendsto α l atTop) (hα0 : ∀ k, 0 < α k) (hh : HpAdm (asSq g) hp)
    {K : ι → Mat g.nData g.nData} {K0 : Mat g.nData g.nData} (hK : ∀ k, IsKern g (withShape hp (α k)) (K k)) (hK0 : IsKern (asSq g) hp K0) :
    Tendsto K l (𝓝 K0) := by
  refine mat_tendsto fun p q => ?_
  rw [isKern_entry (asSq_ok hg) hh hK0 p q, show (fun k => K k p q) = fun k => kk g (withShape hp (α k)) p q from
    funext fun k => isKern_entry hg (shape_adm hh (hα0 k)) (hK k) p q]
  unfold kk
  exact rad_lim hk hα hh (fun d => dpt g p d - dpt g q d) (dco g p) (dco g q)

theorem noise_same (hg : GpOk g) {a : ℝ} {N N0 : Arr1} (hN : NoiseSpec g (withShape hp a) N) (hN0 : NoiseSpec (asSq g) hp N0) :
    toVec g.nData N = toVec g.nData N0 := by
  funext i
  unfold toVec
  have hi : (i : ℕ) < g.nEval + g.nGrad * g.dim := by rw [← hg.nData]; exact i.2
  rcases row_cases hi with h1 | ⟨j, b, hj, hb, he⟩
  · rw [hN.val i h1]
    exact (hN0.val i h1).symm
  · rw [he, hN.grad j hj b hb]
    exact (hN0.grad j hj b hb).symm

end

/-- **C113**, likelihood. Take an object with the rational quadratic kernel, and the same object with the squared-exponential kernel. As the
shape parameter grows, the likelihood and the mean chosen with it tend to those of the squared-exponential model with the same other
hyperparameters. (Without a condition-number test, or with the preconditioned method.) -/
theorem C113_likelihood {g : Gp} (hg : GpOk g) (hker : g.kernel = .ratQuad) {hp : HpVals} (hh : HpAdm { g with kernel := .sqExp } hp)
    (hk : g.useGrad = true ∨ g.knownFval = true) (hprec : g.o.precon = true → g.useGrad = true) (hne : 0 < g.nEval)
    (hη : if g.o.etaConst then 0 < g.o.etaK else 1 < g.o.condMaxTarget) (hv : g.noisy = true → ∃ v, hp.varK = some v ∧ 0 < v)
    (env : LkdEnv) (cc : Bool) (hcc : cc = true → g.o.precon = true) {α : ι → ℝ} (hα0 : ∀ k, 0 < α k) (hα : Tendsto α l atTop) :
    ∃ (L β : ι → ℝ) (L0 β0 : ℝ),
      (∀ k, ∃ li, calcLkdAll g env { hp with kernel := some (α k) } cc false = .ok (li, true) ∧ li.lnLkd = some (L k) ∧ li.beta = some fun _ => β k) ∧
      (∃ li, calcLkdAll { g with kernel := .sqExp } env hp cc false = .ok (li, true) ∧ li.lnLkd = some L0 ∧ li.beta = some fun _ => β0) ∧
      Tendsto L l (𝓝 L0) ∧ Tendsto β l (𝓝 β0) := by
  have hh' : HpAdm (asSq g) hp := hh
  choose L b c li okk h1 h2 h3 h4 using fun k => lkd_parts hg (shape_adm hh' (hα0 k)) hk hprec hne hη hv env cc
  obtain ⟨L0, b0, c0, li0, okk0, e1, e2, e3, e4⟩ := lkd_parts (asSq_ok hg) hh' hk hprec hne hη hv env cc
  have hno : cc = true → g.o.precon = false → ∀ x : ℝ, x ≤ g.o.condMaxAbs := fun a b => by rw [hcc a] at b; cases b
  have ho : ∀ k, okk k = true := fun k => (h3 k).mpr fun a b => hno a b _
  have ho0 : okk0 = true := e3.mpr fun a b => hno a b _
  subst ho0
  refine ⟨L, b, L0, b0, fun k => ⟨li k, by rw [← ho k]; exact h2 k, h4 k (ho k)⟩, ⟨li0, e2, e4 rfl⟩, ?_⟩
  choose v Na K out y V hkk using h1
  obtain ⟨v0, Na0, K0, out0, y0, V0, hk0⟩ := e1
  have hy : ∀ k, y k = y0 := fun k => data_unique hg (hkk k).data ⟨hk0.data.val, hk0.data.grad⟩
  have hV : ∀ k, V k = V0 := fun k => by
    ext q j
    rw [(hkk k).reg]
    exact (hk0.reg q j).symm
  have hvv : ∀ k, v k = v0 := fun k => by
    rw [(hkk k).var]
    exact hk0.var.symm
  have hN : ∀ k, toVec g.nData (Na k) = toVec g.nData Na0 := fun k => noise_same hg (hkk k).noise hk0.noise
  have hcov := (cov_tendsto (v := v) (by rw [show v = fun _ => v0 from funext hvv]; exact tendsto_const_nhds) hk0.vpos (kern_lim hg hker hα hα0 hh' (fun k => (hkk k).kern) hk0.kern)
    (N := fun k => toVec g.nData (Na k)) (by simp only [hN]; exact tendsto_const_nhds) hk0.diag hk0.nonneg (fun k => (hkk k).cov) hk0.cov).2
  refine ⟨?_, ?_⟩
  · rw [hk0.lkd]
    refine Tendsto.congr (fun k => (hkk k).lkd.symm) ?_
    simp only [hy, hV]
    show Tendsto _ l (𝓝 (if g.noisy then _ else _))
    split_ifs
    · exact ((logdet_tendsto hcov hk0.pd).add (rss_tendsto y0 hcov hk0.pd hk0.rank)).neg.div_const 2
    · exact lkdOf_tendsto y0 env.lkd g.fval hcov hk0.pd hk0.rank
  · rw [hk0.beta]
    refine Tendsto.congr (fun k => (hkk k).beta.symm) ?_
    simp only [hy, hV]
    exact vec_entry (gls_tendsto y0 hcov hk0.pd hk0.rank) ⟨0, Nat.one_pos⟩

/-- **C113**, predictions. As the shape parameter grows, the predicted mean and standard deviation, the gradient of the mean and, where the
limit of the standard deviation is not 0, the gradient of the standard deviation tend to those of the squared-exponential model with the same
other hyperparameters. -/
theorem C113_predictions {g : Gp} (hker : g.kernel = .ratQuad) {hp : HpVals} {v β : ℝ} (hr0 : Ready { g with kernel := .sqExp } hp v β)
    (hmask : fullMask g.bvec g.nEval) (hη : if g.o.etaConst then 0 < g.o.etaK else 1 < g.o.condMaxTarget) {r : ℕ} (hrr : 0 < r) (P : ℕ → Pt)
    {α : ι → ℝ} (hα0 : ∀ k, 0 < α k) (hα : Tendsto α l atTop) :
    ∃ (st : ι → EvalState g.nData) (st0 : EvalState g.nData) (out : ι → EvalOut r g.dim) (out0 : EvalOut r g.dim) (G H : ι → Mat r g.dim)
      (G0 H0 : Mat r g.dim),
      (∀ k, setupEvalModel g { hp with kernel := some (α k) } false = .ok (st k)) ∧ setupEvalModel { g with kernel := .sqExp } hp false = .ok st0 ∧
      (∀ k, evalModel g (st k) { hp with kernel := some (α k) } ⟨r, g.dim, P⟩ true false = .ok (out k)) ∧
      evalModel { g with kernel := .sqExp } st0 hp ⟨r, g.dim, P⟩ true false = .ok out0 ∧
      (∀ k, (out k).dmu = some (G k) ∧ (out k).dsig = some (H k)) ∧ out0.dmu = some G0 ∧ out0.dsig = some H0 ∧
      ∀ a, Tendsto (fun k => (out k).mu a) l (𝓝 (out0.mu a)) ∧ Tendsto (fun k => (out k).sig a) l (𝓝 (out0.sig a)) ∧
        ∀ i, Tendsto (fun k => G k a i) l (𝓝 (G0 a i)) ∧ (out0.sig a ≠ 0 → Tendsto (fun k => H k a i) l (𝓝 (H0 a i))) := by
  have hr0' : Ready (asSq g) hp v β := hr0
  have hg : GpOk g := ⟨hr0.ok.x_r, hr0.ok.x_c, hr0.ok.fval_n, hr0.ok.mask, hr0.ok.nGrad, hr0.ok.noMask, hr0.ok.nData, hr0.ok.grad_none,
    hr0.ok.grad_some, hr0.ok.std_fval, hr0.ok.std_fgrad, hr0.ok.fzero, hr0.ok.gzero, hr0.ok.noisy⟩
  have hh : HpAdm (asSq g) hp := hr0.adm
  have hr : ∀ k, Ready g (withShape hp (α k)) v β := fun k =>
    ⟨hg, shape_adm hh (hα0 k), hr0.noise, hr0.precon, hr0.ne, hr0.vpos, hr0.varK, hr0.beta, hr0.eta, fun _ => hmask⟩
  choose st hst hF using fun k => ready_total (hr k).toV hη
  obtain ⟨st0, hst0, hF0⟩ : ∃ st0 : EvalState g.nData, setupEvalModel (asSq g) hp false = .ok st0 ∧ st0.chofac ≠ none := ready_total hr0'.toV hη
  choose N K hs hN using fun k => ready_setup (hr k).toV (hst k)
  obtain ⟨N0, K0, hs0, -⟩ := ready_setup hr0'.toV hst0
  have hpd0 := ready_pd hs0 hF0
  have hd : ∀ k, (st k).dataVec = st0.dataVec := fun k => data_unique hg (hs k).data ⟨hs0.data.val, hs0.data.grad⟩
  have tM : Tendsto (fun k => (st k).KernEta) l (𝓝 st0.KernEta) := by
    choose Na hNa hN using fun k => (hs k).noise
    obtain ⟨Na0, hNa0, hN0⟩ := hs0.noise
    have tK := kern_lim hg hker hα hα0 hh (fun k => (hs k).isKern) hs0.isKern
    have eN : ∀ k, N k = N0 := fun k => (hN k).trans ((noise_same hg (hNa k) hNa0).trans hN0.symm)
    have tN : Tendsto N l (𝓝 N0) := by
      rw [show N = fun _ => N0 from funext eN]; exact tendsto_const_nhds
    have te : Tendsto (fun k => (st k).etaK) l (𝓝 st0.etaK) := by
      rw [hs0.etaEq]
      refine Tendsto.congr (fun k => (hs k).etaEq.symm) ?_
      exact eta_tendsto g.o (v := fun _ => 1) tendsto_const_nhds one_pos tK tN hs0.diag fun i => by rw [hN0]; exact NoiseSpec.nonneg (asSq_ok hg) hh hNa0 i
    rw [hs0.cov]
    refine Tendsto.congr (fun k => (hs k).cov.symm) (mat_tendsto fun i j => ?_)
    simp only [Matrix.add_apply, diagonal_apply, addDiag]
    refine (mat_entry tK i j).add ?_
    show Tendsto _ l (𝓝 (if i = j then (N0 i + st0.etaK * (if g.o.precon then K0 i i + N0 i else 1)) else 0))
    split_ifs
    · exact (vec_entry tN i).add (te.mul ((mat_entry tK i i).add (vec_entry tN i)))
    · exact (vec_entry tN i).add (te.mul tendsto_const_nhds)
    · exact tendsto_const_nhds
  have hMi := inv_tendsto tM hpd0.det_pos.ne'
  obtain ⟨w0, hw0⟩ : ∃ w0 : Vec g.nData, w0 = st0.KernEta⁻¹ *ᵥ (st0.dataVec - priorMean g β) := ⟨_, rfl⟩
  have hw : Tendsto (fun k => (st k).KernEta⁻¹ *ᵥ ((st k).dataVec - priorMean g β)) l (𝓝 w0) := by
    rw [hw0]
    refine mulVec_tendsto hMi ?_
    simp only [hd]
    exact tendsto_const_nhds
  have he0 : evalModel (asSq g) st0 hp ⟨r, g.dim, P⟩ true false = .ok (evalClosed (asSq g) hp st0.KernEta w0 β v ⟨r, g.dim, P⟩ true false) := by
    rw [hw0]
    exact ready_eval (X := ⟨r, g.dim, P⟩) hr0' hs0 hF0 rfl hrr true false noHess
  refine ⟨st, st0, fun k => evalClosed g (withShape hp (α k)) (st k).KernEta ((st k).KernEta⁻¹ *ᵥ ((st k).dataVec - priorMean g β)) β v ⟨r, g.dim, P⟩ true false,
    evalClosed (asSq g) hp st0.KernEta w0 β v ⟨r, g.dim, P⟩ true false, _, _, _, _, hst, hst0,
    fun k => ready_eval (hr k) (hs k) (hF k) rfl hrr true false noHess, he0, fun k => ⟨rfl, rfl⟩, rfl, rfl, ?_⟩
  intro a
  have hkv : Tendsto (fun k => kv g (withShape hp (α k)) (P a)) l (𝓝 (kv (asSq g) hp (P a))) := tendsto_pi_nhds.mpr fun q => by
    unfold kv
    exact rad_lim hker hα hh (fun d => dpt g q d - P a d) (dco g q) none
  have hkd : ∀ i : Fin g.dim, Tendsto (fun k => kd g (withShape hp (α k)) (P a) i) l (𝓝 (kd (asSq g) hp (P a) i)) := fun i => tendsto_pi_nhds.mpr fun q => by
    unfold kd
    exact rad_lim hker hα hh (fun d => dpt g q d - P a d) (dco g q) (some i)
  have hsig : Tendsto (fun k => sgF g (withShape hp (α k)) (st k).KernEta v (P a)) l (𝓝 (sgF (asSq g) hp st0.KernEta v (P a))) := by
    unfold sgF s2F
    exact ((Real.continuous_sqrt.tendsto _).comp (tendsto_const_nhds.sub (dot_tendsto hkv (mulVec_tendsto hMi hkv)))).mul tendsto_const_nhds
  refine ⟨?_, hsig, fun i => ⟨?_, fun hs0' => ?_⟩⟩
  · show Tendsto (fun k => muF g (withShape hp (α k)) _ β (P a)) l (𝓝 (muF (asSq g) hp _ β (P a)))
    unfold muF
    exact tendsto_const_nhds.add (dot_tendsto hkv hw)
  · show Tendsto (fun k => dmuF g (withShape hp (α k)) _ (P a) i) l (𝓝 (dmuF (asSq g) hp _ (P a) i))
    unfold dmuF
    exact dot_tendsto (hkd i) hw
  · show Tendsto (fun k => dsgF g (withShape hp (α k)) _ v (P a) i) l (𝓝 (dsgF (asSq g) hp _ v (P a) i))
    have e : ∀ (g : Gp) (q : HpVals) (M : Mat g.nData g.nData) (u : ℝ) (x : Pt) (i : ℕ), dsgF g q M u x i =
        -(sgF g q M u x)⁻¹ * ((kd g q x i ⬝ᵥ M⁻¹ *ᵥ kv g q x) * u) := by
      intro g q M u x i
      unfold dsgF
      split_ifs with hz
      · rw [one_div]
      · rw [not_not.mp hz]; simp
    rw [e (asSq g) hp st0.KernEta v (P a) i]
    simp only [e]
    exact ((hsig.inv₀ hs0').neg).mul ((dot_tendsto (hkd i) (mulVec_tendsto hMi hkv)).mul_const v)

/-! ### Concrete cases -/

/-- An object with noisy values and gradients and the rational quadratic kernel: shape parameters 1, 2, 3, .... -/
example (env : LkdEnv) : ∃ (L : ℕ → ℝ) (L0 : ℝ),
    (∀ k : ℕ, ∃ li, calcLkdAll exGpRq env { exHpRq with kernel := some ((k : ℝ) + 1) } true false = .ok (li, true) ∧ li.lnLkd = some (L k)) ∧
    (∃ li, calcLkdAll { exGpRq with kernel := .sqExp } env exHpRq true false = .ok (li, true) ∧ li.lnLkd = some L0) ∧ Tendsto L atTop (𝓝 L0) := by
  obtain ⟨L, β, L0, β0, h1, ⟨li, h2, h3, -⟩, h4, -⟩ := C113_likelihood exGpRq_ok rfl (asSq_adm exHpRq_adm) (.inl rfl) (fun _ => rfl) Nat.two_pos
    exGpRq_lkd.eta (fun _ => ⟨3, rfl, by norm_num⟩) env true (fun _ => rfl) (α := fun k : ℕ => (k : ℝ) + 1) (fun k => by positivity)
    (tendsto_atTop_add_const_right _ _ tendsto_natCast_atTop_atTop)
  exact ⟨L, L0, fun k => by obtain ⟨li, a, b, -⟩ := h1 k; exact ⟨li, a, b⟩, ⟨li, h2, h3⟩, h4⟩

/-- Objects with two values, and with a value and its gradient. -/
example := C113_predictions (g := { exGpQuiet with kernel := .ratQuad }) rfl (hp := exHpQuiet) (v := 3) (β := 4) exReadyQuiet rfl (by norm_num [exGpQuiet, exGp]) (r := 2)
  Nat.two_pos (fun a _ => a) (α := fun k : ℕ => (k : ℝ) + 1) (fun k => by positivity) (tendsto_atTop_add_const_right _ _ tendsto_natCast_atTop_atTop)
example := C113_predictions (g := { exGpOneG with kernel := .ratQuad }) rfl (hp := exHpOneG) (v := 3) (β := 4) exReadyOneG rfl (by norm_num [exGpOneG]) (r := 2)
  Nat.two_pos (fun a _ => a) (α := fun k : ℕ => (k : ℝ) + 1) (fun k => by positivity) (tendsto_atTop_add_const_right _ _ tendsto_natCast_atTop_atTop)

end Props
