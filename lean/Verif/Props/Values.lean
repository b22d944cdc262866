import Verif.Props.Invariance

/-! Property C82: how the predictions depend on the observed values. -/

open Np Spec GP Matrix

noncomputable section

namespace Props

theorem withValues_ready {g : Gp} {hp : HpVals} {v β₀ : ℝ} (hr : Ready g hp v β₀) {f : Arr1} {G : Option Arr2} (h : ValuesOk g f G)
    (β : ℝ) : Ready (withValues g f G) (withBeta hp β) v β :=
  { ok := { hr.ok with
      fval_n := h.1
      grad_none := fun hu => by
        have hu' : g.useGrad = false := hu
        have := h.2
        rw [hu'] at this
        rw [if_neg (by simp)] at this
        exact this
      grad_some := fun hu => by
        have hu' : g.useGrad = true := hu
        have := h.2
        rw [hu'] at this
        rw [if_pos rfl] at this
        exact this }
    adm := ⟨hr.adm.theta, hr.adm.kernel, hr.adm.vf_none, hr.adm.vf_some, hr.adm.vg_none, hr.adm.vg_some⟩
    noise := hr.noise
    precon := hr.precon
    ne := hr.ne
    vpos := hr.vpos
    varK := hr.varK
    beta := ⟨_, rfl, rfl, rfl⟩
    eta := hr.eta
    mask := hr.mask }

theorem _root_.GP.setup_values {g : Gp} {hp : HpVals} {v β₀ : ℝ} (hr : Ready g hp v β₀) {f : Arr1} {G : Option Arr2}
    (β : ℝ) {cc cc' : Bool} {N N' : Vec g.nData} {K K' : Mat g.nData g.nData} {st st' : EvalState g.nData}
    (hs : SetupSpec g hp β₀ cc N K st) (hs' : SetupSpec (withValues g f G) (withBeta hp β) β cc' N' K' st') :
    st'.etaK = st.etaK ∧ st'.KernEta = st.KernEta := by
  have hK : K' = K := isKern_unique hr.ok hr.adm (show IsKern g hp K' from hs'.isKern) hs.isKern
  have hN : N' = N := by
    obtain ⟨A, h1, rfl⟩ := hs.noise
    obtain ⟨B, h2, h3⟩ := hs'.noise
    exact isNoise_unique hr.ok (hp := hp) ⟨B, ⟨h2.n, h2.val, h2.grad⟩, fun i => congrFun h3 i⟩ ⟨A, h1, fun i => rfl⟩
  have hη : st'.etaK = st.etaK := by
    have e2 : st'.etaK = if g.o.etaConst then g.o.etaK else
      (⨆ i, ∑ j, |(if g.o.precon then corr (kwn 1 K' N') else K') i j|) / (g.o.condMaxTarget - 1) := hs'.etaEq
    rw [hs.etaEq, e2, hK, hN]
  refine ⟨hη, ?_⟩
  have e2 : st'.KernEta = K' + diagonal (fun i => N' i + st'.etaK * (if g.o.precon then K' i i + N' i else 1)) := hs'.cov
  rw [hs.cov, e2, hη, hK, hN]
  rfl

/-- **C82** The standard deviation depends neither on the observed values and gradients nor on the prior mean: with
other values at the same points and another prior mean the nugget, the standard deviations and their gradients are the same. -/
theorem C82_sigma {g : Gp} {hp : HpVals} {v β₀ : ℝ} (hr : Ready g hp v β₀) {f : Arr1} {G : Option Arr2} (h : ValuesOk g f G)
    (β : ℝ) {cc cc' : Bool} {st : EvalState g.nData} {st' : EvalState g.nData}
    (hst : setupEvalModel g hp cc = .ok st) (hst' : setupEvalModel (withValues g f G) (withBeta hp β) cc' = .ok st')
    (hF : st.chofac ≠ none) (hF' : st'.chofac ≠ none) {X : Arr2} (hX : X.c = g.dim) (hXr : 0 < X.r) (cg : Bool) :
    st'.etaK = st.etaK ∧ ∃ out out' : EvalOut X.r g.dim, evalModel g st hp X cg false = .ok out ∧
      evalModel (withValues g f G) st' (withBeta hp β) X cg false = .ok out' ∧ out'.sig = out.sig ∧ out'.dsig = out.dsig := by
  obtain ⟨N, K, hs, -⟩ := ready_setup hr.toV hst
  have hr' := withValues_ready hr h β
  obtain ⟨N', K', hs', -⟩ := ready_setup hr'.toV hst'
  obtain ⟨hη, hM⟩ := setup_values hr β hs hs'
  refine ⟨hη, _, _, ready_eval hr hs hF hX hXr cg false noHess, ready_eval hr' hs' hF' hX hXr cg false noHess, ?_, ?_⟩
  · show (fun a : Fin X.r => sgF g hp st'.KernEta v (X.get a)) = fun a : Fin X.r => sgF g hp st.KernEta v (X.get a)
    rw [hM]
  · show (if cg then some (of fun (a : Fin X.r) (i : Fin g.dim) => dsgF g hp st'.KernEta v (X.get a) i) else none) =
      (if cg then some (of fun (a : Fin X.r) (i : Fin g.dim) => dsgF g hp st.KernEta v (X.get a) i) else none)
    rw [hM]

/-- **C82** The mean is a linear function of the data and the prior mean: with the values, gradients and prior mean being `a` times
one set plus `b` times another, the means and their gradients are `a` times the one plus `b` times the other. In
particular (`b = 1 - a` and equal prior means) it is affine in the observed data. -/
theorem C82_mean_linear {g : Gp} {hp : HpVals} {v β₀ : ℝ} (hr : Ready g hp v β₀) {f₁ f₂ f : Arr1} {G₁ G₂ G : Option Arr2}
    (h₁ : ValuesOk g f₁ G₁) (h₂ : ValuesOk g f₂ G₂) (h : ValuesOk g f G) {a b : ℝ} (hc : Combined g a b f₁ f₂ f G₁ G₂ G) (β₁ β₂ : ℝ)
    {cc : Bool} {st₁ : EvalState g.nData} {st₂ : EvalState g.nData}
    {st : EvalState g.nData}
    (hst₁ : setupEvalModel (withValues g f₁ G₁) (withBeta hp β₁) cc = .ok st₁)
    (hst₂ : setupEvalModel (withValues g f₂ G₂) (withBeta hp β₂) cc = .ok st₂)
    (hst : setupEvalModel (withValues g f G) (withBeta hp (a * β₁ + b * β₂)) cc = .ok st)
    (hF₁ : st₁.chofac ≠ none) (hF₂ : st₂.chofac ≠ none) (hF : st.chofac ≠ none) {X : Arr2} (hX : X.c = g.dim) (hXr : 0 < X.r) :
    ∃ (o₁ o₂ o : EvalOut X.r g.dim) (d₁ d₂ d : Mat X.r g.dim),
      evalModel (withValues g f₁ G₁) st₁ (withBeta hp β₁) X true false = .ok o₁ ∧
      evalModel (withValues g f₂ G₂) st₂ (withBeta hp β₂) X true false = .ok o₂ ∧
      evalModel (withValues g f G) st (withBeta hp (a * β₁ + b * β₂)) X true false = .ok o ∧
      (∀ p, o.mu p = a * o₁.mu p + b * o₂.mu p) ∧ o₁.dmu = some d₁ ∧ o₂.dmu = some d₂ ∧ o.dmu = some d ∧
      ∀ p i, d p i = a * d₁ p i + b * d₂ p i := by
  obtain ⟨bb, hb1, hb2, hb3⟩ := hr.beta
  obtain ⟨N₀, K₀, st₀, hst₀, hs₀⟩ := setup_ok hr.ok hr.adm hr.noise hr.precon hr.ne hr.vpos hr.varK hb1 hb2 false
  rw [hb3] at hs₀
  have hr₁ := withValues_ready hr h₁ β₁
  have hr₂ := withValues_ready hr h₂ β₂
  have hr₃ := withValues_ready hr h (a * β₁ + b * β₂)
  obtain ⟨N₁, K₁, hs₁, -⟩ := ready_setup hr₁.toV hst₁
  obtain ⟨N₂, K₂, hs₂, -⟩ := ready_setup hr₂.toV hst₂
  obtain ⟨N₃, K₃, hs, -⟩ := ready_setup hr₃.toV hst
  have hM₁ := (setup_values hr β₁ hs₀ hs₁).2
  have hM₂ := (setup_values hr β₂ hs₀ hs₂).2
  have hM := (setup_values hr (a * β₁ + b * β₂) hs₀ hs).2
  have hdat : st.dataVec - priorMean g (a * β₁ + b * β₂) = a • (st₁.dataVec - priorMean g β₁) + b • (st₂.dataVec - priorMean g β₂) := by
    funext q
    have hq : (q : ℕ) < g.nEval + g.nGrad * g.dim := by rw [← hr.ok.nData]; exact q.2
    show st.dataVec q - priorMean g _ q = a * (st₁.dataVec q - priorMean g _ q) + b * (st₂.dataVec q - priorMean g _ q)
    rcases row_cases hq with hv | ⟨i, r, hi, hra, he⟩
    · rw [hs.data.val q hv, hs₁.data.val q hv, hs₂.data.val q hv]
      simp only [priorMean, hv, if_true]
      show f.get q - _ = a * (f₁.get q - _) + b * (f₂.get q - _)
      rw [hc.1 q hv]; ring
    · have hu : g.useGrad = true := by
        by_contra hu
        have := hr.ok.nGrad
        simp only [hu, Bool.false_eq_true, if_false] at this
        omega
      have hn : ¬ (q : ℕ) < g.nEval := by omega
      obtain ⟨A, hA, -⟩ := hr₃.ok.grad_some hu
      obtain ⟨A₁, hA₁, -⟩ := hr₁.ok.grad_some hu
      obtain ⟨A₂, hA₂, -⟩ := hr₂.ok.grad_some hu
      rw [hs.data.grad A hA q i hi r hra he, hs₁.data.grad A₁ hA₁ q i hi r hra he, hs₂.data.grad A₂ hA₂ q i hi r hra he]
      simp only [priorMean, hn, if_false]
      rw [hc.2 A₁ A₂ A hA₁ hA₂ hA r hra i hi]; ring
  have hw : ∀ u : Vec g.nData, u ⬝ᵥ st₀.KernEta⁻¹ *ᵥ (st.dataVec - priorMean g (a * β₁ + b * β₂)) =
      a * (u ⬝ᵥ st₀.KernEta⁻¹ *ᵥ (st₁.dataVec - priorMean g β₁)) + b * (u ⬝ᵥ st₀.KernEta⁻¹ *ᵥ (st₂.dataVec - priorMean g β₂)) := by
    intro u
    rw [hdat, mulVec_add, mulVec_smul, mulVec_smul, dotProduct_add, dotProduct_smul, dotProduct_smul]
    rfl
  refine ⟨_, _, _, _, _, _, ready_eval hr₁ hs₁ hF₁ hX hXr true false noHess, ready_eval hr₂ hs₂ hF₂ hX hXr true false noHess,
    ready_eval hr₃ hs hF hX hXr true false noHess, ?_, rfl, rfl, rfl, ?_⟩
  · intro p
    show (a * β₁ + b * β₂) + kv g hp (X.get p) ⬝ᵥ st.KernEta⁻¹ *ᵥ (st.dataVec - priorMean g (a * β₁ + b * β₂)) =
      a * (β₁ + kv g hp (X.get p) ⬝ᵥ st₁.KernEta⁻¹ *ᵥ (st₁.dataVec - priorMean g β₁)) +
      b * (β₂ + kv g hp (X.get p) ⬝ᵥ st₂.KernEta⁻¹ *ᵥ (st₂.dataVec - priorMean g β₂))
    rw [hM, hM₁, hM₂, hw]
    ring
  · intro p i
    show kd g hp (X.get p) i ⬝ᵥ st.KernEta⁻¹ *ᵥ (st.dataVec - priorMean g (a * β₁ + b * β₂)) =
      a * (kd g hp (X.get p) i ⬝ᵥ st₁.KernEta⁻¹ *ᵥ (st₁.dataVec - priorMean g β₁)) +
      b * (kd g hp (X.get p) i ⬝ᵥ st₂.KernEta⁻¹ *ᵥ (st₂.dataVec - priorMean g β₂))
    rw [hM, hM₁, hM₂, hw]

-- C82: other values and gradients for the masked, noisy example
example : ValuesOk exGp ⟨2, fun p => 7 * p⟩ (some ⟨1, 2, fun _ i => i - 3⟩) ∧
    Combined exGp 2 (-1) exGp.fval exGp.fval exGp.fval exGp.grad exGp.grad exGp.grad :=
  ⟨⟨rfl, _, rfl, rfl, rfl⟩, fun p _ => by ring, fun A₁ A₂ A h1 h2 h3 r _ i _ => by
    cases (h1.symm.trans h2); cases (h1.symm.trans h3); ring⟩

end Props
