import Verif.Props.GaussProc

/-! Hyperparameters used before any optimisation (C67), and concrete cases for the theorems on `set_data` and
`set_wellcond_mtd` (C62, C63, C65). -/

open Np GP Spec

noncomputable section

namespace Props

/-- Scaling replaces the points, values, gradients and standard deviations only. -/
theorem sclView_fields {g0 g : Gp} {s : Scl} (h : sclView g0 s = .ok g) :
    ∃ v a b c, g = { g0 with x := s.xScl, fval := v, stdFval := a, grad := b, stdGrad := c } := by
  unfold sclView at h
  cases hq : objInit2Scl s { mu := some g0.fval, sig := g0.stdFval, dmu := g0.grad, dsig := g0.stdGrad } with
  | error e => rw [hq] at h; cases h
  | ok r =>
    rw [hq] at h
    simp only [ok_bind] at h
    split at h
    · cases h; exact ⟨_, _, _, _, rfl⟩
    · cases h

/-- What the likelihood and evaluation code sees of the configuration, flags and counters, with or without data scaling. -/
theorem loaded_fields {d : DataIn} {o o' : GpObj} (hL : Loaded d o o') (hC : Consistent o.st.dim o.st.useGrad d)
    (hX : PointsFit o.st.dim d) (hu : o.useScl = true → o.st.useGrad = true) {g : Gp} (hg : o'.view = .ok g) :
    GpOk g ∧ g.dim = o.st.dim ∧ g.useGrad = o.st.useGrad ∧ g.kernel = o.st.kernel ∧ g.nEval = d.fval.size ∧
      g.knownFval = o'.knownFval ∧ g.knownFgrad = o'.knownFgrad ∧ g.o = o'.condOpts ∧ g.bvec = d.bvec := by
  obtain ⟨g0, g', h0, h1, -, hok, hs0, hs1, h2, h3, h4, h5, h6, h7, h8, h9⟩ := loaded_view hL hC hX hu
  rw [h1] at hg
  cases hg
  refine ⟨hok, ?_⟩
  cases hs : o.useScl with
  | false => rw [hs0 hs]; exact ⟨h2, h3, h4, h5, h6, h7, h8, h9⟩
  | true =>
    obtain ⟨s, -, -, -, -, hv⟩ := hs1 hs
    obtain ⟨_, _, _, _, rfl⟩ := sclView_fields hv
    exact ⟨h2, h3, h4, h5, h6, h7, h8, h9⟩

theorem cfg_scl_grad {st : GpStatic} {o : GpObj} (hcfg : CfgOk st o) : o.useScl = true → st.useGrad = true := by
  intro h
  by_contra hu
  rw [Bool.not_eq_true] at hu
  rw [hcfg.scl, hcfg.base hu] at h
  cases h

theorem reach_scl_grad {st : GpStatic} {o : GpObj} (hr : GpReach st o) : o.useScl = true → st.useGrad = true := cfg_scl_grad (reach_cfgOk hr)

/-- The initial values in the options of the class are admissible. -/
structure InitOk (st : GpStatic) : Prop where
  theta : 0 < st.thetaInit
  varK : 0 < st.varKInit
  varFval : 0 ≤ st.varFvalInit
  varFgrad : 0 ≤ st.varFgradInit

theorem init_cfg {st : GpStatic} {o o' : GpObj} (hcfg : CfgOk st o) (hi : InitOk st) {d : DataIn} (hX : PointsFit st.dim d)
    (h : setData d o = (o', .ok ())) {g : Gp} (hg : o'.view = .ok g) :
    HpAdm g (getInitHp st g) ∧
    (∃ v, (getInitHp st g).varK = some v ∧ 0 < v) ∧
    (∃ th, (getInitHp st g).theta = some th ∧ th.n = st.dim ∧ ∀ i < th.n, 0 < th.get i) ∧
    (∀ lo hi, hpKernelRange st.kernel = some (lo, hi) → ∃ a, (getInitHp st g).kernel = some a ∧ lo ≤ a ∧ a ≤ hi) ∧
    (∃ b, (getInitHp st g).beta = some b ∧ b.n = 1 ∧ g.nEval * b.get 0 = ∑ a ∈ Finset.range g.nEval, g.fval.get a) ∧
    ((getInitHp st g).varFval.isSome = true ↔ NoiseUnknown d.stdFval) ∧
    ((getInitHp st g).varFgrad.isSome = true ↔ (st.useGrad = true ∧ NoiseUnknown d.stdGrad)) := by
  obtain ⟨hL, hC, -⟩ := setData_loaded h
  have hst : o.st = st := hcfg.eq
  subst hst
  obtain ⟨hok, h1, h2, h3, h4, h5, h6, h7, h8⟩ := loaded_fields hL hC hX (cfg_scl_grad hcfg) hg
  obtain ⟨c1, -, -, c4, c5, -⟩ := C63_classification h
  refine ⟨⟨⟨_, rfl, h1.symm, fun _ _ => hi.theta⟩, ?_, ?_, ?_, ?_, ?_⟩, ⟨_, rfl, hi.varK⟩, ⟨_, rfl, rfl, fun _ _ => hi.theta⟩, ?_, ⟨_, rfl, rfl, ?_⟩, ?_, ?_⟩
  · intro hk
    rw [h3] at hk
    refine ⟨2, by norm_num, ?_⟩
    show hpKernelDefault o.st.kernel = _
    rw [hk]
    simp [hpKernelDefault, ratQuadDefault]
  · intro hk; simp [getInitHp, hk]
  · intro hk; exact ⟨_, by simp [getInitHp, hk], hi.varFval⟩
  · intro _ hk; simp [getInitHp, hk]
  · intro hu hk; exact ⟨_, by simp [getInitHp, hk, h2 ▸ hu], hi.varFgrad⟩
  · intro lo hi hlh
    show ∃ a, hpKernelDefault o.st.kernel = _ ∧ _
    cases hk : o.st.kernel <;> rw [hk] at hlh <;> simp only [hpKernelRange, ratQuadRange] at hlh
    · cases hlh
    · cases hlh
    · obtain ⟨rfl, rfl⟩ := Prod.mk.injEq _ _ _ _ ▸ Option.some.inj hlh
      exact ⟨_, rfl, by norm_num [ratQuadDefault], by norm_num [ratQuadDefault]⟩
  · show (g.nEval : ℝ) * arrMean g.fval = _
    unfold arrMean
    rw [hok.fval_n]
    by_cases h0 : g.nEval = 0
    · rw [h0]; simp
    · field_simp
  · rw [← c1, ← h5]
    cases hk : g.knownFval <;> simp [getInitHp, hk]
  · cases hu : o.st.useGrad with
    | false => simp [getInitHp, hu]
    | true =>
      rw [← (c4 hu).1, ← h6]
      cases hk : g.knownFgrad <;> simp [getInitHp, hk, hu]

/-- **C67 (partial).** For every object that a program can have and every data set that it accepts (with points of the right shape),
the initial hyperparameters are admissible for the data as the likelihood code sees them (`HpAdm`: one positive `theta` per
coordinate, a positive kernel parameter if the kernel has one, noise variances exactly where the noise is unknown); the prior
variance is positive; the kernel parameter lies in the admissible range; and there is one mean coefficient, the mean of the values.
(Missing: positive noise variances, which is false, `C67_zero_noise`.) -/
theorem C67_init_partial {st : GpStatic} {o o' : GpObj} (hr : GpReach st o) (hi : InitOk st) {d : DataIn} (hX : PointsFit st.dim d)
    (h : setData d o = (o', .ok ())) {g : Gp} (hg : o'.view = .ok g) :
    HpAdm g (getInitHp st g) ∧
    (∃ v, (getInitHp st g).varK = some v ∧ 0 < v) ∧
    (∃ th, (getInitHp st g).theta = some th ∧ th.n = st.dim ∧ ∀ i < th.n, 0 < th.get i) ∧
    (∀ lo hi, hpKernelRange st.kernel = some (lo, hi) → ∃ a, (getInitHp st g).kernel = some a ∧ lo ≤ a ∧ a ≤ hi) ∧
    (∃ b, (getInitHp st g).beta = some b ∧ b.n = 1 ∧ g.nEval * b.get 0 = ∑ a ∈ Finset.range g.nEval, g.fval.get a) ∧
    ((getInitHp st g).varFval.isSome = true ↔ NoiseUnknown d.stdFval) ∧
    ((getInitHp st g).varFgrad.isSome = true ↔ (st.useGrad = true ∧ NoiseUnknown d.stdGrad)) :=
  init_cfg (reach_cfgOk hr) hi hX h hg

/-- **C67 is false for the noise variances.** With the options of the class as they are, unknown noise in the values gets the initial
variance zero, which is not positive and lies outside of `hp_var_fval_range = [1e-8, 1e8]`. -/
theorem C67_zero_noise {st : GpStatic} {o o' : GpObj} (hr : GpReach st o) (hi : st.varFvalInit = 0) {d : DataIn} (hX : PointsFit st.dim d)
    (h : setData d o = (o', .ok ())) (hu : NoiseUnknown d.stdFval) {g : Gp} (hg : o'.view = .ok g) :
    (getInitHp st g).varFval = some 0 := by
  obtain ⟨hL, hC, -⟩ := setData_loaded h
  have hst : o.st = st := (reach_cfgOk hr).eq
  subst hst
  obtain ⟨-, -, -, -, -, h5, -⟩ := loaded_fields hL hC hX (reach_scl_grad hr) hg
  have := (C63_classification h).1.mpr hu
  simp [getInitHp, h5, this, hi]

/-- The nugget in use is positive after a successful `set_data`. -/
theorem loaded_eta_pos {d : DataIn} {o o' : GpObj} (hL : Loaded d o o') (hst : NugOk o.st) (hn : 0 < d.fval.size) : 0 < o'.etaK := by
  obtain ⟨b, e, h1, h2, -, h3, -⟩ := C23_nugget o.nugOpts hn hst.1 hst.2.1 hst.2.2
  rw [hL.eta] at h1
  simp only [Except.ok.injEq, Prod.mk.injEq] at h1
  obtain ⟨rfl, rfl⟩ := h1
  have hk := hL.etaK
  cases hu : o.st.useGrad with
  | false =>
    rw [hu] at hk
    simp only [Bool.false_eq_true, if_false] at hk
    rw [hk]; exact h2
  | true =>
    rw [hu, if_pos rfl] at hk
    obtain ⟨x, hx1, hx2⟩ := h3 hu
    rw [hk] at hx1
    cases hx1
    linarith

theorem initReady_cfg {st : GpStatic} {o o' : GpObj} (hcfg : CfgOk st o) (hi : InitOk st) (hst : NugOk st) {d : DataIn} (hX : PointsFit st.dim d)
    (hn : 0 < d.fval.size) (h : setData d o = (o', .ok ())) (hk : st.useGrad = true ∨ ∃ S, NoiseKnown d.stdFval S)
    (hm : st.kernel = .ratQuad → numGrads d = d.fval.size) {g : Gp} (hg : o'.view = .ok g) :
    Ready g (getInitHp st g) st.varKInit (arrMean g.fval) := by
  have hA := (init_cfg hcfg hi hX h hg).1
  obtain ⟨hL, hC, -⟩ := setData_loaded h
  have hst' : o.st = st := hcfg.eq
  subst hst'
  obtain ⟨hok, h1, h2, h3, h4, h5, h6, h7, h8⟩ := loaded_fields hL hC hX (cfg_scl_grad hcfg) hg
  refine ⟨hok, hA, ?_, ?_, by omega, hi.varK, rfl, ⟨_, rfl, rfl, rfl⟩, ?_, fun h => ?_⟩
  · rcases hk with hk | ⟨S, hS⟩
    · left; rw [h2]; exact hk
    · right
      rw [h5]
      by_contra hc
      rw [Bool.not_eq_true] at hc
      have := (C63_classification h).1.mp hc S hS.1
      obtain ⟨k, hk1, hk2⟩ := this
      exact hS.2 k hk1 hk2
  · rw [h7, h2]
    intro hp
    by_contra hu
    rw [Bool.not_eq_true] at hu
    simp only [GpObj.condOpts, hL.mtd, hcfg.base hu] at hp
    cases hp
  · rw [h7]
    show if o'.etaConst then 0 ≤ o'.etaK else 1 < o'.st.condMaxTarget
    split
    · exact (loaded_eta_pos hL hst hn).le
    · rw [hL.st]; exact hst.2.1
  · rw [h8, h4]; exact full_of_grads (hm (h3 ▸ h))

/-- The initial hyperparameters are ready for prediction. -/
theorem C67_ready {st : GpStatic} {o o' : GpObj} (hr : GpReach st o) (hi : InitOk st) (hst : NugOk st) {d : DataIn} (hX : PointsFit st.dim d)
    (hn : 0 < d.fval.size) (h : setData d o = (o', .ok ())) (hk : st.useGrad = true ∨ ∃ S, NoiseKnown d.stdFval S)
    (hm : st.kernel = .ratQuad → numGrads d = d.fval.size) {g : Gp} (hg : o'.view = .ok g) :
    Ready g (getInitHp st g) st.varKInit (arrMean g.fval) :=
  initReady_cfg (reach_cfgOk hr) hi hst hX hn h hk hm hg

/-! ### Concrete cases -/

theorem newGp_total (st : GpStatic) {s : String} (hs : s ∈ wcAvail) : ∃ o, newGp st (some s) = .ok o := by
  obtain ⟨m, hm⟩ := parse_total hs
  exact ⟨_, by unfold newGp setWellcond; rw [show (some s).bind WcMtd.parse = some m from hm]⟩

/-- A rational quadratic kernel in two dimensions with gradients; the options as in the class. -/
def exStatic : GpStatic := { dim := 2, useGrad := true, kernel := .ratQuad }

theorem exStatic_ok : NugOk exStatic ∧ InitOk exStatic := by
  refine ⟨⟨by decide, ?_, Or.inl rfl⟩, ⟨?_, ?_, ?_, ?_⟩⟩
  · show (1 : ℝ) < 10 ^ 10; norm_num
  · show (0 : ℝ) < 1 / 100; norm_num
  · show (0 : ℝ) < 1; norm_num
  · show (0 : ℝ) ≤ 0; norm_num
  · show (0 : ℝ) ≤ 0; norm_num

/-- Three points with gradients; noise-free gradients, unknown noise in the values (one of the standard deviations is NaN). -/
def exData : DataIn where
  x := Nd.of2 3 2 fun i j => i * j
  fval := Nd.of1 3 fun i => i
  stdFval := some (Nd.of1 3 fun i => if i = 1 then none else some 1)
  grad := some (Nd.of2 3 2 fun i j => i + j)
  stdGrad := some (Nd.of2 3 2 fun _ _ => some 0)

theorem exData_consistent : Consistent 2 true exData := by
  refine ⟨rfl, (fun b h => by cases h), rfl, fun G hG => ?_, fun S hS => ?_, fun _ S hS => ?_⟩
  · cases hG; rfl
  · have := hS.1; cases this; rfl
  · have := hS.1; cases this; rfl

theorem exData_noise : NoiseUnknown exData.stdFval ∧ NoiseZero exData.stdGrad := by
  constructor
  · intro S hS; cases hS
    exact ⟨1, by decide, by simp [Nd.flat, Nd.of1, unravel]⟩
  · refine ⟨_, ⟨rfl, fun k _ => ?_⟩, fun k _ => ⟨0, rfl, by norm_num⟩⟩
    show (some (0 : ℝ)) ≠ none
    simp

/-- `set_data` accepts these data on an object of any method (also those that scale), and the initial hyperparameters are ready for
prediction. -/
theorem exData_accepted {s : String} (hs : s ∈ wcAvail) :
    ∃ o o' g, newGp exStatic (some s) = .ok o ∧ setData exData o = (o', .ok ()) ∧ o'.view = .ok g ∧
      Ready g (getInitHp exStatic g) 1 (arrMean g.fval) ∧ (getInitHp exStatic g).varFval = some 0 ∧ (getInitHp exStatic g).varFgrad = none := by
  obtain ⟨o, ho⟩ := newGp_total exStatic hs
  have hr : GpReach exStatic o := .new ho
  obtain ⟨o', g, h1, -, -, h2, -⟩ := C62_accepts hr exStatic_ok.1 exData_consistent rfl (by decide)
    (fun _ S hS => by decide) (fun _ S hS => by cases hS; rfl)
  have hX : PointsFit exStatic.dim exData := rfl
  refine ⟨o, o', g, ho, h1, h2, C67_ready hr exStatic_ok.2 exStatic_ok.1 hX (by decide) h1 (Or.inl rfl) (fun _ => rfl) h2,
    C67_zero_noise hr rfl hX h1 exData_noise.1 h2, ?_⟩
  have := (C67_init_partial hr exStatic_ok.2 hX h1 h2).2.2.2.2.2.2
  cases hv : (getInitHp exStatic g).varFgrad with
  | none => rfl
  | some v =>
    rw [hv] at this
    obtain ⟨S, hS, -⟩ := exData_noise.2
    obtain ⟨k, hk1, hk2⟩ := (this.mp rfl).2 S hS.1
    exact absurd hk2 (hS.2 k hk1)

/-- C62: points with three rows and seven columns are accepted for two values in one dimension, with known and negative standard
deviations, which make the data noise-free. -/
example : ∃ (d : DataIn) (o o' : GpObj), newGp { dim := 1, useGrad := false, kernel := .sqExp } (some "precon") = .ok o ∧
    d.x.shape = [3, 7] ∧ d.fval.size = 2 ∧ setData d o = (o', .ok ()) ∧ (∀ g, o'.view = .ok g → ¬ GpOk g) ∧ o'.knownFval = true ∧
    o'.fvalZero = true := by
  let st : GpStatic := { dim := 1, useGrad := false, kernel := .sqExp }
  let d : DataIn := { x := Nd.of2 3 7 fun i j => i + j, fval := Nd.of1 2 fun i => i, stdFval := some (Nd.of1 2 fun _ => some (-1)) }
  have hC : Consistent st.dim st.useGrad d :=
    ⟨rfl, (fun b h => by cases h), rfl, (fun G hG => by cases hG), fun S hS => by have := hS.1; cases this; rfl, (fun h => by cases h)⟩
  have hst : NugOk st := ⟨by decide, by show (1 : ℝ) < 10 ^ 10; norm_num, Or.inl rfl⟩
  obtain ⟨o, ho⟩ := newGp_total st (s := "precon") (by decide)
  have hr : GpReach st o := .new ho
  have hs : o.useScl = false := by
    by_contra h
    rw [Bool.not_eq_false] at h
    exact absurd (reach_scl_grad hr h) (by decide)
  obtain ⟨o', h1, h2⟩ := C62_points_unchecked hr hst hs hC (by decide) (fun h => by cases h) (r := 3) (c := 7) rfl (by decide)
  obtain ⟨h3, h4⟩ := C62_negative_noise h1 (S := Nd.of1 2 fun _ => some (-1)) rfl (fun k _ => ⟨-1, rfl, by norm_num⟩)
  exact ⟨d, o, o', ho, rfl, rfl, h1, h2 (Or.inl (by decide)), h3, h4⟩

/-- C65: every new object has a constant nugget unless it was created with `rescale_eta_vary`, so the hypothesis of `C65_sticky` is met. -/
example (st : GpStatic) : ∃ o, newGp st (some "base") = .ok o ∧ o.etaConst = true ∧
    (requests [some "rescale_eta_vary", some "precon"] o).etaConst = false ∧ (requests [some "precon"] o).etaConst = true := by
  have h : newGp st (some "base") = .ok (applyWellcond .base { st := st, mtd := .base, etaConst := true, useCstr := true, useScl := false }) := rfl
  exact ⟨_, h, rfl, C65_sticky _ rfl (by decide) (by decide)⟩

end Props
