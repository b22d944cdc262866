import Verif.Spec.PredictSpec
import Verif.Props.Protocol
import Verif.Props.EvalScl

/-! Prediction through the methods of the object: C44 (session level), C74. -/

open Np GP Spec Matrix

noncomputable section

namespace Props

/-! ### The configuration of an object that a program has -/

theorem store_obj (i : ℤ) (a : StoreArgs) (s : Session) :
    ∃ kf kg, (s.store i a).1.obj = { s.obj with knownFval := kf, knownFgrad := kg } := ⟨_, _, rfl⟩

theorem selectHp_obj (c : OptzCfg) (q : Oracle) (m : String) (i : ℤ) (hp : Option HpF) (s : Session) :
    ∃ sc kf kg, (selectHp c q m i hp s).1.obj = { s.obj with scl := sc, knownFval := kf, knownFgrad := kg } := by
  have h0 : ∀ {t : Session} {sc : Option Scl}, t.obj = { s.obj with scl := sc } →
      ∃ sc kf kg, t.obj = { s.obj with scl := sc, knownFval := kf, knownFgrad := kg } := fun {t sc} h => ⟨_, _, _, h⟩
  have h00 : ∃ sc kf kg, s.obj = { s.obj with scl := sc, knownFval := kf, knownFgrad := kg } := ⟨_, _, _, rfl⟩
  unfold selectHp
  split
  · split
    · exact ⟨_, _, _, rfl⟩
    · exact h00
  · split
    · unfold optzHp
      split
      · exact h00
      · rename_i g hg
        split
        · split
          · exact h00
          · exact ⟨_, _, _, rfl⟩
        · unfold optzNum
          split
          · exact h00
          · rename_i info hinfo
            split
            · exact h00
            · rename_i p hp
              obtain ⟨sc, hsc⟩ := optzVec_obj c q s.obj g info p.x0
              split
              · rename_i o e hq
                rw [hq] at hsc
                exact h0 hsc
              · rename_i o r hq
                rw [hq] at hsc
                dsimp only at hsc
                subst hsc
                unfold finishOptz
                split
                · exact ⟨_, _, _, rfl⟩
                · exact ⟨_, _, _, rfl⟩
    · split
      · split
        · split <;> exact h00
        · exact h00
      · split
        · split
          · exact h00
          · exact h00
        · exact h00

theorem run_cfgOk {st : GpStatic} {s : Session} (hs : CfgOk st s.obj) (a : SOp) : CfgOk st (a.run s).1.obj := by
  cases a with
  | wellcond m =>
    show CfgOk st (setWellcond m s.obj).1
    unfold setWellcond
    cases hm : m.bind WcMtd.parse with
    | none => exact hs
    | some w => exact apply_cfgOk hs.eq w
  | data d =>
    have h := setData_frame d s.obj
    show CfgOk st (setData d s.obj).1
    simp only [cfg, Prod.mk.injEq] at h
    obtain ⟨h1, h2, h3, h4, h5⟩ := h
    exact ⟨by rw [h1]; exact hs.eq, by rw [h2]; exact hs.base, by rw [h4, h2]; exact hs.cstr, by rw [h5, h2]; exact hs.scl⟩
  | init n => exact ⟨hs.eq, hs.base, hs.cstr, hs.scl⟩
  | hpara c q m i hp cc =>
    obtain ⟨e, p, he⟩ := setHpara_fst c q m i hp cc s
    obtain ⟨sc, kf, kg, ho⟩ := selectHp_obj c q m i hp s
    show CfgOk st (setHpara c q m i hp cc s).1.obj
    rw [he]
    show CfgOk st (selectHp c q m i hp s).1.obj
    rw [ho]
    exact ⟨hs.eq, hs.base, hs.cstr, hs.scl⟩
  | custom h =>
    show CfgOk st (setCustomHp h s).1.obj
    unfold setCustomHp
    split
    · exact hs
    · split <;> exact hs
    · exact hs
  | finish n =>
    obtain ⟨x, hx⟩ := finish_frame n s.surr
    show CfgOk st (s.put (finishSurr n s.surr).1).obj
    rw [hx, put_hist]
    exact hs
  | load d =>
    obtain ⟨x, hx⟩ := load_frame d s.surr
    show CfgOk st (s.put (loadSurr d s.surr).1).obj
    rw [hx, put_hist]
    exact hs

theorem runOps_cfgOk {st : GpStatic} : ∀ (l : List SOp) {s : Session}, CfgOk st s.obj → CfgOk st (runOps l s).obj
  | [], _, hs => hs
  | a :: l, _, hs => runOps_cfgOk l (run_cfgOk hs a)

/-- Data scaling stays off unless the method is changed. -/
theorem run_useScl {s : Session} {a : SOp} (ha : ∀ w, a ≠ .wellcond w) : (a.run s).1.obj.useScl = s.obj.useScl := by
  cases a with
  | wellcond m => exact absurd rfl (ha m)
  | data d =>
    have h := setData_frame d s.obj
    simp only [cfg, Prod.mk.injEq] at h
    exact h.2.2.2.2
  | init n => rfl
  | hpara c q m i hp cc =>
    obtain ⟨e, p, he⟩ := setHpara_fst c q m i hp cc s
    obtain ⟨sc, kf, kg, ho⟩ := selectHp_obj c q m i hp s
    show (setHpara c q m i hp cc s).1.obj.useScl = _
    rw [he]
    show (selectHp c q m i hp s).1.obj.useScl = _
    rw [ho]
  | custom h =>
    show (setCustomHp h s).1.obj.useScl = _
    unfold setCustomHp
    split
    · rfl
    · split <;> rfl
    · rfl
  | finish n =>
    obtain ⟨x, hx⟩ := finish_frame n s.surr
    show (s.put (finishSurr n s.surr).1).obj.useScl = _
    rw [hx, put_hist]
  | load d =>
    obtain ⟨x, hx⟩ := load_frame d s.surr
    show (s.put (loadSurr d s.surr).1).obj.useScl = _
    rw [hx, put_hist]

theorem runOps_noScl : ∀ (l : List SOp) {s : Session}, (∀ a ∈ l, ∀ w, a ≠ .wellcond w) → s.obj.useScl = false → (runOps l s).obj.useScl = false
  | [], _, _, h => h
  | a :: l, _, hl, h => runOps_noScl l (fun b hb => hl b (List.mem_cons_of_mem _ hb))
      ((run_useScl (hl a (List.mem_cons_self ..))).trans h)

theorem new_cfgOk {st : GpStatic} {m : Option String} {s : Session} (h : newSession st m = .ok s) : CfgOk st s.obj := by
  unfold newSession at h
  cases ho : newGp st m with
  | error e => rw [ho] at h; cases h
  | ok o =>
    rw [ho, ok_bind] at h
    cases h
    exact reach_cfgOk (.new ho)

/-! ### Data of the caller and data of the object -/

theorem noise_cases (s : Option (Nd Fl)) : NoiseUnknown s ∨ ∃ S, NoiseKnown s S := by
  by_cases h : NoiseUnknown s
  · exact .inl h
  · unfold NoiseUnknown at h
    push Not at h
    obtain ⟨S, h1, h2⟩ := h
    exact .inr ⟨S, h1, h2⟩

theorem noise_excl {s : Option (Nd Fl)} {S : Nd Fl} (h : NoiseKnown s S) (h' : NoiseUnknown s) : False := by
  obtain ⟨k, h1, h2⟩ := h' S h.1
  exact h.2 k h1 h2

theorem holdsData0 {st : GpStatic} {o o' : GpObj} (hcfg : CfgOk st o) {d : DataIn} (hX : PointsFit st.dim d) (h : setData d o = (o', .ok ())) :
    ∃ g, o'.view0 = .ok g ∧ HoldsData st d g ∧ GpOk g ∧ g.o = o'.condOpts := by
  obtain ⟨hL, hC, -⟩ := setData_loaded h
  have hst : o.st = st := hcfg.eq
  subst hst
  obtain ⟨g, h0, hok, h1, h2, h3, h4, h5, h6, h7, h8, h9, h10, h11, h12, h13, h14⟩ := loaded_gpOk hL hC hX
  refine ⟨g, h0, ?_, hok, h14⟩
  have hg : g = o'.gp g.x g.fval := by
    unfold GpObj.view0 at h0
    rw [← h5, ← h6] at h0
    exact (Except.ok.inj (show Except.ok (o'.gp g.x g.fval) = Except.ok g from h0)).symm
  have hz := C63_classification h
  refine ⟨h1, h2, h3, h4, ?_, h13, ?_, ?_, ?_, ?_, ?_, ?_, ?_, ?_, ?_⟩
  · rw [hg]; exact hL.nGrad
  · obtain ⟨X, e1, e2, e3⟩ := hL.x
    rw [e1] at h5
    cases h5
    exact fun a _ i _ => e3 a i
  · obtain ⟨f, e1, e2, e3⟩ := hL.fval
    rw [e1] at h6
    cases h6
    exact fun a _ => e3 a
  · intro G hG
    rcases hL.grad with ⟨e, -⟩ | ⟨G1, G', e1, e2, e3, e4⟩
    · rw [e] at hG; cases hG
    · rw [e1] at hG; cases hG
      exact ⟨G', by rw [h8, e2], fun a _ i _ => e4 a i⟩
  · intro S hS
    rcases hL.stdFval with ⟨e, -⟩ | ⟨S', s, e1, e2, e3, e4, e5⟩
    · exact (noise_excl hS e).elim
    · have : S' = S := by
        have := e1.1.symm.trans hS.1
        cases this; rfl
      subst this
      exact ⟨by rw [h10, e2], s, by rw [h7, e3], fun a ha => e5 a (by rw [e4, hC.stdFval S' hS]; exact ha)⟩
  · intro hS
    rw [h10]; exact hz.1.mpr hS
  · intro hu' S hS
    rcases hL.stdGrad with ⟨e | e, -⟩ | ⟨S', s, e0, e1, e2, e3, e4, e5⟩
    · rw [hu'] at e; cases e
    · exact (noise_excl hS e).elim
    · have : S' = S := by
        have := e1.1.symm.trans hS.1
        cases this; rfl
      subst this
      refine ⟨by rw [h11, e2], s, by rw [h9, e3], fun a ha i hi => ?_⟩
      have := hC.stdGrad hu' S' hS
      rw [e4] at this
      simp only [List.cons.injEq, and_true] at this
      exact e5 a (by omega) i (by omega)
  · intro hu' hS
    rw [h11]; exact ((hz.2.2.2.1 hu').1).mpr hS
  · rw [hg]; exact hL.fvalZero
  · rw [hg]; exact hL.fgradZero

theorem holdsData {st : GpStatic} {o o' : GpObj} (hcfg : CfgOk st o) {d : DataIn} (hX : PointsFit st.dim d) (h : setData d o = (o', .ok ()))
    (hu : o.useScl = false) : ∃ g, o'.view = .ok g ∧ HoldsData st d g ∧ GpOk g ∧ g.o = o'.condOpts := by
  obtain ⟨g, h0, h1⟩ := holdsData0 hcfg hX h
  refine ⟨g, ?_, h1⟩
  unfold GpObj.view
  rw [h0, ok_bind, (setData_loaded h).1.useScl, hu]
  rfl

theorem loaded_fields' {d : DataIn} {o o' : GpObj} (hL : Loaded d o o') (hC : Consistent o.st.dim o.st.useGrad d)
    (hX : PointsFit o.st.dim d) (hu : o.useScl = true → o.st.useGrad = true) {g : Gp} (hg : o'.view = .ok g ∨ o'.view0 = .ok g) :
    GpOk g ∧ g.dim = o.st.dim ∧ g.useGrad = o.st.useGrad ∧ g.kernel = o.st.kernel ∧ g.nEval = d.fval.size ∧
      g.knownFval = o'.knownFval ∧ g.knownFgrad = o'.knownFgrad ∧ g.o = o'.condOpts ∧ g.bvec = d.bvec := by
  rcases hg with hg | hg
  · exact loaded_fields hL hC hX hu hg
  · obtain ⟨g0, g', h0, -, hok, -, -, -, h⟩ := loaded_view hL hC hX hu
    rw [h0] at hg
    cases hg
    exact ⟨hok, h⟩

/-- Data and hyperparameters that fit together are ready for prediction. -/
theorem data_ready {st : GpStatic} {o o' : GpObj} (hcfg : CfgOk st o) (hst : NugOk st) {d : DataIn} (hX : PointsFit st.dim d)
    (hn : 0 < d.fval.size) (h : setData d o = (o', .ok ())) (hk : st.useGrad = true ∨ ∃ S, NoiseKnown d.stdFval S)
    (hm : st.kernel = .ratQuad → numGrads d = d.fval.size) {g : Gp} (hg : o'.view = .ok g ∨ o'.view0 = .ok g) {hp : HpVals} {v β : ℝ}
    (hh : HpFor st d hp v β) :
    Ready g hp v β ∧ (if g.o.etaConst then 0 < g.o.etaK else 1 < g.o.condMaxTarget) := by
  obtain ⟨hL, hC, -⟩ := setData_loaded h
  have hst' : o.st = st := hcfg.eq
  subst hst'
  have hsg : o.useScl = true → o.st.useGrad = true := by
    intro hs
    by_contra hu
    rw [Bool.not_eq_true] at hu
    rw [hcfg.scl, hcfg.base hu] at hs
    cases hs
  obtain ⟨hok, h1, h2, h3, h4, h5, h6, h7, h8⟩ := loaded_fields' hL hC hX hsg hg
  have hz := C63_classification h
  have hη : if g.o.etaConst then 0 < g.o.etaK else 1 < g.o.condMaxTarget := by
    rw [h7]
    show if o'.etaConst then 0 < o'.etaK else 1 < o'.st.condMaxTarget
    split
    · exact loaded_eta_pos hL hst hn
    · rw [hL.st]; exact hst.2.1
  refine ⟨⟨hok, ⟨?_, ?_, ?_, ?_, ?_, ?_⟩, ?_, ?_, by omega, hh.vpos, hh.varK, hh.beta, ?_, fun h => ?_⟩, hη⟩
  · rw [h1]; exact hh.theta
  · rw [h3]; exact hh.kernel
  · intro hf
    rcases noise_cases d.stdFval with hN | ⟨S, hS⟩
    · rw [h5, hz.1.mpr hN] at hf; cases hf
    · exact hh.known S hS
  · intro hf
    rw [h5] at hf
    exact hh.unknown (hz.1.mp hf)
  · intro hu hf
    rw [h2] at hu
    rcases noise_cases d.stdGrad with hN | ⟨S, hS⟩
    · rw [h6, (hz.2.2.2.1 hu).1.mpr hN] at hf; cases hf
    · exact hh.gknown hu S hS
  · intro hu hf
    rw [h2] at hu
    rw [h6] at hf
    exact hh.gunknown hu ((hz.2.2.2.1 hu).1.mp hf)
  · rcases hk with hk | ⟨S, hS⟩
    · left; rw [h2]; exact hk
    · right
      rw [h5]
      by_contra hc
      rw [Bool.not_eq_true] at hc
      exact noise_excl hS (hz.1.mp hc)
  · rw [h7, h2]
    intro hp
    by_contra hu
    rw [Bool.not_eq_true] at hu
    simp only [GpObj.condOpts, hL.mtd, hcfg.base hu] at hp
    cases hp
  · split at hη
    · rename_i he; rw [if_pos he]; exact hη.le
    · rename_i he; rw [if_neg he]; exact hη
  · rw [h8, h4]; exact full_of_grads (hm (h3 ▸ h))

/-! ### Prediction -/

theorem cast_self {n : ℕ} (e : EvalState n) : e.cast n = .ok e := by simp [EvalState.cast]

theorem setup_hp {g : Gp} {hp : HpVals} {cc : Bool} {e : EvalState g.nData} (h : setupEvalModel g hp cc = .ok e) : e.hp = hp := by
  unfold setupEvalModel at h
  cases h1 : calcRtensor g.x g.x with
  | error e => rw [h1] at h; cases h
  | ok R =>
    rw [h1, ok_bind] at h
    cases h2 : need hp.beta with
    | error e => rw [h2] at h; cases h
    | ok b =>
      rw [h2, ok_bind] at h
      cases h3 : evalMeanFun g.dim nBetaCoeff g.x b g.bvec g.useGrad false with
      | error e => rw [h3] at h; cases h
      | ok mf =>
        rw [h3, ok_bind] at h
        dsimp only at h
        cases h4 : calcAllK g R hp none true cc none true with
        | error e => rw [h4] at h; cases h
        | ok out =>
          rw [h4, ok_bind] at h
          split at h
          · cases h; rfl
          · cases h

/-- **C44**, the guard in `eval_model` and `eval_model_var`: an accepted evaluation needs a Cholesky factor and hyperparameters equal
to those with which the model was set up. -/
theorem C44_eval_hp (g : Gp) (st : EvalState g.nData) (hp : HpVals) (X : Arr2) (cg ch : Bool) :
    (∀ out, evalModel g st hp X cg ch = .ok out → hp = st.hp ∧ st.chofac ≠ none) ∧
    (∀ out, evalModelVar g st hp X cg ch = .ok out → hp = st.hp ∧ st.chofac ≠ none) := by
  constructor
  · intro out h
    unfold evalModel at h
    split at h
    · cases h
    · rename_i F hF
      split at h
      · cases h
      · rename_i he
        exact ⟨not_not.mp he, by rw [hF]; simp⟩
  · intro out h
    unfold evalModelVar at h
    split at h
    · cases h
    · rename_i he
      refine ⟨not_not.mp he, fun hF => ?_⟩
      cases h1 : need hp.beta with
      | error e => rw [h1] at h; cases h
      | ok b =>
        rw [h1, ok_bind] at h
        cases h2 : need hp.varK with
        | error e => rw [h2] at h; cases h
        | ok v =>
          rw [h2, ok_bind] at h
          cases h3 : pyAssert (ch = true → cg = true) with
          | error e => rw [h3] at h; cases h
          | ok u =>
            rw [h3, ok_bind] at h
            cases h4 : crossKern g hp X cg with
            | error e => rw [h4] at h; cases h
            | ok K =>
              rw [h4, ok_bind, hF] at h
              cases h

/-- **C44**, on the whole object: for every state of the object, an accepted evaluation means that the current hyperparameters are
those for which `setup_eval_model` was last called. -/
theorem C44_predict_guard {X : Arr2} {cg ch : Bool} {s : Session} {out : Obj6} (h : s.predict X cg ch = .ok out) :
    ∃ hp, s.hp = some hp ∧ s.setupHp = some hp ∧ s.ev ≠ none := by
  unfold Session.predict at h
  split at h
  · rename_i n e hp h1 h2
    split at h
    · rename_i hs
      exact ⟨hp, h2, hs, by rw [h1]; simp⟩
    · cases h
  · cases h

/-- Prediction when the model is up to date. -/
theorem predict_upToDate {cc : Bool} {s : Session} (h : UpToDate cc s) : ∃ hf hp g e, s.hp = some hf ∧ hf.nums = some hp ∧ s.obj.view = .ok g ∧
    setupEvalModel g hp cc = .ok e ∧ ∀ X cg ch, s.predict X cg ch = s.obj.evalWith g e hp X cg ch := by
  obtain ⟨hf, hp, g, e, h1, h2, h3, h4, h5, h6⟩ := h
  refine ⟨hf, hp, g, e, h1, h2, h3, h4, fun X cg ch => ?_⟩
  unfold Session.predict
  rw [h5, h1]
  dsimp only
  rw [if_pos h6, h2]
  dsimp only
  rw [h3, ok_bind, cast_self, ok_bind, ← setup_hp h4]

theorem setHpara_set {c : OptzCfg} {q : Oracle} {i : ℤ} {h : HpF} {cc : Bool} {s t : Session}
    (ht : setHpara c q "set" i (some h) cc s = (t, .ok ())) : t.obj = s.obj ∧ t.hp = some h ∧ UpToDate cc t := by
  obtain ⟨h1, t', e, p, h2, h3⟩ := setHpara_ok ht
  have : t' = { s with hp := some h } := by simp [selectHp] at h2; exact h2.symm
  subst this
  exact ⟨by rw [h3], by rw [h3], h1⟩

theorem arrs_mu {nx dim : ℕ} (o : EvalOut nx dim) (a : Fin nx) : ∃ m, o.arrs.mu = some m ∧ m.n = nx ∧ m.get a = o.mu a :=
  ⟨_, rfl, rfl, by simp⟩

theorem arrs_sig {nx dim : ℕ} (o : EvalOut nx dim) (a : Fin nx) : ∃ m, o.arrs.sig = some m ∧ m.n = nx ∧ m.get a = o.sig a :=
  ⟨_, rfl, rfl, by simp⟩

/-- **C74, end to end.** For every program on a new object that then gives it data `d` and hyperparameters `h` that fit the data (both
calls accepted; no data scaling), every prediction it makes at points `X` is the mean and standard deviation of the conditional
distribution of the function value given the data `d`: prior mean `β`, prior variance `v`, the kernel at `h`, positive nugget `η` (the
attribute `etaK` if that is constant), noise variances `v * N` (see C36 on the factor `v`). Nothing that happened before the data
were given matters. -/
theorem C74_end_to_end {st : GpStatic} {m : Option String} {s0 s1 t : Session} (h0 : newSession st m = .ok s0) (hst : NugOk st) (l : List SOp)
    {d : DataIn} (hX : PointsFit st.dim d) (hn : 0 < d.fval.size) (hd : (SOp.data d).run (runOps l s0) = (s1, .ok ()))
    (hu : s1.obj.useScl = false) (hk : st.useGrad = true ∨ ∃ S, NoiseKnown d.stdFval S) (hm : st.kernel = .ratQuad → numGrads d = d.fval.size)
    {h : HpF} {hp : HpVals} {v β : ℝ} (hnum : h.nums = some hp) (hh : HpFor st d hp v β) {c : OptzCfg} {q : Oracle} {i : ℤ} {cc : Bool}
    (ht : setHpara c q "set" i (some h) cc s1 = (t, .ok ())) {X : Arr2} (hXc : X.c = st.dim) (hXr : 0 < X.r) {cg : Bool} {out : Obj6}
    (hout : t.predict X cg false = .ok out) :
    ∃ g μ σ η, HoldsData st d g ∧ out.mu = some μ ∧ μ.n = X.r ∧ out.sig = some σ ∧ σ.n = X.r ∧ 0 < η ∧
      (t.obj.etaConst = true → η = t.obj.etaK) ∧
      ∀ N, IsNoise g hp N → ∀ K, IsKern g hp K → ∀ y, DataSpec g y → ∀ a < X.r, ∀ k, IsCross g hp (X.get a) k →
        CondNormal (noisyCov (t.obj.mtd == .precon) v K (v • N) η) (v • k) v (priorMean g β) β y (μ.get a) (σ.get a ^ 2) := by
  have hcfg : CfgOk st (runOps l s0).obj := runOps_cfgOk l (new_cfgOk h0)
  have hd' : setData d (runOps l s0).obj = (s1.obj, .ok ()) := by
    have : (SOp.data d).run (runOps l s0) = ({ (runOps l s0) with obj := (setData d (runOps l s0).obj).1 }, (setData d (runOps l s0).obj).2) := rfl
    rw [this] at hd
    simp only [Prod.mk.injEq] at hd
    rw [← hd.1]
    exact Prod.ext rfl hd.2
  obtain ⟨hL, -, -⟩ := setData_loaded hd'
  obtain ⟨g, hv, hH, -, hgo⟩ := holdsData hcfg hX hd' (by rw [← hL.useScl]; exact hu)
  obtain ⟨hR, hη⟩ := data_ready hcfg hst hX hn hd' hk hm (.inl hv) hh
  obtain ⟨e1, e2, hup⟩ := setHpara_set ht
  obtain ⟨hf, hp', g', e, f1, f2, f3, f4, f5⟩ := predict_upToDate hup
  rw [e2] at f1
  cases f1
  rw [hnum] at f2
  cases f2
  rw [e1, hv] at f3
  cases f3
  rw [f5, GpObj.evalWith, e1, hu, if_neg (by decide)] at hout
  cases ho : evalModel g e hp X cg false with
  | error e => rw [ho] at hout; cases hout
  | ok o =>
    rw [ho] at hout
    cases hout
    have hF := ((C44_eval_hp g e hp X cg false).1 o ho).2
    have hXg : X.c = g.dim := by rw [hXc, hH.dim]
    obtain ⟨o', g1, g2⟩ := C36_posterior_with_scaled_noise hR.toV f4 hF hXg hXr cg
    rw [ho] at g1
    cases g1
    obtain ⟨o', g1, g3⟩ := C37_variance_bounds hR.toV f4 hF hXg hXr cg
    rw [ho] at g1
    cases g1
    obtain ⟨N, K, hs, -⟩ := ready_setup hR.toV f4
    refine ⟨g, _, _, e.etaK, hH, rfl, rfl, rfl, rfl, hs.etaPos hη, fun hc => ?_, fun N hN K hK y hy a ha k hk => ?_⟩
    · rw [hs.etaConst (by rw [hgo, ← e1]; exact hc), hgo, e1]; rfl
    · have := g2 N hN K hK y hy ⟨a, ha⟩ k hk ((g3 ⟨a, ha⟩).2.2 hη)
      have hpre : g.o.precon = (t.obj.mtd == .precon) := by rw [hgo, e1]; rfl
      rw [hpre] at this
      simpa only [dif_pos ha] using this

/-- **C74, totality.** Under the same conditions (without the condition-number check) the two calls `set_hpara('set')` and
`eval_model` succeed for all hyperparameters that fit the data and all points. -/
theorem C74_total {st : GpStatic} {m : Option String} {s0 s1 : Session} (h0 : newSession st m = .ok s0) (hst : NugOk st) (l : List SOp)
    {d : DataIn} (hX : PointsFit st.dim d) (hn : 0 < d.fval.size) (hd : (SOp.data d).run (runOps l s0) = (s1, .ok ()))
    (hu : s1.obj.useScl = false) (hk : st.useGrad = true ∨ ∃ S, NoiseKnown d.stdFval S) (hm : st.kernel = .ratQuad → numGrads d = d.fval.size)
    {h : HpF} {hp : HpVals} {v β : ℝ} (hnum : h.nums = some hp) (hh : HpFor st d hp v β) (c : OptzCfg) (q : Oracle) (i : ℤ)
    {X : Arr2} (hXc : X.c = st.dim) (hXr : 0 < X.r) (cg : Bool) :
    ∃ t out, setHpara c q "set" i (some h) false s1 = (t, .ok ()) ∧ t.predict X cg false = .ok out := by
  have hcfg : CfgOk st (runOps l s0).obj := runOps_cfgOk l (new_cfgOk h0)
  have hd' : setData d (runOps l s0).obj = (s1.obj, .ok ()) := by
    have : (SOp.data d).run (runOps l s0) = ({ (runOps l s0) with obj := (setData d (runOps l s0).obj).1 }, (setData d (runOps l s0).obj).2) := rfl
    rw [this] at hd
    simp only [Prod.mk.injEq] at hd
    rw [← hd.1]
    exact Prod.ext rfl hd.2
  obtain ⟨hL, -, -⟩ := setData_loaded hd'
  obtain ⟨g, hv, hH, -, hgo⟩ := holdsData hcfg hX hd' (by rw [← hL.useScl]; exact hu)
  obtain ⟨hR, hη⟩ := data_ready hcfg hst hX hn hd' hk hm (.inl hv) hh
  obtain ⟨t, ht, -, -⟩ := C66_set_total c q i hv hnum hR false
  obtain ⟨e1, e2, hup⟩ := setHpara_set ht
  obtain ⟨hf, hp', g', e, f1, f2, f3, f4, f5⟩ := predict_upToDate hup
  rw [e2] at f1
  cases f1
  rw [hnum] at f2
  cases f2
  rw [e1, hv] at f3
  cases f3
  obtain ⟨e', o, g1, g2, -⟩ := C37_pipeline_total hR.toV hη (X := X) (by rw [hXc, hH.dim]) hXr cg
  rw [f4] at g1
  cases g1
  refine ⟨t, o.arrs, ht, ?_⟩
  rw [f5, GpObj.evalWith, e1, hu, if_neg (by decide), g2]
  rfl

/-! ### Old models -/

theorem gp_data_eq {g g' : Gp} (h1 : g'.dim = g.dim) (h2 : g'.useGrad = g.useGrad) (h3 : g'.kernel = g.kernel) (h4 : g'.nEval = g.nEval)
    (h5 : g'.nGrad = g.nGrad) (h6 : g'.nData = g.nData) (h7 : g'.bvec = g.bvec) (h8 : g'.x = g.x) :
    g' = { g with o := g'.o, knownFval := g'.knownFval, knownFgrad := g'.knownFgrad, fvalZero := g'.fvalZero, fgradZero := g'.fgradZero
                  noisy := g'.noisy, fval := g'.fval, stdFval := g'.stdFval, grad := g'.grad, stdGrad := g'.stdGrad } := by
  cases g
  cases g'
  dsimp only at *
  subst h1 h2 h3 h4 h5 h6 h7 h8
  rfl

theorem crossKern_irrel (g : Gp) (o : CondOpts) (a b c d n : Bool) (f : Arr1) (sf : Option Arr1) (G sG : Option Arr2) (hp : HpVals) (X : Arr2)
    (cg : Bool) : crossKern { g with o := o, knownFval := a, knownFgrad := b, fvalZero := c, fgradZero := d, noisy := n, fval := f, stdFval := sf
                                     grad := G, stdGrad := sG } hp X cg = crossKern g hp X cg := rfl

theorem crossHess_irrel (g : Gp) (o : CondOpts) (a b c d n : Bool) (f : Arr1) (sf : Option Arr1) (G sG : Option Arr2) (hp : HpVals) (X : Arr2) :
    crossHess { g with o := o, knownFval := a, knownFgrad := b, fvalZero := c, fgradZero := d, noisy := n, fval := f, stdFval := sf
                       grad := G, stdGrad := sG } hp X = crossHess g hp X := rfl

theorem evalDerivs_irrel (g : Gp) (o : CondOpts) (a b c d n : Bool) (f : Arr1) (sf : Option Arr1) (G sG : Option Arr2) (hp : HpVals) (X : Arr2)
    (F : ChoFac g.nData) (w : Vec g.nData) (dK : Option Arr2) (kinv : Mat g.nData X.r) (base : Option Arr2) (mu sig : Vec X.r) (sigK : ℝ)
    (cg ch : Bool) :
    evalDerivs { g with o := o, knownFval := a, knownFgrad := b, fvalZero := c, fgradZero := d, noisy := n, fval := f, stdFval := sf, grad := G
                        stdGrad := sG } hp X F w dK kinv base mu sig sigK cg ch = evalDerivs g hp X F w dK kinv base mu sig sigK cg ch := by
  unfold evalDerivs
  rw [crossHess_irrel]
  rfl

/-- Evaluation does not read the objective data and the noise. -/
theorem evalModel_irrel (g : Gp) (o : CondOpts) (a b c d n : Bool) (f : Arr1) (sf : Option Arr1) (G sG : Option Arr2) (e : EvalState g.nData)
    (hp : HpVals) (X : Arr2) (cg ch : Bool) :
    evalModel { g with o := o, knownFval := a, knownFgrad := b, fvalZero := c, fgradZero := d, noisy := n, fval := f, stdFval := sf, grad := G
                       stdGrad := sG } e hp X cg ch = evalModel g e hp X cg ch := by
  unfold evalModel
  cases e.chofac with
  | none => rfl
  | some F => simp only [crossKern_irrel, evalDerivs_irrel]

theorem view_x {o : GpObj} {g : Gp} (hv : o.view = .ok g) (hu : o.useScl = false) {X : Arr2} (hx : o.xIn = some X) : g.x = X := by
  unfold GpObj.view GpObj.view0 at hv
  rw [hx, hu] at hv
  cases hf : o.fvalIn with
  | none => rw [hf] at hv; cases hv
  | some f =>
    rw [hf] at hv
    have := Except.ok.inj (show Except.ok (o.gp X f) = Except.ok g from hv)
    rw [← this]; rfl

/-- **C74, discrepancy (old data).** `eval_model` does not notice new data: for every program that gives data, sets hyperparameters, and
then gives other values, gradients and noise levels at the same points, all predictions are still those for the old data (until
`set_hpara` is called again, see `C74_end_to_end`). -/
theorem C74_stale_data {st : GpStatic} {m : Option String} {s0 s1 t s2 : Session} (h0 : newSession st m = .ok s0) (l : List SOp)
    {d d' : DataIn} (hX : PointsFit st.dim d) (hd : (SOp.data d).run (runOps l s0) = (s1, .ok ())) (hu : s1.obj.useScl = false)
    {h : HpF} {c : OptzCfg} {q : Oracle} {i : ℤ} {cc : Bool} (ht : setHpara c q "set" i (some h) cc s1 = (t, .ok ()))
    (hx : d'.x = d.x) (hf : d'.fval.size = d.fval.size) (hb : d'.bvec = d.bvec) (hd2 : (SOp.data d').run t = (s2, .ok ()))
    (X : Arr2) (cg ch : Bool) : s2.predict X cg ch = t.predict X cg ch := by
  have hcfg : CfgOk st (runOps l s0).obj := runOps_cfgOk l (new_cfgOk h0)
  have key : ∀ (d : DataIn) (s s1 : Session), (SOp.data d).run s = (s1, .ok ()) → setData d s.obj = (s1.obj, .ok ()) ∧ s1 = { s with obj := s1.obj } := by
    intro d s s1 hd
    have : (SOp.data d).run s = ({ s with obj := (setData d s.obj).1 }, (setData d s.obj).2) := rfl
    rw [this] at hd
    simp only [Prod.mk.injEq] at hd
    refine ⟨?_, ?_⟩
    · rw [← hd.1]; exact Prod.ext rfl hd.2
    · rw [← hd.1]
  obtain ⟨hd', -⟩ := key _ _ _ hd
  obtain ⟨hd2', hs2⟩ := key _ _ _ hd2
  obtain ⟨e1, e2, hup⟩ := setHpara_set ht
  obtain ⟨hL, -, -⟩ := setData_loaded hd'
  obtain ⟨hL2, -, -⟩ := setData_loaded hd2'
  have hcfg1 : CfgOk st s1.obj := by
    have := run_cfgOk hcfg (.data d)
    rw [hd] at this; exact this
  have hcfgt : CfgOk st t.obj := by rw [e1]; exact hcfg1
  obtain ⟨g, hv, hH, hok, hgo⟩ := holdsData hcfg hX hd' (by rw [← hL.useScl]; exact hu)
  obtain ⟨g2, hv2, hH2, hok2, hgo2⟩ := holdsData hcfgt (d := d') (by unfold PointsFit; rw [hx, hf]; exact hX) hd2' (by rw [e1]; exact hu)
  have hng : numGrads d' = numGrads d := by unfold numGrads; rw [hb, hf]
  have hu2 : s2.obj.useScl = false := by rw [hL2.useScl, e1]; exact hu
  have hxx : g2.x = g.x := by
    obtain ⟨X1, x1, x2, x3⟩ := hL.x
    obtain ⟨X2, y1, y2, y3⟩ := hL2.x
    have hg1 : g.x = X1 := view_x hv hu x1
    have hg2 : g2.x = X2 := view_x hv2 hu2 y1
    rw [hg1, hg2]
    rw [hx, x2] at y2
    simp only [List.cons.injEq, and_true] at y2
    have : X2.get = X1.get := by
      funext a b
      rw [x3, y3, hx]
    cases X1; cases X2
    dsimp only at *
    rw [y2.1, y2.2, this]
  have hgeq := gp_data_eq (g := g) (g' := g2) (hH2.dim.trans hH.dim.symm) (hH2.useGrad.trans hH.useGrad.symm) (hH2.kernel.trans hH.kernel.symm)
    (by rw [hH2.nEval, hH.nEval, hf]) (by rw [hH2.nGrad, hH.nGrad, hng]) (by
      rw [hok2.nData, hok.nData, hH2.nEval, hH.nEval, hf, hH2.nGrad, hH.nGrad, hng, hH2.dim, hH.dim]) (by rw [hH2.mask, hH.mask, hb]) hxx
  obtain ⟨hf', hp', g', e, f1, f2, f3, f4, f5, f6⟩ := hup
  rw [e1, hv] at f3
  cases f3
  unfold Session.predict
  have ev2 : s2.ev = t.ev := by rw [hs2]
  have hp2 : s2.hp = t.hp := by rw [hs2]
  have su2 : s2.setupHp = t.setupHp := by rw [hs2]
  rw [ev2, hp2, su2, f5, f1]
  dsimp only
  rw [if_pos f6, if_pos f6, f2]
  dsimp only
  rw [hv2, e1, hv, ok_bind, ok_bind, hgeq]
  dsimp only
  rw [cast_self, ok_bind, ok_bind]
  unfold GpObj.evalWith
  rw [hu, hu2, if_neg (by decide), if_neg (by decide), evalModel_irrel]

/-- Setting the model up with a noise variance although the noise is known fails. -/
theorem setup_fails {g : Gp} {hp : HpVals} {v β : ℝ} (hr : Ready g hp v β) (hk : g.knownFval = true) (β' x : ℝ) (cc : Bool) :
    setupEvalModel g { hp with beta := some ⟨1, fun _ => β'⟩, varFval := some x } cc = .error .assertion := by
  obtain ⟨R, hR, hd, h1, h2, -⟩ := calcRtensor_ok (X := g.x) (Y := g.x) rfl
  obtain ⟨vv, G, h, hmf, -⟩ := mean_ok (X := g.x) hr.ok.x_c (m := g.bvec) (by rw [hr.ok.x_r]; exact hr.ok.mask) (beta := ⟨1, fun _ => β'⟩) rfl
    g.useGrad false
  obtain ⟨th, hth, -⟩ := hr.adm.theta
  have hnv : calcNoiseVec g { hp with beta := some ⟨1, fun _ => β'⟩, varFval := some x } = .error .assertion := by
    unfold calcNoiseVec
    cases hu : g.useGrad with
    | false => simp [hk, pyAssert, error_bind]
    | true => simp [hk, noiseHead, pyAssert, error_bind]
  unfold setupEvalModel
  rw [hR, ok_bind]
  simp only [need, ok_bind]
  rw [hmf, ok_bind]
  dsimp only
  have : calcAllK g R { hp with beta := some ⟨1, fun _ => β'⟩, varFval := some x } none true cc none true = .error .assertion := by
    unfold calcAllK
    simp only [hth, need, ok_bind, hr.varK]
    rw [pyAssert_true (by rw [h1, h2]), ok_bind]
    rw [hth, hr.varK] at hnv
    simp only [if_true, pure_eq_ok, ok_bind]
    rw [hnv]
    rfl
  rw [this]
  rfl

/-- Evaluation with another prior mean and the same factor and weights. -/
theorem evalModel_shift {g : Gp} {hp : HpVals} {v β : ℝ} (hr : Ready g hp v β) {e : EvalState g.nData} {X : Arr2} (hX : X.c = g.dim)
    {o : EvalOut X.r g.dim} (ho : evalModel g e hp X false false = .ok o) (β' : ℝ) (x : Option ℝ) :
    ∃ o', evalModel g { e with hp := { hp with beta := some ⟨1, fun _ => β'⟩, varFval := x } }
        { hp with beta := some ⟨1, fun _ => β'⟩, varFval := x } X false false = .ok o' ∧
      (∀ a, o'.mu a = o.mu a + (β' - β)) ∧ o'.sig = o.sig := by
  obtain ⟨b, hb, hbn, rfl⟩ := hr.beta
  obtain ⟨vv, G, h, hmf, hv1, hv2, -⟩ := mean_ok (X := X) hX (m := none) (by simp [maskOk]) hbn false false
  obtain ⟨vv', G', h', hmf', hv1', hv2', -⟩ := mean_ok (X := X) hX (m := none) (by simp [maskOk]) (beta := ⟨1, fun _ => β'⟩) rfl false false
  have hcross : crossKern g { hp with beta := some ⟨1, fun _ => β'⟩, varFval := x } X false = crossKern g hp X false := rfl
  rw [hr.varK] at hcross
  have hhp := (C44_eval_hp g e hp X false false).1 o ho
  obtain ⟨F, hF⟩ := Option.ne_none_iff_exists'.mp hhp.2
  unfold evalModel at ho ⊢
  rw [hF] at ho
  simp only [hF]
  dsimp only at ho
  rw [if_neg (not_not.mpr hhp.1)] at ho
  rw [if_neg (by simp)]
  simp only [hb, hr.varK, need, ok_bind, hcross] at ho ⊢
  rw [pyAssert_true (by simp), ok_bind] at ho ⊢
  cases hK : crossKern g hp X false with
  | error e => rw [hK] at ho; cases ho
  | ok K =>
    rw [hK, ok_bind] at ho
    rw [ok_bind]
    split at ho
    · rename_i hsh
      rw [if_pos hsh]
      cases hw : e.w with
      | none => rw [hw] at ho; cases ho
      | some w =>
        rw [hw] at ho
        simp only [ok_bind, hmf, hmf'] at ho ⊢
        split at ho
        · cases ho
        · rename_i h0
          rw [if_neg h0]
          by_cases hP : ∀ a : Fin X.r, 0 ≤ 1 - ((toMat g.nData X.r K.1)ᵀ * choSolve F (toMat g.nData X.r K.1)) a a
          · rw [pyAssert_true hP, ok_bind] at ho ⊢
            cases ho
            refine ⟨_, rfl, fun a => ?_, rfl⟩
            show vv'.get a + _ = vv.get a + _ + _
            rw [hv2 a a.2, hv2' a a.2]
            ring
          · rw [pyAssert_false hP] at ho
            cases ho
    · cases ho

theorem nums_beta {h : HpF} {hp : HpVals} (hn : h.nums = some hp) (β' x : ℝ) :
    ({ h with beta := some (FVec.ofArr ⟨1, fun _ => β'⟩), varFval := some (some x) } : HpF).nums =
      some { hp with beta := some ⟨1, fun _ => β'⟩, varFval := some x } := by
  unfold HpF.nums at hn ⊢
  have hb : optNums (some (FVec.ofArr ⟨1, fun _ => β'⟩)) = some (some ⟨1, fun _ => β'⟩) := by simp [optNums, FVec.nums, FVec.ofArr]
  cases h1 : optNums h.beta with
  | none => rw [h1] at hn; cases hn
  | some b =>
    cases h2 : optNums h.theta with
    | none => rw [h1, h2] at hn; cases hn
    | some t =>
      cases h3 : optNum h.varK with
      | none => rw [h1, h2, h3] at hn; cases hn
      | some f =>
        cases h4 : optNum h.varFval with
        | none => rw [h1, h2, h3, h4] at hn; cases hn
        | some w =>
          cases h5 : optNum h.varFgrad with
          | none => rw [h1, h2, h3, h4, h5] at hn; cases hn
          | some g =>
            rw [h1, h2, h3, h4, h5] at hn
            cases hn
            simp only [hb, h2, h3, h5]
            rfl

/-- **C74, discrepancy (failed call).** If `set_hpara('set')` raises, `eval_model` is not blocked but mixes the new hyperparameters with
the factor and weights of the old ones: with the current hyperparameters changed to another prior mean `β'` and a noise variance although
the noise is known, the call raises, and then every prediction of the mean is the previous one plus `β' - β`, with the same standard
deviation. -/
theorem C74_failed_call_mixes {cc : Bool} {s : Session} (hup : UpToDate cc s) (hu : s.obj.useScl = false) {h : HpF} {hp : HpVals} {g : Gp}
    {v β : ℝ} (h1 : s.hp = some h) (h2 : h.nums = some hp) (h3 : s.obj.view = .ok g) (hr : Ready g hp v β) (hk : g.knownFval = true)
    (c : OptzCfg) (q : Oracle) (i : ℤ) (β' x : ℝ) (cc' : Bool) :
    ∃ t, setHpara c q "set" i (some { h with beta := some (FVec.ofArr ⟨1, fun _ => β'⟩), varFval := some (some x) }) cc' s = (t, .error .assertion) ∧
      ∀ X out, X.c = g.dim → s.predict X false false = .ok out → ∃ out' μ μ', t.predict X false false = .ok out' ∧ out.mu = some μ ∧
        out'.mu = some μ' ∧ μ'.n = μ.n ∧ (∀ a < X.r, μ'.get a = μ.get a + (β' - β)) ∧ out'.sig = out.sig := by
  set h' : HpF := { h with beta := some (FVec.ofArr ⟨1, fun _ => β'⟩), varFval := some (some x) } with hh'
  have hn' := nums_beta h2 β' x
  rw [← hh'] at hn'
  have hf := setup_fails hr hk β' x cc'
  obtain ⟨hf', hp', g', e, f1, f2, f3, f4, f5, f6⟩ := id hup
  rw [h1] at f1
  cases f1
  rw [h2] at f2
  cases f2
  rw [h3] at f3
  cases f3
  refine ⟨{ s with hp := some h', setupHp := some h' }, ?_, fun X out hX hout => ?_⟩
  · have hse : selectHp c q "set" i (some h') s = ({ s with hp := some h' }, .ok ()) := by simp [selectHp]
    unfold setHpara
    rw [hse]
    simp only [Session.andSetup, Session.setup, Session.setupWith, hn', h3, hf]
  · unfold Session.predict at hout ⊢
    simp only [f5, h1, f6, h2, h3, ok_bind, cast_self, GpObj.evalWith, hu, Bool.false_eq_true, if_false, if_true] at hout
    simp only [f5, hn', h3, ok_bind, cast_self, GpObj.evalWith, hu, Bool.false_eq_true, if_false, if_true]
    rw [show ({ e with hp := hp } : EvalState g.nData) = e by rw [← setup_hp f4]] at hout
    cases ho : evalModel g e hp X false false with
    | error e => rw [ho] at hout; cases hout
    | ok o =>
      rw [ho] at hout
      cases hout
      obtain ⟨o', g1, g2, g3⟩ := evalModel_shift hr hX ho β' (some x)
      rw [g1]
      refine ⟨_, _, _, rfl, rfl, rfl, rfl, fun a ha => ?_, ?_⟩
      · simp only [dif_pos ha]
        exact g2 ⟨a, ha⟩
      · simp only [EvalOut.arrs, g3]

/-! ### A concrete program -/

/-- Three points with gradients, known noise, with values `y`. -/
def exKnown (y : ℕ → ℝ) : DataIn where
  x := Nd.of2 3 2 fun i j => i * j
  fval := Nd.of1 3 y
  stdFval := some (Nd.of1 3 fun _ => some 1)
  grad := some (Nd.of2 3 2 fun i j => i + j)
  stdGrad := some (Nd.of2 3 2 fun _ _ => some 0)

theorem exKnown_consistent (y : ℕ → ℝ) : Consistent 2 true (exKnown y) := by
  refine ⟨rfl, (fun b h => by cases h), rfl, fun G hG => ?_, fun S hS => ?_, fun _ S hS => ?_⟩
  · cases hG; rfl
  · have := hS.1; cases this; rfl
  · have := hS.1; cases this; rfl

/-- Hyperparameters for these data. -/
def exHpK : HpVals := { beta := some ⟨1, fun _ => 4⟩, theta := some ⟨2, fun d => d + 1⟩, kernel := some 3, varK := some 2 }

theorem exHpK_for (y : ℕ → ℝ) : HpFor exStatic (exKnown y) exHpK 2 4 := by
  refine ⟨⟨_, rfl, rfl, fun i _ => ?_⟩, fun _ => ⟨3, by norm_num, rfl⟩, rfl, by norm_num, ⟨_, rfl, rfl, rfl⟩, fun _ _ => rfl, fun h => ?_, fun _ _ _ => rfl,
    fun _ h => ?_⟩
  · show (0 : ℝ) < i + 1; positivity
  · obtain ⟨k, hk, h1⟩ := h _ rfl
    cases h1
  · obtain ⟨k, hk, h1⟩ := h _ rfl
    cases h1

theorem exKnown_size (y : ℕ → ℝ) : 0 < (exKnown y).fval.size := by show (0 : ℕ) < 3; decide

theorem exKnown_grads (y : ℕ → ℝ) : 0 < numGrads (exKnown y) := by show (0 : ℕ) < 3; decide

/-- A program that meets the hypotheses of the C74 theorems: an object without data scaling, after any calls, gets three values; with
`exHpK` predictions are made everywhere; then a call of `set_hpara` raises and the predicted mean grows by 3; or other values are given
and the predictions do not change. -/
example {m : String} (hm : m ∈ ["base", "precon"]) (l : List SOp) (hl : ∀ a ∈ l, ∀ w, a ≠ .wellcond w) (c : OptzCfg) (q : Oracle)
    (y y' : ℕ → ℝ) (X : Arr2) (hX : X.c = 2) (hXr : 0 < X.r) :
    ∃ s0 s1 t t' s2 out out' μ μ', newSession exStatic (some m) = .ok s0 ∧ (SOp.data (exKnown y)).run (runOps l s0) = (s1, .ok ()) ∧
      setHpara c q "set" 1 (some (HpF.ofVals exHpK)) false s1 = (t, .ok ()) ∧ t.predict X false false = .ok out ∧ out.mu = some μ ∧
      (∃ h', setHpara c q "set" 2 (some h') true t = (t', .error .assertion)) ∧ t'.predict X false false = .ok out' ∧ out'.mu = some μ' ∧
      (∀ a < X.r, μ'.get a = μ.get a + 3) ∧
      (SOp.data (exKnown y')).run t = (s2, .ok ()) ∧ s2.predict X false false = .ok out := by
  have hm' : m ∈ wcAvail := by
    simp only [List.mem_cons, List.not_mem_nil, or_false] at hm
    rcases hm with rfl | rfl <;> decide
  obtain ⟨o, ho⟩ := newGp_total exStatic hm'
  have hs0 : newSession exStatic (some m) = .ok { obj := o } := by unfold newSession; rw [ho]; rfl
  have hcfg0 := new_cfgOk hs0
  have hcfg := runOps_cfgOk l hcfg0
  have huo : o.useScl = false := by
    unfold newGp setWellcond at ho
    simp only [List.mem_cons, List.not_mem_nil, or_false] at hm
    rcases hm with rfl | rfl <;> (cases ho; rfl)
  have hul : (runOps l { obj := o }).obj.useScl = false := runOps_noScl l hl huo
  obtain ⟨o1, g, hd, hL, hv, -⟩ := accepts_cfg hcfg exStatic_ok.1 (exKnown_consistent y) rfl (exKnown_size _) (fun _ S hS => exKnown_grads _)
    (fun _ S hS => by cases hS; rfl)
  set s1 : Session := { (runOps l ({ obj := o } : Session)) with obj := o1 } with hs1
  have hrun : (SOp.data (exKnown y)).run (runOps l { obj := o }) = (s1, .ok ()) := by
    have hr : (SOp.data (exKnown y)).run (runOps l { obj := o })
      = ({ (runOps l { obj := o }) with obj := (setData (exKnown y) (runOps l { obj := o }).obj).1 }, (setData (exKnown y) (runOps l { obj := o }).obj).2) := rfl
    rw [hr, hd]
  have hu1 : s1.obj.useScl = false := by rw [hs1]; exact hL.useScl.trans hul
  have hk : exStatic.useGrad = true ∨ ∃ S, NoiseKnown (exKnown y).stdFval S := .inl rfl
  obtain ⟨t, out, ht, hout⟩ := C74_total hs0 exStatic_ok.1 l (d := exKnown y) rfl (exKnown_size _) hrun hu1 hk (fun _ => rfl) (ofVals_nums exHpK)
    (exHpK_for y) c q 1 hX hXr false
  obtain ⟨e1, e2, hup⟩ := setHpara_set ht
  obtain ⟨hR, hη⟩ := data_ready hcfg exStatic_ok.1 (d := exKnown y) rfl (exKnown_size _) hd hk (fun _ => rfl) (.inl hv) (exHpK_for y)
  obtain ⟨g', hv', hH, -⟩ := holdsData hcfg (d := exKnown y) rfl hd hul
  rw [hv] at hv'
  cases hv'
  have hkf : g.knownFval = true := (hH.stdFval _ ⟨rfl, fun k _ => by show (some (1 : ℝ)) ≠ none; simp⟩).1
  have hvt : t.obj.view = .ok g := by rw [e1]; exact hv
  obtain ⟨t', ht', H⟩ := C74_failed_call_mixes hup (by rw [e1]; exact hu1) e2 (ofVals_nums exHpK) hvt hR hkf c q 2 7 0 true
  obtain ⟨out', μ, μ', f1, f2, f3, -, f4, -⟩ := H X out (by rw [hH.dim]; exact hX) hout
  have hcfgt : CfgOk exStatic t.obj := by
    rw [e1]
    have := run_cfgOk hcfg (.data (exKnown y))
    rw [hrun] at this; exact this
  obtain ⟨o2, g2, hd2, -⟩ := accepts_cfg hcfgt exStatic_ok.1 (exKnown_consistent y') rfl (exKnown_size _) (fun _ S hS => exKnown_grads _)
    (fun _ S hS => by cases hS; rfl)
  have hrun2 : (SOp.data (exKnown y')).run t = ({ t with obj := o2 }, .ok ()) := by
    have hr : (SOp.data (exKnown y')).run t = ({ t with obj := (setData (exKnown y') t.obj).1 }, (setData (exKnown y') t.obj).2) := rfl
    rw [hr, hd2]
  refine ⟨_, s1, t, t', _, out, out', μ, μ', hs0, hrun, ht, hout, f2, ⟨_, ht'⟩, f1, f3, fun a ha => ?_, hrun2, ?_⟩
  · rw [f4 a ha]; norm_num
  · rw [C74_stale_data hs0 l (d := exKnown y) (d' := exKnown y') rfl hrun hu1 ht rfl rfl rfl hrun2]
    exact hout

end Props
