import Verif.Props.OptzTotal
import Verif.Spec.LoopSpec

/-! **C79** The loop of an optimisation with a surrogate model. -/

open Np GP Spec Matrix

noncomputable section

namespace Props

/-- The history after an optimisation. -/
theorem optz_row {c : OptzCfg} {q : Oracle} {i n : ℕ} {hp : Option HpF} {cc : Bool} {s t : Session} {h : Surr} (H : Hist n s h)
    (ht : setHpara c q "optz" i hp cc s = (t, .ok ())) {hv : HpVals} (hhv : t.hp = some (HpF.ofVals hv))
    (hf : HpFits s.obj.st.dim nBetaCoeff (HpF.ofVals hv)) :
    ∃ h', Hist n t h' ∧ (∀ j, j ≠ i → SameRow h h' j) ∧ HpRow (HpF.ofVals hv) h' i := by
  obtain ⟨-, t', e, pe, h2, h3⟩ := setHpara_ok ht
  simp only [selectHp] at h2
  rw [if_neg (by decide), if_pos trivial] at h2
  obtain ⟨g, hv', a, hg, A⟩ := optz_args h2
  obtain ⟨sc, hst, -, -⟩ := A.store
  obtain ⟨h1, e2⟩ := store_frame hst
  have hhe : a.hp = HpF.ofVals hv := by
    rw [h3, e2] at hhv
    exact Option.some.inj hhv
  have H' : Hist n { s with obj := { s.obj with scl := sc } } h := ⟨H.eq, H.sized, H.save⟩
  obtain ⟨h', k1, k2, k3⟩ := store_keeps H' (i : ℤ) a
  rw [hst] at k1 k3
  obtain ⟨k, hk, hrow⟩ := k3 rfl (by rw [hhe]; exact hf)
  obtain rfl := denotes_nat hk
  refine ⟨h', ?_, fun j hj => k2 j fun hd => hj (denotes_nat hd), by rw [← hhe]; exact hrow⟩
  rw [h3]
  exact ⟨k1.eq, k1.sized, k1.save⟩

theorem goodData_set {st : GpStatic} {o : GpObj} (hcfg : CfgOk st o) (hst : NugOk st) (hu : o.useScl = false) {d : DataIn} (hd : GoodData st d) :
    ∃ o', setData d o = (o', .ok ()) := by
  refine setData_total hcfg hst hd.fits hd.some hd.gradNoise ?_ ?_
  · have : d.x.shape = [d.fval.size, st.dim] := hd.points
    rw [this]
    exact hd.some
  · intro ng fz gz b e k vm inf
    obtain ⟨R, hR, -⟩ := calcRtensor_ok (X := d.x.mat) (Y := d.x.mat) rfl
    unfold scaleCall
    rw [if_neg (show ¬ (filled d o ng fz gz b e k vm inf).useScl = true by show ¬ o.useScl = true; rw [hu]; decide)]
    exact ⟨_, by unfold gcompute; rw [hR]⟩

/-- Row `j` has a proper value for each hyperparameter. -/
structure RowOk (st : GpStatic) (d : DataIn) (h : Surr) (j : ℕ) : Prop where
  theta : ∀ k < st.dim, ∃ x, (h.two .theta).get j k = some x ∧ 0 < x
  kernel : kernelHasHp st.kernel = true → ∃ x, (h.one .kernel).get j = some x ∧ 0 ≤ x
  varK : ∃ x, (h.one .varK).get j = some x ∧ 0 ≤ x
  varFval : NoiseUnknown d.stdFval → ∃ x, (h.one .varFval).get j = some x ∧ 0 ≤ x
  varFgrad : st.useGrad = true → NoiseUnknown d.stdGrad → ∃ x, (h.one .varFgrad).get j = some x ∧ 0 ≤ x

theorem rowOk_of {st : GpStatic} {d : DataIn} {hv : HpVals} {v β : ℝ} (hh : HpFor st d hv v β) {h : Surr} {j : ℕ} (hr : HpRow (HpF.ofVals hv) h j) :
    RowOk st d h j := by
  refine ⟨fun k hk => ?_, fun hk => ?_, ?_, fun hu => ?_, fun hg hu => ?_⟩
  · obtain ⟨th, h1, h2, h3⟩ := hh.theta
    have := hr.theta (FVec.ofArr th) (by simp [HpF.ofVals, h1]) k (by rw [show (FVec.ofArr th).n = th.n from rfl, h2]; exact hk)
    exact ⟨th.get k, this, h3 k hk⟩
  · have hrq : st.kernel = .ratQuad := by
      cases hkk : st.kernel <;> rw [hkk] at hk <;> first | rfl | cases hk
    obtain ⟨x, hx0, hx⟩ := hh.kernel hrq
    exact ⟨x, by rw [hr.kernel]; simp [HpF.ofVals, hx], hx0.le⟩
  · exact ⟨v, by rw [hr.varK]; simp [HpF.ofVals, hh.varK], hh.vpos.le⟩
  · obtain ⟨x, hx, hx0⟩ := hh.unknown hu
    exact ⟨x, by rw [hr.varFval]; simp [HpF.ofVals, hx], hx0⟩
  · obtain ⟨x, hx, hx0⟩ := hh.gunknown hg hu
    exact ⟨x, by rw [hr.varFgrad]; simp [HpF.ofVals, hx], hx0⟩

theorem upToDate_predicts {st : GpStatic} {o o' : GpObj} (hcfg : CfgOk st o) (hst : NugOk st) {d : DataIn} (hX : PointsFit st.dim d)
    (hn : 0 < d.fval.size) (hd : setData d o = (o', .ok ())) (hu : o'.useScl = false) (hk : st.useGrad = true ∨ ∃ S, NoiseKnown d.stdFval S)
    (hm : st.kernel = .ratQuad → numGrads d = d.fval.size) {hv : HpVals} {v β : ℝ} (hh : HpFor st d hv v β) {t : Session} (ht : UpToDate false t)
    (e1 : t.obj = o') (e2 : t.hp = some (HpF.ofVals hv)) {X : Arr2} (hXc : X.c = st.dim) (hXr : 0 < X.r) (cg : Bool) :
    ∃ out, t.predict X cg false = .ok out ∧ PredictsFrom st d t hv v β X out := by
  obtain ⟨hL, -, -⟩ := setData_loaded hd
  obtain ⟨g, hg, hH, -, hgo⟩ := holdsData hcfg hX hd (by rw [← hL.useScl]; exact hu)
  obtain ⟨hR, hη⟩ := data_ready hcfg hst hX hn hd hk hm (.inl hg) hh
  obtain ⟨hf, hp', g', e, f1, f2, f3, f4, f5⟩ := predict_upToDate ht
  rw [e2] at f1
  cases f1
  rw [ofVals_nums] at f2
  cases f2
  rw [e1, hg] at f3
  cases f3
  have hXg : X.c = g.dim := by rw [hXc, hH.dim]
  obtain ⟨e', o, g1, ho, -⟩ := C37_pipeline_total hR.toV hη (X := X) hXg hXr cg
  rw [f4] at g1
  cases g1
  have hF := ((C44_eval_hp g e hv X cg false).1 o ho).2
  obtain ⟨o', g1, g2⟩ := C36_posterior_with_scaled_noise hR.toV f4 hF hXg hXr cg
  rw [ho] at g1
  cases g1
  obtain ⟨o', g1, g3⟩ := C37_variance_bounds hR.toV f4 hF hXg hXr cg
  rw [ho] at g1
  cases g1
  obtain ⟨N, K, hs, -⟩ := ready_setup hR.toV f4
  refine ⟨o.arrs, ?_, g, _, _, e.etaK, hH, rfl, rfl, rfl, rfl, hs.etaPos hη, fun hc => ?_, fun N hN K hK y hy a ha k hk => ?_⟩
  · rw [f5, GpObj.evalWith, e1, hu, if_neg (by decide), ho]
    rfl
  · rw [hs.etaConst (by rw [hgo, ← e1]; exact hc), hgo, e1]; rfl
  · have := g2 N hN K hK y hy ⟨a, ha⟩ k hk ((g3 ⟨a, ha⟩).2.2 hη)
    have hpre : g.o.precon = (t.obj.mtd == .precon) := by rw [hgo, e1]; rfl
    rw [hpre] at this
    simpa only [dif_pos ha] using this

/-- The invariant of the loop, after `k` iterations. -/
structure LoopInv (st : GpStatic) (d : ℕ → DataIn) (m : WcMtd) (n k : ℕ) (s : Session) : Prop where
  reach : GpReach st s.obj
  mtd : s.obj.mtd = m
  hist : ∃ h, Hist n s h ∧ ∀ j < k, RowOk st (d j) h j

theorem rowOk_same {st : GpStatic} {d : DataIn} {n j : ℕ} {h h' : Surr} (hs : Sized st.dim nBetaCoeff n h) (hr : RowOk st d h j) (he : SameRow h h' j) :
    RowOk st d h' j := by
  obtain ⟨e1, e2, -⟩ := he
  refine ⟨fun k hk => ?_, ?_, ?_, ?_, ?_⟩
  · rw [e2 _ _ (by rw [hs.theta]; exact hk)]; exact hr.theta k hk
  · rw [e1]; exact hr.kernel
  · rw [e1]; exact hr.varK
  · rw [e1]; exact hr.varFval
  · rw [e1]; exact hr.varFgrad

theorem past_of_rows {st : GpStatic} {d : ℕ → DataIn} {n k N : ℕ} {h : Surr} (hns : NoiseStays st d n) (hk : k < n)
    (hr : ∀ j < k, RowOk st (d j) h j) (sl : Slot) (hs : Optimised st (d k) sl) : PastOk h N k sl := by
  intro j hj
  have R := hr j hj.1
  have hno : ∀ {P : Prop}, (∀ d : ℕ, sl ≠ .theta d) → ((∃ d, sl = .theta d) → P) := fun hs ⟨d, hd⟩ => (hs d hd).elim
  cases sl with
  | theta i =>
    obtain ⟨x, h1, h2⟩ := R.theta i hs
    exact ⟨x, h1, h2.le, fun _ => h2⟩
  | kernel =>
    obtain ⟨x, h1, h2⟩ := R.kernel hs.2
    exact ⟨x, h1, h2, hno fun d h => by cases h⟩
  | varK =>
    obtain ⟨x, h1, h2⟩ := R.varK
    exact ⟨x, h1, h2, hno fun d h => by cases h⟩
  | varFval =>
    obtain ⟨x, h1, h2⟩ := R.varFval ((hns j k hj.1 hk).1 hs)
    exact ⟨x, h1, h2, hno fun d h => by cases h⟩
  | varFgrad =>
    obtain ⟨x, h1, h2⟩ := R.varFgrad hs.1 ((hns j k hj.1 hk).2 hs.1 hs.2)
    exact ⟨x, h1, h2, hno fun d h => by cases h⟩

/-- One iteration. -/
theorem loop_step {st : GpStatic} (hi : InitOk st) (hst : NugOk st) (hk : st.kernel = .ratQuad → st.optKernel = true) {d : ℕ → DataIn} {n k : ℕ}
    (hkn : k < n) (hdat : GoodData st (d k)) (h1 : (d 0).fval.size ≤ st.constN) (hns : NoiseStays st d n) {mt : WcMtd} (hmt : (mt.rescales || mt.dfltV) = false)
    {c : OptzCfg} {q : ℕ → Oracle} (ho : LoopOpts st c q) {m : ℕ} (hm1 : 1 ≤ m) (hstart : c.start = .lhs m ∨ (c.start = .hpBest m ∧ (mt = .precon ∨ ∀ k < n, WellCondData st (d k))))
    {s s' : Session} (I : LoopInv st d mt n k s) (hs' : s' = ((SOp.data (d k)).run s).1)
    (hopt : ∀ g info p, s'.obj.view = .ok g → s'.obj.info = some info → startPts c (q k) k s' g info = .ok p → StartsInBox p → RespectsBox ((q k).opt 0) p) :
    ∃ t hv v β, (SOp.data (d k)).run s = (s', .ok ()) ∧ (SOp.hpara c (q k) "optz" k none false).run s' = (t, .ok ()) ∧ UpToDate false t ∧
      t.obj = s'.obj ∧ t.hp = some (HpF.ofVals hv) ∧ HpFor st (d k) hv v β ∧ LoopInv st d mt n (k + 1) t ∧ s'.obj.useScl = false ∧
      ∀ (X : Arr2) (cg : Bool), X.c = st.dim → 0 < X.r → ∃ out, t.predict X cg false = .ok out ∧ PredictsFrom st (d k) t hv v β X out := by
  have hcfg := reach_cfgOk I.reach
  have hu : s.obj.useScl = false := by rw [hcfg.scl, I.mtd]; exact hmt
  obtain ⟨o', hset⟩ := goodData_set hcfg hst hu hdat
  have hrun : (SOp.data (d k)).run s = ({ s with obj := o' }, .ok ()) := by
    have : (SOp.data (d k)).run s = ({ s with obj := (setData (d k) s.obj).1 }, (setData (d k) s.obj).2) := rfl
    rw [this, hset]
  rw [hrun] at hs'
  subst hs'
  obtain ⟨hL, hC, -⟩ := setData_loaded hset
  have hu' : o'.useScl = false := by rw [hL.useScl]; exact hu
  obtain ⟨h, H, hrows⟩ := I.hist
  have hst' : o'.st = st := hL.st.trans hcfg.eq
  have H' : Hist n { s with obj := o' } h := ⟨H.eq, by rw [show ({ s with obj := o' } : Session).obj.st = s.obj.st from hL.st]; exact H.sized, H.save⟩
  have key : ∃ t hv v β, setHpara c (q k) "optz" k none false { s with obj := o' } = (t, .ok ()) ∧ UpToDate false t ∧ t.obj = o' ∧
      t.hp = some (HpF.ofVals hv) ∧ HpFor st (d k) hv v β := by
    rcases Nat.lt_or_ge st.constN (d k).fval.size with hc | hc
    · have hk1 : 1 ≤ k := by
        rcases Nat.eq_zero_or_pos k with rfl | h
        · omega
        · exact h
      obtain ⟨t, hv, v, β, e1, e2, e3, e4, e5, -⟩ := C78_optimisation_succeeds hcfg hst hdat.points hc hset hdat.noise
        (fun e => ⟨hdat.mask e, hk e⟩) hst.1 (s := { s with obj := o' }) rfl H' hk1 hkn (c := c) (q := q k)
        (.inl (by rw [I.mtd]; revert hmt; cases mt.rescales <;> simp))
        ⟨ho.opts, ho.lhsFactor, ho.boxFactor, ho.sampler k, past_of_rows hns hkn hrows⟩ hm1 (by
          rw [I.mtd]
          exact hstart.imp_right fun h => ⟨h.1, h.2.imp_right fun h => h k hkn⟩) hopt none false
      exact ⟨t, hv, v, β, e1, e2, e3, e4, e5⟩
    · obtain ⟨t, g, e1, e2, e3, e4, e5⟩ := C72_few_points I.reach hi hst hdat.points hdat.some hset hdat.noise hdat.mask hc
        (s := { s with obj := o' }) rfl H' ⟨hkn, .inl rfl⟩ c (q k) none false
      refine ⟨t, getInitHp st g, st.varKInit, arrMean g.fval, e1, e2, e5, e4, ?_⟩
      have hss : s.obj.st = st := hcfg.eq
      have R := C67_ready I.reach hi hst hdat.points hdat.some hset hdat.noise hdat.mask e3
      exact ready_hpFor hss hL hC (by rw [hss]; exact hdat.points) (fun e => by rw [hu] at e; cases e) e3 R
  obtain ⟨t, hv, v, β, e1, e2, e3, e4, e5⟩ := key
  obtain ⟨th, t1, t2, -⟩ := e5.theta
  obtain ⟨b, b1, b2, -⟩ := e5.beta
  obtain ⟨h', H2, hsame, hrow⟩ := optz_row H' e1 e4 (ofVals_fits ⟨th, t1, by rw [hst']; exact t2⟩ ⟨b, b1, b2⟩)
  refine ⟨t, hv, v, β, hrun, e1, e2, e3, e4, e5, ⟨?_, ?_, h', H2, fun j hj => ?_⟩, hu', fun X cg hXc hXr => ?_⟩
  · rw [e3]
    have := GpReach.data (d k) I.reach
    rw [hset] at this
    exact this
  · rw [e3, hL.mtd, I.mtd]
  · rcases Nat.lt_succ_iff_lt_or_eq.mp hj with hj | rfl
    · have hz : Sized st.dim nBetaCoeff n h := by
        have := H.sized
        rw [hcfg.eq] at this
        exact this
      exact rowOk_same hz (hrows j hj) (hsame j (by omega))
    · exact rowOk_of e5 hrow
  · exact upToDate_predicts hcfg hst hdat.points hdat.some hset hu' hdat.noise hdat.mask e5 e2 e3 e4 hXc hXr cg

/-- **C79.** The loop of an optimisation with a surrogate. A new object without rescaling; the history is initialised for `n`
iterations; in iteration `k` the data `d k` are set and the hyperparameters are optimised. The data of each iteration fit together, the
first data have at most `hp_const_n_eval` points, the data may change in any way otherwise (points added, dropped or replaced), except
that a noise level that is unknown was unknown before. The options are proper (positive ranges, factors at least one, a sampler that
respects its limits; sampled starting points, or `hp_best` with preconditioning or for
gradient-free data with even noise), and the optimiser, started in the box, returns a
number and a solution in the box. Then no call of any of the `n` iterations raises, and after each the hyperparameters are
proper for its data, the model is up to date, and every prediction is that of the conditional distribution given the data of the
iteration. -/
theorem C79_loop {st : GpStatic} {mt : Option String} {s0 : Session} (h0 : newSession st mt = .ok s0) (hu : s0.obj.useScl = false) (hi : InitOk st)
    (hst : NugOk st) (hker : st.kernel = .ratQuad → st.optKernel = true) {d : ℕ → DataIn} {n : ℕ} (hdat : ∀ k < n, GoodData st (d k))
    (h1 : (d 0).fval.size ≤ st.constN) (hns : NoiseStays st d n) {c : OptzCfg} {q : ℕ → Oracle} (ho : LoopOpts st c q) {m : ℕ} (hm1 : 1 ≤ m)
    (hstart : c.start = .lhs m ∨ (c.start = .hpBest m ∧ (s0.obj.mtd = .precon ∨ ∀ k < n, WellCondData st (d k))))
    (hopt : ∀ k < n, ∀ g info p, (inIter d c q (s0.init n) k).obj.view = .ok g → (inIter d c q (s0.init n) k).obj.info = some info →
      startPts c (q k) k (inIter d c q (s0.init n) k) g info = .ok p → StartsInBox p → RespectsBox ((q k).opt 0) p) {k : ℕ} (hk : k < n) :
    (SOp.data (d k)).run (afterIter d c q (s0.init n) k) = (inIter d c q (s0.init n) k, .ok ()) ∧
    (SOp.hpara c (q k) "optz" k none false).run (inIter d c q (s0.init n) k) = (afterIter d c q (s0.init n) (k + 1), .ok ()) ∧
    UpToDate false (afterIter d c q (s0.init n) (k + 1)) ∧
    ∃ hv v β, (afterIter d c q (s0.init n) (k + 1)).hp = some (HpF.ofVals hv) ∧ HpFor st (d k) hv v β ∧
      ∀ (X : Arr2) (cg : Bool), X.c = st.dim → 0 < X.r → ∃ out, (afterIter d c q (s0.init n) (k + 1)).predict X cg false = .ok out ∧
        PredictsFrom st (d k) (afterIter d c q (s0.init n) (k + 1)) hv v β X out := by
  have hob : ∃ o, newGp st mt = .ok o ∧ s0.obj = o := by
    unfold newSession at h0
    cases hg : newGp st mt with
    | error e => rw [hg] at h0; cases h0
    | ok o => rw [hg] at h0; cases h0; exact ⟨o, rfl, rfl⟩
  obtain ⟨o, ho1, ho2⟩ := hob
  have hr0 : GpReach st s0.obj := by rw [ho2]; exact .new ho1
  have hmt : (s0.obj.mtd.rescales || s0.obj.mtd.dfltV) = false := by rw [← (reach_cfgOk hr0).scl]; exact hu
  have base : LoopInv st d s0.obj.mtd n 0 (s0.init n) := by
    obtain ⟨h, e1, e2, e3, -⟩ := init_sized n s0.surr
    exact ⟨hr0, rfl, h, ⟨e1, e2, e3⟩, fun j hj => absurd hj (by omega)⟩
  have step : ∀ k, k < n → LoopInv st d s0.obj.mtd n k (afterIter d c q (s0.init n) k) → _ := fun k hk I =>
    loop_step hi hst hker hk (hdat k hk) h1 hns hmt ho hm1 hstart I (s' := inIter d c q (s0.init n) k) rfl (hopt k hk)
  have inv : ∀ k, k ≤ n → LoopInv st d s0.obj.mtd n k (afterIter d c q (s0.init n) k) := by
    intro k
    induction k with
    | zero => exact fun _ => base
    | succ k ih =>
      intro hk
      obtain ⟨t, hv, v, β, -, e2, -, -, -, -, e7, -⟩ := step k (by omega) (ih (by omega))
      have : afterIter d c q (s0.init n) (k + 1) = ((SOp.hpara c (q k) "optz" k none false).run (inIter d c q (s0.init n) k)).1 := rfl
      rw [this, e2]
      exact e7
  obtain ⟨t, hv, v, β, e1, e2, e3, e4, e5, e6, -, -, e8⟩ := step k hk (inv k hk.le)
  have : t = afterIter d c q (s0.init n) (k + 1) := by
    have : afterIter d c q (s0.init n) (k + 1) = ((SOp.hpara c (q k) "optz" k none false).run (inIter d c q (s0.init n) k)).1 := rfl
    rw [this, e2]
  subst this
  exact ⟨e1, e2, e3, hv, v, β, e5, e6, e8⟩

/-! ### A concrete loop -/

/-- In iteration `k` there are `k + 1` points in the plane, with gradients; the noise is unknown in the values, and zero in the gradients. -/
def exGrow (k : ℕ) : DataIn where
  x := Nd.of2 (k + 1) 2 fun i j => i * j
  fval := Nd.of1 (k + 1) fun i => i
  stdFval := some (Nd.of1 (k + 1) fun i => if i = 0 then none else some 1)
  grad := some (Nd.of2 (k + 1) 2 fun i j => i + j)
  stdGrad := some (Nd.of2 (k + 1) 2 fun _ _ => some 0)

theorem exGrow_size (k : ℕ) : (exGrow k).fval.size = k + 1 := List.prod_singleton ..

theorem exGrow_grads (k : ℕ) : numGrads (exGrow k) = k + 1 := exGrow_size k

theorem exGrow_good (k : ℕ) : GoodData exStatic (exGrow k) := by
  refine ⟨?_, ⟨rfl, (fun b h => by cases h), rfl, fun G hG => ?_, fun S hS => ?_, fun _ S hS => ?_⟩, ?_, fun _ S _ => ?_, .inl rfl, fun _ => rfl⟩
  · unfold PointsFit; rw [exGrow_size]; rfl
  · rw [exGrow_grads]; cases hG; rfl
  · have := hS.1; cases this; rfl
  · rw [exGrow_grads]; have := hS.1; cases this; rfl
  · rw [exGrow_size]; omega
  · rw [exGrow_grads]; omega

theorem exGrow_noise (k : ℕ) : NoiseUnknown (exGrow k).stdFval := by
  intro S hS
  cases hS
  exact ⟨0, (Nat.succ_pos k).trans_eq (List.prod_singleton ..).symm, rfl⟩

/-- A sampler that returns the lower limits, and an optimiser that does not move. -/
def exStay : Oracle where
  lhs lb _ n := ⟨n, lb.n, fun _ p => lb.get p⟩
  opt _ v := .ok ⟨v, some 0, none⟩
  eig _ _ := (0, 0)
  info := ⟨none, none, none, none, some 0, some 0, none⟩
  time := (some 0, some 0, some 0)
  cond := none

theorem exStay_box (p : StartPts) (h : StartsInBox p) : RespectsBox (exStay.opt 0) p := by
  intro j hj
  obtain ⟨x, h1, h2, h3⟩ := h j hj
  exact ⟨_, x, rfl, by simp, h1, h2, h3⟩

/-- The hypotheses of C79 are met for every number of iterations `n`, here with the rational quadratic kernel, preconditioning and the
best of 40 starting points; in every iteration from the second on the optimiser is called (C78). -/
theorem exLoop (lk : LkdOpts) (n : ℕ) {k : ℕ} (hk : k < n) : ∃ s0 t hv v β, newSession exStatic (some "precon") = .ok s0 ∧
    t = afterIter exGrow { x0 := exX0Opts, start := .hpBest 40, lkd := lk } (fun _ => exStay) (s0.init n) (k + 1) ∧ UpToDate false t ∧
    t.hp = some (HpF.ofVals hv) ∧ HpFor exStatic (exGrow k) hv v β ∧
    ∃ out, t.predict ⟨1, 2, fun _ _ => 1⟩ true false = .ok out ∧ PredictsFrom exStatic (exGrow k) t hv v β ⟨1, 2, fun _ _ => 1⟩ out := by
  obtain ⟨o, ho⟩ := newGp_total exStatic (s := "precon") (by decide)
  have hpre : o.mtd = .precon ∧ o.useScl = false := by
    unfold newGp setWellcond at ho
    cases ho
    exact ⟨rfl, rfl⟩
  have hs0 : newSession exStatic (some "precon") = .ok { obj := o } := by unfold newSession; rw [ho]; rfl
  have hopts : LoopOpts exStatic { x0 := exX0Opts, start := .hpBest 40, lkd := lk } fun _ => exStay := by
    refine ⟨⟨by norm_num [exX0Opts], by norm_num [exX0Opts], by norm_num [exX0Opts], by norm_num [exX0Opts], rfl, by norm_num [exX0Opts]⟩,
      by norm_num [exX0Opts], by norm_num [exX0Opts], fun _ lb ub n h2 hu h => ⟨rfl, rfl, fun k _ p hp => ?_⟩⟩
    obtain ⟨l, u, h1, h2, h3⟩ := h p hp
    exact ⟨l, l, u, h1, h1, h2, le_refl l, h3⟩
  obtain ⟨-, -, h3, hv, v, β, h4, h5, h6⟩ := C79_loop hs0 hpre.2 exStatic_ok.2 exStatic_ok.1 (fun _ => rfl) (d := exGrow) (n := n)
    (fun k _ => exGrow_good k) (by rw [exGrow_size]; exact le_refl 1)
    (fun j k _ _ => ⟨fun _ => exGrow_noise j, fun _ hu => by
      exfalso
      obtain ⟨i, hi, h⟩ := hu _ rfl
      cases h⟩) hopts (m := 40) (by norm_num) (.inr ⟨rfl, .inl hpre.1⟩) (fun k _ g info p _ _ _ hb => exStay_box p hb) hk
  obtain ⟨out, e1, e2⟩ := h6 ⟨1, 2, fun _ _ => 1⟩ true rfl (by decide)
  exact ⟨_, _, hv, v, β, hs0, rfl, h3, h4, h5, out, e1, e2⟩

end Props
