import Verif.Props.RescaleTotal
import Verif.Props.Loop
import Verif.Spec.ScaledLoopSpec

/-! The loop of an optimisation with a surrogate model whose data are scaled: C96. -/

open Np GP Matrix Spec

noncomputable section

namespace Props

/-- The calls of the first `k` iterations. -/
def loopOps (d : ℕ → DataIn) (c : OptzCfg) (q : ℕ → Oracle) (n : ℕ) : ℕ → List SOp
  | 0 => [.init n]
  | k + 1 => loopOps d c q n k ++ [.data (d k), .hpara c (q k) "optz" k none false]

theorem loopOps_run (d : ℕ → DataIn) (c : OptzCfg) (q : ℕ → Oracle) (n : ℕ) (s : Session) (k : ℕ) :
    runOps (loopOps d c q n k) s = afterIter d c q (s.init n) k := by
  induction k with
  | zero => rfl
  | succ k ih =>
    rw [loopOps, runOps_append, ih]
    rfl

/-- The invariant of the loop, after `k` iterations. -/
structure SLoopInv (st : GpStatic) (d : ℕ → DataIn) (m : WcMtd) (n k : ℕ) (s : Session) : Prop where
  mtd : s.obj.mtd = m
  hist : ∃ h, Hist n s h ∧ ∀ j < k, RowOk st (d j) h j

/-- One iteration of the loop with scaled data. -/
theorem sloop_step {st : GpStatic} {m0 : Option String} {s0 : Session} (h0 : newSession st m0 = .ok s0) (hi : InitOk st) (hst : NugOk st)
    (hk : st.kernel = .ratQuad → st.optKernel = true) {d : ℕ → DataIn} {n k : ℕ}
    (hkn : k < n) (hdat : GoodData st (d k)) (hS : st.useGrad = true → ∀ S, (d k).stdGrad = some S → S.shape = [numGrads (d k), st.dim])
    (h1 : (d 0).fval.size ≤ st.constN) (hns : NoiseStays st d n) {mt : WcMtd} (hmt : (mt.rescales || mt.dfltV) = true)
    (hlog : mt.rescales = true → st.log.theta = true) (hD : DistPos st mt) (hsp : mt = .dfltVmax → 2 ≤ (d k).fval.size → Spreadable .dfltVmax (d k).x.mat)
    {c : OptzCfg} {q : ℕ → Oracle} (ho : LoopOpts st c q) {m : ℕ} (hm1 : 1 ≤ m)
    (l : List SOp) {s s' : Session} (hs : s = runOps l s0) (I : SLoopInv st d mt n k s) (hs' : s' = ((SOp.data (d k)).run s).1)
    (hstart : c.start = .lhs m ∨ (c.start = .hpBest m ∧ mt.rescales = true ∧ 1 < c.maxIter ∧
      ∀ g info, s'.obj.view = .ok g → s'.obj.info = some info → ∃ p, startPts c (q k) k s' g info = .ok p))
    (hopt : ∀ g info p, s'.obj.view = .ok g → s'.obj.info = some info → startPts c (q k) k s' g info = .ok p → StartsInBox p →
      RespectsBox ((q k).opt 0) p ∧ ∀ j, 1 ≤ j → LaterRuns st.dim ((q k).opt j) p) :
    ∃ t hv v β, (SOp.data (d k)).run s = (s', .ok ()) ∧ (SOp.hpara c (q k) "optz" k none false).run s' = (t, .ok ()) ∧ UpToDate false t ∧
      t.hp = some (HpF.ofVals hv) ∧ HpFor st (d k) hv v β ∧ SLoopInv st d mt n (k + 1) t ∧
      ∀ (X : Arr2) (cg : Bool), X.c = st.dim → 0 < X.r → ∃ out, t.predict X cg false = .ok out ∧ PredictsScaled st (d k) t hv v β X out := by
  have hcfg : CfgOk st s.obj := by rw [hs]; exact runOps_cfgOk l (new_cfgOk h0)
  have hu : s.obj.useScl = true := by rw [hcfg.scl, I.mtd]; exact hmt
  obtain ⟨o', g, hset, hL, hview, -⟩ := accepts_cfg hcfg hst hdat.fits hdat.points hdat.some hdat.gradNoise hS
  have hrun : (SOp.data (d k)).run s = ({ s with obj := o' }, .ok ()) := by
    have : (SOp.data (d k)).run s = ({ s with obj := (setData (d k) s.obj).1 }, (setData (d k) s.obj).2) := rfl
    rw [this, hset]
  rw [hrun] at hs'
  subst hs'
  obtain ⟨-, hC, -⟩ := setData_loaded hset
  have hu' : o'.useScl = true := by rw [hL.useScl]; exact hu
  obtain ⟨h, H, hrows⟩ := I.hist
  have hst' : o'.st = st := hL.st.trans hcfg.eq
  have hmt' : o'.mtd = mt := hL.mtd.trans I.mtd
  have H' : Hist n { s with obj := o' } h := ⟨H.eq, by rw [show ({ s with obj := o' } : Session).obj.st = s.obj.st from hL.st]; exact H.sized, H.save⟩
  have hrun' : (SOp.data (d k)).run (runOps l s0) = ({ s with obj := o' }, .ok ()) := by rw [← hs]; exact hrun
  have SO : StartOk st (d k) c (q k) h k := ⟨ho.opts, ho.lhsFactor, ho.boxFactor, ho.sampler k, past_of_rows hns hkn hrows⟩
  have key : ∃ t hv v β, setHpara c (q k) "optz" k none false { s with obj := o' } = (t, .ok ()) ∧ UpToDate false t ∧ t.obj.mtd = mt ∧
      t.hp = some (HpF.ofVals hv) ∧ HpFor st (d k) hv v β := by
    rcases Nat.lt_or_ge st.constN (d k).fval.size with hc | hc
    · have hk1 : 1 ≤ k := by
        rcases Nat.eq_zero_or_pos k with rfl | h
        · omega
        · exact h
      by_cases hr : mt.rescales = true ∧ 1 < c.maxIter
      · obtain ⟨t, hv, v, β, e1, e2, e3, e4, -⟩ := C95_rescaling_succeeds h0 hst l hdat.points hc hrun' (by show o'.mtd.rescales = true; rw [hmt']; exact hr.1)
          (hlog hr.1) (by show DistPos st o'.mtd; rw [hmt']; exact hD) (fun e => ⟨hdat.mask e, hk e⟩) [] (by simp) H' hk1 hkn (c := c) (q := q k)
          SO hr.2 hm1 (by rcases hstart with h | h; exacts [.inl h, .inr ⟨h.1, h.2.2.2⟩]) hopt none false (X := ⟨1, st.dim, fun _ _ => 0⟩) rfl one_pos false
        refine ⟨t, hv, v, β, e1, e2, ?_, e3, e4⟩
        obtain ⟨e, p, w1⟩ := setHpara_fst c (q k) "optz" k none false { s with obj := o' }
        obtain ⟨sc, kf, kg, w2⟩ := selectHp_obj c (q k) "optz" k none { s with obj := o' }
        rw [show setHpara c (q k) "optz" k none false { s with obj := o' } = (t, .ok ()) from e1] at w1
        dsimp only at w1
        rw [w1]
        dsimp only
        rw [w2]
        exact hmt'
      · obtain ⟨t, hv, v, β, e1, e2, e3, e4, e5, -⟩ := C78_optimisation_succeeds hcfg hst hdat.points hc hset hdat.noise
          (fun e => ⟨hdat.mask e, hk e⟩) hst.1 (s := { s with obj := o' }) rfl H' hk1 hkn (c := c) (q := q k)
          (by
            rw [I.mtd]
            by_cases hr' : mt.rescales = true
            · right
              by_contra hc'
              exact hr ⟨hr', by omega⟩
            · left; simpa using hr')
          SO hm1 (by rcases hstart with h | h; exacts [.inl h, absurd ⟨h.2.1, h.2.2.1⟩ hr]) (fun g info p a b c d => (hopt g info p a b c d).1) none false
        exact ⟨t, hv, v, β, e1, e2, by rw [e3]; exact hmt', e4, e5⟩
    · obtain ⟨t, g, e1, e2, e3, e4, e5⟩ := few_points_cfg hcfg hi hst hdat.points hdat.some hset hdat.noise hdat.mask hc
        (s := { s with obj := o' }) rfl H' ⟨hkn, .inl rfl⟩ c (q k) none false
      refine ⟨t, getInitHp st g, st.varKInit, arrMean g.fval, e1, e2, by rw [e5]; exact hmt', e4, ?_⟩
      have hss : s.obj.st = st := hcfg.eq
      have R := initReady_cfg hcfg hi hst hdat.points hdat.some hset hdat.noise hdat.mask e3
      exact ready_hpFor hss hL hC (by rw [hss]; exact hdat.points) (fun e => by rw [hss]; exact cfg_scl_grad hcfg e) e3 R
  obtain ⟨t, hv, v, β, e1, e2, e3, e4, e5⟩ := key
  obtain ⟨th, t1, t2, -⟩ := e5.theta
  obtain ⟨b, b1, b2, -⟩ := e5.beta
  obtain ⟨h', H2, hsame, hrow⟩ := optz_row H' e1 e4 (ofVals_fits ⟨th, t1, by rw [hst']; exact t2⟩ ⟨b, b1, b2⟩)
  refine ⟨t, hv, v, β, hrun, e1, e2, e4, e5, ⟨e3, h', H2, fun j hj => ?_⟩, fun X cg hXc hXr => ?_⟩
  · rcases Nat.lt_succ_iff_lt_or_eq.mp hj with hj | rfl
    · have hz : Sized st.dim nBetaCoeff n h := by
        have := H.sized
        rw [hcfg.eq] at this
        exact this
      exact rowOk_same hz (hrows j hj) (hsame j (by omega))
    · exact rowOk_of e5 hrow
  · have hl1 : o'.mtd.rescales = true → st.log.theta = true := by rw [hmt']; exact hlog
    have hD1 : DistPos st o'.mtd := by rw [hmt']; exact hD
    have hsp1 : o'.mtd = .dfltVmax → 2 ≤ (d k).fval.size → Spreadable .dfltVmax (d k).x.mat := by rw [hmt']; exact hsp
    obtain ⟨out, hout⟩ := C94_total h0 hst l hdat.points hdat.some hrun' hl1 hu' hD1 hsp1 hdat.mask [] (by simp) e1 e4 (ofVals_nums hv) e5 hXc hXr cg
    obtain ⟨g, sc, s1, μ, σ, η, w1, -, w3, -, w5, w6, w7, -, -, w⟩ := C94_predictions h0 hst l hdat.points hdat.some hrun' hl1 hu' hD1 hsp1 hdat.mask [] (by simp) e1 e4
      (ofVals_nums hv) e5 hXc hXr hout
    exact ⟨out, hout, g, s1, μ, σ, η, w1, w3, w5, w6, w7, w⟩

/-- **C96.** The loop of an optimisation with a surrogate, for the methods that scale the data (with a fixed scaling, or one that the
optimisation of the hyperparameters changes). A new object; the history is initialised for `n` iterations; in iteration `k` the data
`d k` are set and the hyperparameters are optimised. The data of each iteration fit together, the first data have at most
`hp_const_n_eval` points, the data may change in any way otherwise, except that a noise level that is unknown was unknown before. The
options are proper, the starting points are sampled (or, for the methods that change the scaling, `hp_best` finds one), the optimiser
started in the box returns a number and a solution in the box, and later runs keep the hyperparameters other than the length scales
in the box. Then no call of any of the `n` iterations raises, and after each the hyperparameters are proper for its data, the model is up
to date, and every prediction is that of the conditional distribution given the data of the iteration, in original units. -/
theorem C96_loop {st : GpStatic} {m0 : Option String} {s0 : Session} (h0 : newSession st m0 = .ok s0) (hu : s0.obj.useScl = true) (hi : InitOk st)
    (hst : NugOk st) (hker : st.kernel = .ratQuad → st.optKernel = true) (hlog : s0.obj.mtd.rescales = true → st.log.theta = true)
    (hD : DistPos st s0.obj.mtd) {d : ℕ → DataIn} {n : ℕ} (hdat : ∀ k < n, GoodData st (d k))
    (hS : ∀ k < n, ∀ S, (d k).stdGrad = some S → S.shape = [numGrads (d k), st.dim])
    (hsp : ∀ k < n, s0.obj.mtd = .dfltVmax → 2 ≤ (d k).fval.size → Spreadable .dfltVmax (d k).x.mat)
    (h1 : (d 0).fval.size ≤ st.constN) (hns : NoiseStays st d n) {c : OptzCfg} {q : ℕ → Oracle} (ho : LoopOpts st c q) {m : ℕ} (hm1 : 1 ≤ m)
    (hstart : c.start = .lhs m ∨ (c.start = .hpBest m ∧ s0.obj.mtd.rescales = true ∧ 1 < c.maxIter ∧
      ∀ k < n, ∀ g info, (inIter d c q (s0.init n) k).obj.view = .ok g → (inIter d c q (s0.init n) k).obj.info = some info →
        ∃ p, startPts c (q k) k (inIter d c q (s0.init n) k) g info = .ok p))
    (hopt : ∀ k < n, ∀ g info p, (inIter d c q (s0.init n) k).obj.view = .ok g → (inIter d c q (s0.init n) k).obj.info = some info →
      startPts c (q k) k (inIter d c q (s0.init n) k) g info = .ok p → StartsInBox p →
      RespectsBox ((q k).opt 0) p ∧ ∀ j, 1 ≤ j → LaterRuns st.dim ((q k).opt j) p) {k : ℕ} (hk : k < n) :
    (SOp.data (d k)).run (afterIter d c q (s0.init n) k) = (inIter d c q (s0.init n) k, .ok ()) ∧
    (SOp.hpara c (q k) "optz" k none false).run (inIter d c q (s0.init n) k) = (afterIter d c q (s0.init n) (k + 1), .ok ()) ∧
    UpToDate false (afterIter d c q (s0.init n) (k + 1)) ∧
    ∃ hv v β, (afterIter d c q (s0.init n) (k + 1)).hp = some (HpF.ofVals hv) ∧ HpFor st (d k) hv v β ∧
      ∀ (X : Arr2) (cg : Bool), X.c = st.dim → 0 < X.r → ∃ out, (afterIter d c q (s0.init n) (k + 1)).predict X cg false = .ok out ∧
        PredictsScaled st (d k) (afterIter d c q (s0.init n) (k + 1)) hv v β X out := by
  have hmt : (s0.obj.mtd.rescales || s0.obj.mtd.dfltV) = true := by rw [← (new_cfgOk h0).scl]; exact hu
  have base : SLoopInv st d s0.obj.mtd n 0 (s0.init n) := by
    obtain ⟨h, e1, e2, e3, -⟩ := init_sized n s0.surr
    exact ⟨rfl, h, ⟨e1, e2, e3⟩, fun j hj => absurd hj (by omega)⟩
  have step : ∀ k, k < n → SLoopInv st d s0.obj.mtd n k (afterIter d c q (s0.init n) k) → _ := fun k hk I =>
    sloop_step h0 hi hst hker hk (hdat k hk) (fun _ => hS k hk) h1 hns hmt hlog hD (hsp k hk) ho hm1 (loopOps d c q n k) (loopOps_run d c q n s0 k).symm I
      (s' := inIter d c q (s0.init n) k) rfl (by rcases hstart with h | ⟨h1, h2, h3, h4⟩; exacts [.inl h, .inr ⟨h1, h2, h3, h4 k hk⟩]) (hopt k hk)
  have inv : ∀ k, k ≤ n → SLoopInv st d s0.obj.mtd n k (afterIter d c q (s0.init n) k) := by
    intro k
    induction k with
    | zero => exact fun _ => base
    | succ k ih =>
      intro hk
      obtain ⟨t, hv, v, β, -, e2, -, -, -, e7, -⟩ := step k (by omega) (ih (by omega))
      have : afterIter d c q (s0.init n) (k + 1) = ((SOp.hpara c (q k) "optz" k none false).run (inIter d c q (s0.init n) k)).1 := rfl
      rw [this, e2]
      exact e7
  obtain ⟨t, hv, v, β, e1, e2, e3, e4, e5, -, e8⟩ := step k hk (inv k hk.le)
  have : t = afterIter d c q (s0.init n) (k + 1) := by
    have : afterIter d c q (s0.init n) (k + 1) = ((SOp.hpara c (q k) "optz" k none false).run (inIter d c q (s0.init n) k)).1 := rfl
    rw [this, e2]
  subst this
  exact ⟨e1, e2, e3, hv, v, β, e4, e5, e8⟩

/-! ### A concrete loop -/

theorem exStay_later (dim j : ℕ) (p : StartPts) : LaterRuns dim (exStay.opt j) p := by
  intro y hy
  have hn : (startAt y).nums = some y := by
    unfold FVec.nums startAt
    rw [if_pos (by simp)]
    rfl
  exact ⟨_, y, rfl, by simp, hn, hy⟩

theorem exGrow_spreadable (k : ℕ) (h : 2 ≤ (exGrow k).fval.size) : Spreadable .dfltVmax (exGrow k).x.mat := by
  rw [exGrow_size] at h
  refine ⟨0, by show 0 < k + 1; omega, 1, by show 1 < k + 1; omega, 1, by show (1 : ℕ) < 2; decide, ?_⟩
  show ((0 : ℕ) : ℝ) * ((1 : ℕ) : ℝ) ≠ ((1 : ℕ) : ℝ) * ((1 : ℕ) : ℝ)
  norm_num

/-- The hypotheses of C96 (and of C95) are met for all four scaling methods and every number of iterations `n`, here with the rational
quadratic kernel and sampled starting points; in every iteration from the second on the optimiser is called. -/
theorem exScaledLoop {w : String} (hw : w ∈ ["rescale_origin", "rescale_eta_vary", "dflt_vmin", "dflt_vmax"]) (lk : LkdOpts) (n : ℕ) {k : ℕ} (hk : k < n) :
    ∃ s0 t hv v β, newSession exStatic (some w) = .ok s0 ∧ s0.obj.useScl = true ∧
    t = afterIter exGrow { x0 := exX0Opts, start := .lhs 5, lkd := lk } (fun _ => exStay) (s0.init n) (k + 1) ∧ UpToDate false t ∧
    t.hp = some (HpF.ofVals hv) ∧ HpFor exStatic (exGrow k) hv v β ∧
    ∃ out, t.predict ⟨1, 2, fun _ _ => 1⟩ true false = .ok out ∧ PredictsScaled exStatic (exGrow k) t hv v β ⟨1, 2, fun _ _ => 1⟩ out := by
  have hw' : w ∈ wcAvail := by
    simp only [List.mem_cons, List.not_mem_nil, or_false] at hw
    rcases hw with rfl | rfl | rfl | rfl <;> decide
  obtain ⟨o, ho⟩ := newGp_total exStatic hw'
  have hs0 : newSession exStatic (some w) = .ok { obj := o } := by unfold newSession; rw [ho]; rfl
  have huo : o.useScl = true := by
    unfold newGp setWellcond at ho
    simp only [List.mem_cons, List.not_mem_nil, or_false] at hw
    rcases hw with rfl | rfl | rfl | rfl <;> (cases ho; rfl)
  have hopts : LoopOpts exStatic { x0 := exX0Opts, start := .lhs 5, lkd := lk } fun _ => exStay := by
    refine ⟨⟨by norm_num [exX0Opts], by norm_num [exX0Opts], by norm_num [exX0Opts], by norm_num [exX0Opts], rfl, by norm_num [exX0Opts]⟩,
      by norm_num [exX0Opts], by norm_num [exX0Opts], fun _ lb ub n h2 hu h => ⟨rfl, rfl, fun k _ p hp => ?_⟩⟩
    obtain ⟨l, u, h1, h2, h3⟩ := h p hp
    exact ⟨l, l, u, h1, h1, h2, le_refl l, h3⟩
  obtain ⟨-, -, h3, hv, v, β, h4, h5, h6⟩ := C96_loop hs0 huo exStatic_ok.2 exStatic_ok.1 (fun _ => rfl) (fun _ => rfl) (exStatic_dist _) (d := exGrow) (n := n)
    (fun k _ => exGrow_good k) (fun k _ S hS => by cases hS; rw [exGrow_grads]; rfl) (fun k _ _ h => exGrow_spreadable k h) (by rw [exGrow_size]; exact le_refl 1)
    (fun j k _ _ => ⟨fun _ => exGrow_noise j, fun _ hu => by
      exfalso
      obtain ⟨i, hi, h⟩ := hu _ rfl
      cases h⟩) hopts (m := 5) (by norm_num) (.inl rfl) (fun k _ g info p _ _ _ hb => ⟨exStay_box p hb, fun j _ => exStay_later _ j p⟩) hk
  obtain ⟨out, e1, e2⟩ := h6 ⟨1, 2, fun _ _ => 1⟩ true rfl (by decide)
  exact ⟨_, _, hv, v, β, hs0, huo, rfl, h3, h4, h5, out, e1, e2⟩

/-- The configuration of the example. -/
def exWarmCfg (lk : LkdOpts) : OptzCfg := { x0 := exX0Opts, start := .lhs 5, lkd := lk }

/-- A minimiser that always ends at the same vector: length scales 1 and 10 (they are optimised as logarithms), 1 for the other
hyperparameters that are optimised as logarithms. -/
def exFixed (n : ℕ) : Oracle := { exStay with opt := fun _ _ => .ok ⟨⟨n, fun i => some (if i = 1 then 1 else 0)⟩, some 0, none⟩ }

theorem runOptz_const {o : GpObj} {q : Oracle} {x : FMat} {r : Run} {b : Arr1} (hx : 0 < x.r) (hq : ∀ v, q.opt 0 v = .ok r) (hr : r.obj.isSome)
    (hn : r.sol.nums = some b) : runOptz o q 0 x = .ok b := by
  have hm : ∀ l : List ℕ, l.mapM (fun k => q.opt 0 (x.row k)) = .ok (List.replicate l.length r) := by
    intro l
    induction l with
    | nil => rfl
    | cons a l ih => rw [List.mapM_cons, hq, ok_bind, ih]; rfl
  unfold runOptz optzMaxLkd
  rw [hm, ok_bind]
  cases hp : pickBest o.useCstr o.st.condMax (List.replicate (List.range x.r).length r) with
  | error e =>
    have := C58_raises.mp ⟨e, hp⟩ r (by simp; omega) (fun ⟨q, hq, hg⟩ => by rw [List.eq_of_mem_replicate hq] at hg; exact hg)
    rw [this] at hr; cases hr
  | ok c =>
    have := List.eq_of_mem_replicate (C58_best_run hp).1
    subst this
    rw [ok_bind]
    show numsOr c.sol = _
    unfold numsOr; rw [hn]

theorem run_mtd {s : Session} {a : SOp} (ha : ∀ w, a ≠ .wellcond w) : (a.run s).1.obj.mtd = s.obj.mtd := by
  cases a with
  | wellcond m => exact absurd rfl (ha m)
  | data d =>
    have h := setData_frame d s.obj
    simp only [cfg, Prod.mk.injEq] at h
    exact h.2.1
  | init n => rfl
  | hpara c q m i hp cc =>
    obtain ⟨e, p, he⟩ := setHpara_fst c q m i hp cc s
    obtain ⟨sc, kf, kg, ho⟩ := selectHp_obj c q m i hp s
    show (setHpara c q m i hp cc s).1.obj.mtd = _
    rw [he]
    show (selectHp c q m i hp s).1.obj.mtd = _
    rw [ho]
  | custom h =>
    show (setCustomHp h s).1.obj.mtd = _
    unfold setCustomHp
    split
    · rfl
    · split <;> rfl
    · rfl
  | finish n =>
    obtain ⟨x, hx⟩ := finish_frame n s.surr
    show (s.put (finishSurr n s.surr).1).obj.mtd = _
    rw [hx, put_hist]
  | load d =>
    obtain ⟨x, hx⟩ := load_frame d s.surr
    show (s.put (loadSurr d s.surr).1).obj.mtd = _
    rw [hx, put_hist]

/-- The hypotheses of the C93 theorems are met by an object that has been through one iteration of the loop and has got the data of the
second: two points, the optimiser called for the first time, and ending at two different length scales. -/
theorem exWarm (lk : LkdOpts) : ∃ s0 s g info p scl best, newSession exStatic (some "rescale_origin") = .ok s0 ∧
    s = inIter exGrow (exWarmCfg lk) (fun _ => exStay) (s0.init 2) 1 ∧ s.obj.view = .ok g ∧ s.obj.st.constN < s.obj.nEval ∧ s.obj.info = some info ∧
    startPts (exWarmCfg lk) (exFixed info.nHp) 1 s g info = .ok p ∧ s.obj.mtd.rescales = true ∧ 2 ≤ (exWarmCfg lk).maxIter ∧ 0 < (exWarmCfg lk).tol ∧
    s.obj.scl = some scl ∧ RescaleReady (s.obj.rescaleOpts (exWarmCfg lk) info) scl best ∧ runOptz s.obj (exFixed info.nHp) 0 p.x0 = .ok best ∧
    (exWarmCfg lk).tol ≤ logSpread s.obj.st.dim (thetaOf s.obj.st.log.theta best) ∧
    s.obj.st = exStatic ∧ 2 ≤ info.nHp := by
  obtain ⟨o, ho⟩ := newGp_total exStatic (s := "rescale_origin") (by decide)
  have hs0 : newSession exStatic (some "rescale_origin") = .ok { obj := o } := by unfold newSession; rw [ho]; rfl
  have huo : o.useScl = true ∧ o.mtd = .rescaleOrigin := by
    unfold newGp setWellcond at ho
    cases ho; exact ⟨rfl, rfl⟩
  have hopts : LoopOpts exStatic (exWarmCfg lk) fun _ => exStay := by
    refine ⟨⟨by norm_num [exX0Opts, exWarmCfg], by norm_num [exX0Opts, exWarmCfg], by norm_num [exX0Opts, exWarmCfg], by norm_num [exX0Opts, exWarmCfg], rfl, by norm_num [exX0Opts, exWarmCfg]⟩,
      by norm_num [exX0Opts, exWarmCfg], by norm_num [exX0Opts, exWarmCfg], fun _ lb ub n h2 hu h => ⟨rfl, rfl, fun k _ p hp => ?_⟩⟩
    obtain ⟨l, u, h1, h2, h3⟩ := h p hp
    exact ⟨l, l, u, h1, h1, h2, le_refl l, h3⟩
  obtain ⟨hdat, hopz, -⟩ := C96_loop hs0 huo.1 exStatic_ok.2 exStatic_ok.1 (fun _ => rfl) (fun _ => rfl) (exStatic_dist _) (d := exGrow) (n := 2)
    (fun k _ => exGrow_good k) (fun k _ S hS => by cases hS; rw [exGrow_grads]; rfl) (fun k _ _ h => exGrow_spreadable k h) (by rw [exGrow_size]; exact le_refl 1)
    (fun j k _ _ => ⟨fun _ => exGrow_noise j, fun _ hu => by
      exfalso
      obtain ⟨i, hi, h⟩ := hu _ rfl
      cases h⟩) hopts (m := 5) (by norm_num) (.inl rfl) (fun k _ g info p _ _ _ hb => ⟨exStay_box p hb, fun j _ => exStay_later _ j p⟩) (k := 1) (by norm_num)
  have hcfg : CfgOk exStatic (afterIter exGrow (exWarmCfg lk) (fun _ => exStay) (({ obj := o } : Session).init 2) 1).obj := by
    rw [← loopOps_run]; exact runOps_cfgOk _ (new_cfgOk hs0)
  generalize hA : afterIter exGrow (exWarmCfg lk) (fun _ => exStay) (({ obj := o } : Session).init 2) 1 = A at hdat hcfg
  generalize hs : inIter exGrow (exWarmCfg lk) (fun _ => exStay) (({ obj := o } : Session).init 2) 1 = s at hdat hopz
  have hset := data_call hdat
  obtain ⟨hL, hC, -⟩ := setData_loaded hset
  have hmA : A.obj.mtd = .rescaleOrigin := by
    rw [← hA]
    refine (run_mtd (by simp)).trans ((run_mtd (by simp)).trans huo.2)
  have hAst : A.obj.st = exStatic := hcfg.eq
  have hms : s.obj.mtd = .rescaleOrigin := hL.mtd.trans hmA
  have huA : A.obj.useScl = true := by rw [hcfg.scl, hmA]; rfl
  obtain ⟨g, info, D⟩ := optz_data hcfg exStatic_ok.1 (exGrow_good 1).points (exGrow_good 1).some hset (exGrow_good 1).noise (exGrow_good 1).mask
  obtain ⟨-, t, e, pp, hsel, -⟩ := setHpara_ok (show setHpara _ _ _ _ _ _ s = _ from hopz)
  have hoz : optzHp (exWarmCfg lk) exStay 1 s = (t, .ok ()) := by
    simpa [selectHp] using hsel
  have hne : s.obj.st.constN < s.obj.nEval := by
    rw [D.static, D.oEval, exGrow_size]; exact one_lt_two
  have hnum : optzNum (exWarmCfg lk) exStay 1 g s = (t, .ok ()) := by
    unfold optzHp at hoz
    rw [D.view] at hoz
    dsimp only at hoz
    rw [if_neg (by omega)] at hoz
    exact hoz
  unfold optzNum at hnum
  rw [D.layout] at hnum
  dsimp only at hnum
  cases hp : startPts (exWarmCfg lk) exStay 1 s g info with
  | error e => rw [hp] at hnum; cases hnum
  | ok p =>
  rw [hp] at hnum
  dsimp only at hnum
  have hpr : 0 < p.x0.r := by
    by_contra hc
    have hz : p.x0.r = 0 := by omega
    have hrun : ∃ e, runOptz s.obj exStay 0 p.x0 = .error e := by
      unfold runOptz optzMaxLkd
      rw [hz]
      simp only [List.range_zero, List.mapM_nil]
      exact ⟨_, rfl⟩
    obtain ⟨e, he⟩ := hrun
    have : ∃ o e', optzVec (exWarmCfg lk) exStay s.obj g info p.x0 = (o, .error e') := by
      unfold optzVec
      split
      · split
        · exact ⟨_, _, rfl⟩
        · rename_i sc _
          have : optzRescale (s.obj.rescaleOpts (exWarmCfg lk) info) (rescaleOpt s.obj exStay p.x0) ⟨0, fun _ => 0⟩ sc = (sc, .error e) := by
            unfold optzRescale rescaleOpt
            rw [if_pos rfl, he]
          rw [this]
          exact ⟨_, _, rfl⟩
      · rw [he]
        exact ⟨_, _, rfl⟩
    obtain ⟨o2, e2, h2⟩ := this
    rw [h2] at hnum
    cases hnum
  obtain ⟨sc, s00, od, m, D', h1, h2, h3, h4, h5, h6, h7, h8⟩ := setData_scaled hset huA
  obtain ⟨sk, odk, k1, K, k3, k4⟩ := data_keep hcfg exStatic_ok.1 (exGrow_good 1).points (exGrow_good 1).some hset (hL.useScl.trans huA) (exStatic_dist _) (fun _ h => exGrow_spreadable 1 h)
  rw [h1] at k1
  cases k1
  have hidx := D.idx
  rw [setupHpIdx_ok] at hidx
  have hidt : info.idxTheta = List.range 2 := by
    have hd : g.dim = 2 := D.dim
    cases hidx
    rw [← hd]
    rfl
  have hnHp : 2 ≤ info.nHp := by
    have hd : g.dim = 2 := D.dim
    have hlen : (gpSlots g exStatic.optKernel).length = info.nHp := by
      cases hidx
      exact hpSlots_length ..
    rw [← hlen]
    unfold gpSlots hpSlots
    simp [hd]
  have hxr : (exGrow 1).x.mat.r = 2 := rfl
  have hxc : (exGrow 1).x.mat.c = 2 := rfl
  have hDm : m = .vmin ∧ D' = calcVreq 2 2 := by
    unfold scaleArgs at h3
    rw [hmA, hAst, exGrow_size] at h3
    cases h3
    exact ⟨rfl, rfl⟩
  obtain ⟨rfl, rfl⟩ := hDm
  have hDp : 1 ≤ calcVreq 2 2 := (vreq_pos (le_refl 2) two_pos).le
  obtain ⟨f1, f2, f3, f4, f5, f6⟩ := setObjData_frame h4
  have hmin : IsMinDist sc.xScl (calcVreq 2 2) := by
    rw [f3]
    unfold newScl at h2
    dsimp only at h2
    rw [if_neg (by decide)] at h2
    obtain ⟨l1, l2⟩ := C47_min_distance h2 rfl (le_refl 2) (lt_of_lt_of_le one_pos hDp) (by
      intro p hp q hq hpq
      refine le_trans (b := 1) (by norm_num) (Real.le_sqrt_of_sq_le ?_)
      show (1 : ℝ) ^ 2 ≤ ∑ i ∈ Finset.range 2, (((p : ℝ) * (i : ℝ)) * 1 - ((q : ℝ) * (i : ℝ)) * 1) ^ 2
      rw [Finset.sum_range_succ, Finset.sum_range_one]
      have hz : ((p : ℤ) - q) ≠ 0 := sub_ne_zero.mpr (by exact_mod_cast hpq)
      have h1 : (1 : ℤ) ≤ ((p : ℤ) - q) ^ 2 := by
        have := sq_pos_of_ne_zero hz
        omega
      have h2 : (1 : ℝ) ≤ ((p : ℝ) - q) ^ 2 := by exact_mod_cast h1
      push_cast
      nlinarith)
    exact l1
  have hsep : ∀ p < sc.xInit.r, ∀ q < sc.xInit.r, p ≠ q → 1 ≤ ptDist sc.xScl p q := by
    intro p hp q hq hpq
    rw [← K.images.x.1] at hp hq
    exact hDp.trans (hmin.2 p hp q hq hpq)
  have hst : s.obj.st = exStatic := D.static
  set best : Arr1 := ⟨info.nHp, fun i => if i = 1 then 1 else 0⟩ with hbest
  have t0 : thetaOf true best 0 = 1 := by simp [thetaOf, hbest]
  have t1 : thetaOf true best 1 = 10 := by simp [thetaOf, hbest]
  have hone : ∀ d < 2, 1 ≤ thetaOf true best d := by
    intro d hd
    have : d = 0 ∨ d = 1 := by omega
    rcases this with rfl | rfl
    · rw [t0]
    · rw [t1]; norm_num
  have hG : geoMean 2 (thetaOf true best) ≤ 4 := by
    rw [geoMean, Finset.prod_range_succ, Finset.prod_range_one, t0, t1, one_mul]
    push_cast
    rw [← Real.sqrt_eq_rpow]
    refine Real.sqrt_le_iff.mpr ⟨by norm_num, by norm_num⟩
  have hGp : 0 < geoMean 2 (thetaOf true best) := geoMean_pos fun d hd => lt_of_lt_of_le one_pos (hone d hd)
  have hopt : s.obj.rescaleOpts (exWarmCfg lk) info = exRescaleOpts := by
    unfold GpObj.rescaleOpts
    rw [hst, hidt]
    rfl
  refine ⟨_, s, g, info, p, sc, best, hs0, hs.symm, D.view, hne, D.layout, hp, by rw [hms]; rfl, by show 2 ≤ 3; norm_num, by show (0 : ℝ) < 1 / 10; norm_num, h1, ?_,
    runOptz_const hpr (fun _ => rfl) rfl ?_, ?_, hst, hnHp⟩
  · rw [hopt]
    exact {
      images := K.images
      two := by rw [K.xInit]; exact le_refl 2
      dim := by rw [K.xInit]; rfl
      dim_pos := two_pos
      idx := rfl
      mtd := K.mtd (by rw [hms]; rfl)
      best_n := hnHp
      theta_pos := fun d hd => lt_of_lt_of_le one_pos (hone d hd)
      index := by rw [K.xInit]; exact K.index
      dist := K.dist
      scale := K.scale
      obj := fun d hd => by rw [K.obj] at hd; cases hd; rw [K.xInit]; exact K.fits
      box := K.box
      lin := K.lin
      nlc := K.nlc
      sep := fun p hp q hq hpq => by
        refine le_trans ?_ (ptDist_lower (m := 1 / 2) (by norm_num) (fun d hd => ?_) p q)
        · have := hsep p hp q hq hpq
          refine le_trans (by norm_num : (10 : ℝ) ^ (-15 : ℤ) ≤ 1 / 2 * 1) ?_
          linarith
        · refine Real.le_sqrt_of_sq_le ?_
          show (1 / 2 : ℝ) ^ 2 ≤ thetaOf true best d / geoMean 2 (thetaOf true best)
          rw [le_div_iff₀ hGp]
          have := hone d (by rw [K.images.x.2.1, K.xInit] at hd; exact hd)
          linarith
      sep0 := fun p hp q hq hpq => le_trans (by norm_num) (hsep p hp q hq hpq) }
  · unfold FVec.nums
    rw [if_pos (by simp)]
    rfl
  · rw [hst]
    show (1 / 10 : ℝ) ≤ logSpread 2 (thetaOf true best)
    rw [logSpread, Finset.sum_range_succ, Finset.sum_range_one, Finset.sum_range_succ, Finset.sum_range_one, t0, t1, Real.logb_one]
    have : Real.logb 10 10 = 1 := Real.logb_self_eq_one (by norm_num)
    rw [this]
    norm_num

/-- `C93_second_run` applies in this case. -/
example (lk : LkdOpts) : ∃ (s : Session) (g : Gp) (info : HpInfo) (p : StartPts) (s' : Scl) (hp : Arr1) (T : ℝ),
    optzVec (exWarmCfg lk) (exFixed info.nHp) s.obj g info p.x0 = ({ s.obj with scl := some s' }, .ok (hp, none)) ∧
      ∀ d < 2, thetaOf true hp d = T := by
  obtain ⟨s0, s, g, info, p, scl, best, h0, hs, hv, hn, hi, hp, hm, hit, htol, hscl, hR, h1, hsp, hst, hnHp⟩ := exWarm lk
  obtain ⟨y, t, ht, hy, -, -, -, -, h⟩ := C93_second_run (g := g) hm hit htol hscl hR h1 hsp
  obtain ⟨s', hp', t', e1, -, -, e2⟩ := h _ ⟨info.nHp, fun i => if i = 1 then 1 else 0⟩ rfl rfl (by
    unfold FVec.nums
    rw [if_pos (by simp)]
    rfl) (by rw [hst]; exact hnHp)
  refine ⟨s, g, info, p, s', hp', t', e1, ?_⟩
  rw [hst] at e2
  exact e2

end Props
