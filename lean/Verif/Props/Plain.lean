import Verif.Props.Loop

/-! Property C99 for objects: gradient-free data with even noise. -/

open Np GP Spec

noncomputable section

namespace Props

/-- **C99.** An object without gradients, whatever calls were made before. Data with even noise were accepted; after any successful
optimisation (few points or many, any starting points, any optimiser that returns something admissible) the recorded condition number is at
most the target. -/
theorem C99_recorded {st : GpStatic} (hlo : st.log.var = true) (hi : 0 < st.varKInit) (hst : NugOk st) {m : Option String} {s0 s1 : Session}
    (h0 : newSession st m = .ok s0) (l0 : List SOp) (hl0 : ∀ a ∈ l0, a.posSet)
    {d : DataIn} (W : WellCondData st d) (hX : PointsFit st.dim d) (hn : 0 < d.fval.size) (hm : st.kernel = .ratQuad → numGrads d = d.fval.size)
    (hd : (SOp.data d).run (runOps l0 s0) = (s1, .ok ())) {h : Surr} (hh : s1.h = some h)
    {c : OptzCfg} {q : Oracle} {k : ℕ} {hp : Option HpF} {cc : Bool} {t : Session} (ht : setHpara c q "optz" k hp cc s1 = (t, .ok ()))
    {hv : HpVals} (hv' : t.hp = some (HpF.ofVals hv)) {v β : ℝ} (hhv : HpFor st d hv v β) :
    ∃ h' κ, t.h = some h' ∧ (h'.one .cond).get k = some κ ∧ κ ≤ st.condMaxTarget := by
  have hcfg : CfgOk st (runOps l0 s0).obj := runOps_cfgOk l0 (new_cfgOk h0)
  have hd' := data_call hd
  obtain ⟨hL, hC, -⟩ := setData_loaded hd'
  have hst' : (runOps l0 s0).obj.st = st := hcfg.eq
  have hb : (runOps l0 s0).obj.mtd = .base := hcfg.base W.useGrad
  have hs1 : runOps (l0 ++ [.data d]) s0 = s1 := by rw [runOps_append, runOps, runOps, hd]
  have hus : (runOps l0 s0).obj.useScl = false := by
    rw [hcfg.scl, hb]; rfl
  have hpos : ∀ a ∈ l0 ++ [.data d], a.posSet := by
    intro a ha
    rcases List.mem_append.mp ha with ha | ha
    · exact hl0 a ha
    · rw [List.mem_singleton] at ha; rw [ha]; trivial
  obtain ⟨-, hv2, -, ⟨sc, h1, e, p, hfr⟩, -⟩ := C66_optz (runOps_inv hlo hi (l0 ++ [.data d]) (new_inv h0) hpos) (by rw [hs1]; exact ht)
  obtain ⟨k', h', hv1, a, e1, e2, e3, e4, e5, -, e6⟩ := C77_optimised_row hlo hi h0 (l0 ++ [.data d]) hpos
    (by rw [hs1]; exact hh) (c := c) (q := q) (i := k) (hp := hp) (cc := cc) (t := t) (by rw [hs1]; exact ht) (by
      intro hu
      rw [hfr, hs1] at hu
      have : s1.obj.useScl = true := hu
      rw [hL.useScl, hus] at this
      cases this)
  obtain rfl := denotes_nat e1
  have hvv : hv1 = hv := by
    rw [hv'] at e3
    have := ofVals_nums hv
    rw [Option.some.inj e3, ofVals_nums] at this
    exact Option.some.inj this
  subst hvv
  have hu0 : (runOps l0 s0).obj.useScl = true → (runOps l0 s0).obj.st.useGrad = true := fun h => by rw [hus] at h; cases h
  obtain ⟨g0, g, v1, v2, -, v4, -⟩ := loaded_view hL (by rw [hst']; rw [hst'] at hC; exact hC) (by rw [hst']; exact hX) hu0
  obtain ⟨P, p1, p2, p3, p4⟩ := plain_ok hcfg hst hX hd' W v2
  have hkn : ∃ S, NoiseKnown d.stdFval S := by
    rcases W.noise with ⟨S, h1, -⟩ | ⟨S, h1, -⟩ <;> exact ⟨S, h1⟩
  obtain ⟨R, hη⟩ := data_ready hcfg hst hX hn hd' (.inr hkn) hm (.inl v2) hhv
  have hmt : t.obj.mtd = .base := by rw [hfr, hs1]; exact p3
  obtain ⟨κ, η, k1, k2, k3⟩ := e6 (.inr (.inl (by rw [hmt]; rfl))) g (by rw [hs1]; exact v2) v β R hη
  obtain ⟨T, hT, -⟩ := calcRtensor_ok (X := g.x) (Y := g.x) rfl
  obtain ⟨Na, K, out, n1, n2, n3, n4, n5, n6, n7, n8⟩ := calcAllK_ok R.ok R.adm R.noise R.precon R.ne hT false true none false R.vpos
    ⟨⟨v, by simpa using R.varK, fun _ => rfl⟩, fun h => by cases h⟩
  obtain ⟨m1, m2⟩ := k3 K (toVec g.nData Na) n3 ⟨Na, n2, fun _ => rfl⟩
  have hnd : 0 < g.nData := by rw [R.ok.nData]; have := R.ne; omega
  have hnug := cov_nugget R.vpos hnd n8
  have hηe := isNugget_unique m1 hnug
  have hcl := (plain_bound R.ok R.adm R.ne P hT false R.vpos (by simpa using R.varK) n7).2
  rw [P.norm, P.precon, hηe] at m2
  rw [cov_noisyCov R.vpos n8, P.precon, p1] at hcl
  exact ⟨h', κ, e2, k1, isCondNum_le m2 hcl⟩

/-! ### A concrete loop without gradients -/

/-- A Matérn kernel in two dimensions without gradients; the options as in the class. -/
def exFreeStatic : GpStatic := { dim := 2, useGrad := false, kernel := .matern }

theorem exFreeStatic_ok : NugOk exFreeStatic ∧ InitOk exFreeStatic := by
  refine ⟨⟨by decide, ?_, Or.inl rfl⟩, ⟨?_, ?_, ?_, ?_⟩⟩
  · show (1 : ℝ) < 10 ^ 10; norm_num
  · show (0 : ℝ) < 1 / 100; norm_num
  · show (0 : ℝ) < 1; norm_num
  · show (0 : ℝ) ≤ 0; norm_num
  · show (0 : ℝ) ≤ 0; norm_num

/-- In iteration `k` there are `k + 1` points in the plane (many of which coincide in the first coordinate), all with the same noise. -/
def exFreeGrow (k : ℕ) : DataIn where
  x := Nd.of2 (k + 1) 2 fun i j => i * j
  fval := Nd.of1 (k + 1) fun i => i
  stdFval := some (Nd.of1 (k + 1) fun _ => some (1 / 2))
  grad := none
  stdGrad := none

theorem exFreeGrow_size (k : ℕ) : (exFreeGrow k).fval.size = k + 1 := List.prod_singleton ..

theorem exFreeGrow_good (k : ℕ) : GoodData exFreeStatic (exFreeGrow k) := by
  refine ⟨?_, ⟨rfl, (fun b h => by cases h), rfl, fun G hG => (by cases hG), fun S hS => ?_, fun h => (by cases h)⟩, ?_, fun h => (by cases h),
    .inr ⟨_, rfl, fun k _ h => by cases h⟩, fun h => (by cases h)⟩
  · unfold PointsFit; rw [exFreeGrow_size]; rfl
  · have := hS.1; cases this; rfl
  · rw [exFreeGrow_size]; omega

theorem exFreeGrow_well (k : ℕ) : WellCondData exFreeStatic (exFreeGrow k) := by
  refine ⟨rfl, .inr ⟨_, ⟨rfl, fun k _ h => by cases h⟩, fun _ _ _ _ => rfl⟩, rfl, ?_, ?_⟩
  · show (10 : ℝ) ^ 10 ≤ 1.2 * 10 ^ 10; norm_num
  · show (10 : ℝ) ^ 10 ≤ 10 ^ 16; norm_num

/-- **C99**, an instance of C79: without gradients, with noise and the default starting points (the best of 40), for any number of
iterations. -/
theorem exFreeLoop (lk : LkdOpts) (n : ℕ) {k : ℕ} (hk : k < n) : ∃ s0 t hv v β, newSession exFreeStatic (some "precon") = .ok s0 ∧
    t = afterIter exFreeGrow { x0 := exX0Opts, start := .hpBest 40, lkd := lk } (fun _ => exStay) (s0.init n) (k + 1) ∧ UpToDate false t ∧
    t.hp = some (HpF.ofVals hv) ∧ HpFor exFreeStatic (exFreeGrow k) hv v β ∧
    (SOp.data (exFreeGrow k)).run (afterIter exFreeGrow { x0 := exX0Opts, start := .hpBest 40, lkd := lk } (fun _ => exStay) (s0.init n) k) =
      (inIter exFreeGrow { x0 := exX0Opts, start := .hpBest 40, lkd := lk } (fun _ => exStay) (s0.init n) k, .ok ()) ∧
    (SOp.hpara { x0 := exX0Opts, start := .hpBest 40, lkd := lk } exStay "optz" k none false).run
      (inIter exFreeGrow { x0 := exX0Opts, start := .hpBest 40, lkd := lk } (fun _ => exStay) (s0.init n) k) = (t, .ok ()) := by
  obtain ⟨o, ho⟩ := newGp_total exFreeStatic (s := "precon") (by decide)
  have hu : o.useScl = false := by
    unfold newGp setWellcond at ho
    cases ho
    rfl
  have hs0 : newSession exFreeStatic (some "precon") = .ok { obj := o } := by unfold newSession; rw [ho]; rfl
  have hopts : LoopOpts exFreeStatic { x0 := exX0Opts, start := .hpBest 40, lkd := lk } fun _ => exStay := by
    refine ⟨⟨by norm_num [exX0Opts], by norm_num [exX0Opts], by norm_num [exX0Opts], by norm_num [exX0Opts], rfl, by norm_num [exX0Opts]⟩,
      by norm_num [exX0Opts], by norm_num [exX0Opts], fun _ lb ub n h2 hu h => ⟨rfl, rfl, fun k _ p hp => ?_⟩⟩
    obtain ⟨l, u, h1, h2, h3⟩ := h p hp
    exact ⟨l, l, u, h1, h1, h2, le_refl l, h3⟩
  obtain ⟨h1, h2, h3, hv, v, β, h4, h5, -⟩ := C79_loop hs0 hu exFreeStatic_ok.2 exFreeStatic_ok.1 (fun h => by cases h) (d := exFreeGrow) (n := n)
    (fun k _ => exFreeGrow_good k) (by rw [exFreeGrow_size]; exact le_refl 1)
    (fun j k _ _ => ⟨fun hu => (by
      exfalso
      obtain ⟨i, hi, h⟩ := hu _ rfl
      cases h), fun h => by cases h⟩) hopts (m := 40) (by norm_num) (.inr ⟨rfl, .inr fun k _ => exFreeGrow_well k⟩)
    (fun k _ g info p _ _ _ hb => exStay_box p hb) hk
  exact ⟨_, _, hv, v, β, hs0, rfl, h3, h4, h5, h1, h2⟩

/-- The hypotheses of C99 are met: the condition number recorded in the second iteration of that loop is at most `10^10`. -/
example (lk : LkdOpts) : ∃ s0 t h' κ, newSession exFreeStatic (some "precon") = .ok s0 ∧
    t = afterIter exFreeGrow { x0 := exX0Opts, start := .hpBest 40, lkd := lk } (fun _ => exStay) (s0.init 2) 2 ∧
    t.h = some h' ∧ (h'.one .cond).get 1 = some κ ∧ κ ≤ 10 ^ 10 := by
  obtain ⟨s0, t, hv, v, β, h0, ht, -, h3, h4, h5, h6⟩ := exFreeLoop lk 2 (k := 1) (by omega)
  have hh : ∃ h, (inIter exFreeGrow { x0 := exX0Opts, start := .hpBest 40, lkd := lk } (fun _ => exStay) (s0.init 2) 1).h = some h := by
    obtain ⟨s0', t0, hv0, v0, β0, a0, a1, -, a3, a4, a5, a6⟩ := exFreeLoop lk 2 (k := 0) (by omega)
    rw [h0] at a0
    cases a0
    obtain ⟨h, e1, e2, e3, -⟩ := init_sized 2 s0.surr
    have hcfg0 : CfgOk exFreeStatic s0.obj := new_cfgOk h0
    have hcfg : CfgOk exFreeStatic (s0.init 2).obj := hcfg0
    have hst : (inIter exFreeGrow { x0 := exX0Opts, start := .hpBest 40, lkd := lk } (fun _ => exStay) (s0.init 2) 0).obj.st = exFreeStatic :=
      (setData_loaded (data_call a5)).1.st.trans hcfg.eq
    have H : Hist 2 (inIter exFreeGrow { x0 := exX0Opts, start := .hpBest 40, lkd := lk } (fun _ => exStay) (s0.init 2) 0) h := by
      refine ⟨e1, ?_, e3⟩
      rw [hst, ← hcfg.eq]
      exact e2
    obtain ⟨th, t1, t2, -⟩ := a4.theta
    obtain ⟨b, b1, b2, -⟩ := a4.beta
    obtain ⟨h', H2, -⟩ := optz_row H a6 a3 (ofVals_fits ⟨th, t1, by rw [hst]; exact t2⟩ ⟨b, b1, b2⟩)
    rw [a1] at H2
    exact ⟨h', H2.eq⟩
  obtain ⟨h, hh⟩ := hh
  obtain ⟨h', κ, e1, e2, e3⟩ := C99_recorded (st := exFreeStatic) rfl exFreeStatic_ok.2.varK exFreeStatic_ok.1 h0
    [.init 2, .data (exFreeGrow 0), .hpara { x0 := exX0Opts, start := .hpBest 40, lkd := lk } exStay "optz" 0 none false]
    (by simp [SOp.posSet]) (exFreeGrow_well 1) (exFreeGrow_good 1).points (exFreeGrow_good 1).some (fun h => by cases h) h5 hh h6 h3 h4
  exact ⟨s0, t, h', κ, h0, ht, e1, e2, e3⟩

/-- The hypotheses of the bound are met by a model without noise. -/
example (env : LkdEnv) : ∃ li c l, calcLkdAll exGpFree env exHpFree true false = .ok (li, true) ∧ li.lnLkd = some l ∧ li.cond = some c ∧ c ≤ 10 :=
  C99_always_well_conditioned exGpFree_ok exHpFree_adm (by simp [exGpFree, exGp])
    ⟨rfl, rfl, rfl, rfl, by norm_num [exGpFree], .inr ⟨.base, .kbaseEta, 0, none, by decide, by simp [calcNugget, exGpFree, exGp, calcNuggetKbase]⟩,
      fun hp => ⟨0, fun a _ => by simp [valVar, exGpFree]⟩⟩
    (by norm_num [exGpFree]) (fun _ => by norm_num [exGpFree]) (fun h => by cases h) env

end Props
