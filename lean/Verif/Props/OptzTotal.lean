import Verif.Props.OptzRow
import Verif.Props.ClosedForm
import Verif.Props.PlainCond

/-! **C78** An optimisation succeeds if the optimiser does. -/

open Np GP Spec Matrix

noncomputable section

namespace Props

/-! ### The layout of the hyperparameters after `set_data` -/

theorem view_noisy {o : GpObj} {g : Gp} (h : o.view = .ok g) : g.noisy = o.noisy := by
  unfold GpObj.view GpObj.view0 at h
  rcases Option.eq_none_or_eq_some o.xIn with hx | ⟨x, hx⟩
  · rw [hx] at h; cases h
  rcases Option.eq_none_or_eq_some o.fvalIn with hf | ⟨f, hf⟩
  · rw [hx, hf] at h; cases h
  rw [hx, hf] at h
  change (if o.useScl = true then match o.scl with | some s => sclView (o.gp x f) s | none => .error .attribute else pure (o.gp x f)) = .ok g at h
  split at h
  · split at h
    · obtain ⟨_, _, _, _, rfl⟩ := sclView_fields h
      rfl
    · cases h
  · cases h; rfl

theorem setData_layout {d : DataIn} {o o' : GpObj} (h : setData d o = (o', .ok ())) :
    o'.info = some (hpInfoOf o.st.log o.st.dim true (o.st.optKernel && kernelHasHp o.st.kernel) o'.noisy (!o'.knownFval)
      (o.st.useGrad && !o'.knownFgrad)) ∧ o'.optzVarFval = !o'.knownFval ∧ o'.optzVarFgrad = (o.st.useGrad && !o'.knownFgrad) := by
  obtain ⟨ng, fz, gz, b, e, k, vm, inf, -, -, -, -, -, -, -, -, -, -, -, -, hinf, hsc⟩ := setData_iff.mp h
  have hfin : ∃ v s R, o' = { filled d o ng fz gz b e k vm inf with vminReq := v, scl := s, rInit := R } := by
    cases hu : o.useScl with
    | false =>
      obtain ⟨R, -, rfl⟩ := scaleCall_off (o := filled d o ng fz gz b e k vm inf) hu hsc
      exact ⟨o.vminReq, o.scl, some R, rfl⟩
    | true =>
      obtain ⟨v, s, sg, s0, m, r, rfl, -⟩ := scaleCall_on (o := filled d o ng fz gz b e k vm inf) hu hsc
      exact ⟨v, some s, o.rInit, rfl⟩
  obtain ⟨v, s, R, rfl⟩ := hfin
  refine ⟨?_, rfl, rfl⟩
  show some inf = _
  rw [hinf]
  rfl

/-- What an optimisation needs to know about an object with data. -/
structure OptzData (st : GpStatic) (d : DataIn) (o : GpObj) (g : Gp) (info : HpInfo) : Prop where
  static : o.st = st
  view : o.view = .ok g
  layout : o.info = some info
  ok : GpOk g
  dim : g.dim = st.dim
  kernel : g.kernel = st.kernel
  useGrad : g.useGrad = st.useGrad
  nEval : g.nEval = d.fval.size
  oEval : o.nEval = d.fval.size
  noise : g.useGrad = true ∨ g.knownFval = true
  precon : g.o.precon = true → g.useGrad = true
  eta : if g.o.etaConst then 0 < g.o.etaK else 1 < g.o.condMaxTarget
  mask : g.kernel = .ratQuad → fullMask g.bvec g.nEval
  idx : setupHpIdx g st.log st.optKernel = .ok info
  slots : ∀ s, s ∈ gpSlots g st.optKernel ↔ Optimised st d s
  dec : ∀ x, hpVec2Dataclass (o.decGp g) info x = hpVec2Dataclass g info x
  store : ∃ f, o.fvalIn = some f
  scale : o.useScl = true → ∃ c, o.scl = some c ∧ c.xScale.n = st.dim
  plain : WellCondData st d → PlainOk g ∧ g.o.condMaxTarget = st.condMaxTarget ∧ g.o.condMaxAbs = st.condMaxAbs ∧ o.mtd = .base ∧
    o.useScl = false

/-- Gradient-free data with even noise in an object. -/
theorem plain_ok {st : GpStatic} {o o' : GpObj} (hcfg : CfgOk st o) (hst : NugOk st) {d : DataIn} (hX : PointsFit st.dim d)
    (h : setData d o = (o', .ok ())) (W : WellCondData st d) {g : Gp} (hg : o'.view = .ok g) :
    PlainOk g ∧ g.o.condMaxTarget = st.condMaxTarget ∧ g.o.condMaxAbs = st.condMaxAbs ∧ o'.mtd = .base ∧ o'.useScl = false := by
  have hb := hcfg.base W.useGrad
  have hu : o.useScl = false := by rw [hcfg.scl, hb]; rfl
  obtain ⟨g', hg', hH, hok, ho⟩ := holdsData hcfg hX h hu
  rw [hg] at hg'
  cases hg'
  obtain ⟨hL, hC, -⟩ := setData_loaded h
  have hst' : o.st = st := hcfg.eq
  subst hst'
  have hL1 : o'.st = o.st := hL.st
  have hmt : o'.mtd = .base := hL.mtd.trans hb
  obtain ⟨S, hS, hSe⟩ : ∃ S, NoiseKnown d.stdFval S ∧ (NoiseZero d.stdFval ∨ ∀ j < S.size, ∀ k < S.size, S.flat j = S.flat k) := by
    rcases W.noise with hz | ⟨S, h1, h2⟩
    · obtain ⟨S, h1, -⟩ := id hz
      exact ⟨S, h1, .inl hz⟩
    · exact ⟨S, h1, .inr h2⟩
  obtain ⟨hk, s, hs, hs'⟩ := hH.stdFval S hS
  refine ⟨⟨hH.useGrad.trans W.useGrad, ?_, ?_, hk, ?_, .inr ⟨.base, o.st.etaMtd, o.st.etaDflt, o'.etaKgrad, ?_, ?_⟩, ?_⟩, ?_, ?_, hmt, hL.useScl.trans hu⟩
  · rw [ho]; simp [GpObj.condOpts, hmt]
  · rw [ho]; show o'.st.fro = false; rw [hL1]; exact W.norm
  · rw [ho]; show 1 < o'.st.condMaxTarget; rw [hL1]; exact hst.2.1
  · rcases hst.2.2 with h | h <;> rw [h] <;> decide
  · have he := hL.eta
    have hk := hL.etaK
    rw [W.useGrad, if_neg (by simp)] at hk
    rw [hH.dim, hH.kernel, hH.nEval, ho]
    show calcNugget ⟨_, _, _, _, _, o'.st.condMaxTarget, _⟩ _ = .ok (o'.etaK, _)
    rw [hk, ← he, hL1]
    unfold GpObj.nugOpts
    rw [W.useGrad, hb]
  · intro hp
    refine ⟨valVar g hp 0, fun a ha => ?_⟩
    unfold valVar
    split_ifs with hz
    · rfl
    rcases hSe with hS0 | hSe
    · exact absurd (by rw [(hH.zero.mpr hS0), (hH.gzero.mpr (.inl W.useGrad))]; rfl) hz
    · rw [hH.nEval] at ha
      have hsz : S.size = d.fval.size := hC.stdFval S hS
      have := hSe a (hsz ▸ ha) 0 (by omega)
      rw [hs' a ha, hs' 0 (by omega)] at this
      rw [hs]
      simp only [Option.getD_some]
      rw [Option.some.inj this]
  · rw [ho]; show o'.st.condMaxTarget = _; rw [hL1]
  · rw [ho]; show o'.st.condMaxAbs = _; rw [hL1]

theorem dec_same {g : Gp} {lo : LogOpts} {dim : ℕ} {t k v f : Bool} {b : Bool} (x : Arr1) (hb : g.useGrad = true → b = g.knownFgrad) :
    hpVec2Dataclass { g with knownFgrad := b } (hpInfoOf lo dim t k v f (g.useGrad && !g.knownFgrad)) x =
      hpVec2Dataclass g (hpInfoOf lo dim t k v f (g.useGrad && !g.knownFgrad)) x := by
  unfold hpVec2Dataclass
  dsimp only
  have : (g.useGrad && !b) = (g.useGrad && !g.knownFgrad) := by
    cases hu : g.useGrad with
    | true => rw [hb hu]
    | false => rfl
  rw [this]

theorem optz_data {st : GpStatic} {o o' : GpObj} (hcfg : CfgOk st o) (hst : NugOk st) {d : DataIn} (hX : PointsFit st.dim d)
    (hn : 0 < d.fval.size) (h : setData d o = (o', .ok ())) (hk : st.useGrad = true ∨ ∃ S, NoiseKnown d.stdFval S)
    (hm : st.kernel = .ratQuad → numGrads d = d.fval.size) : ∃ g info, OptzData st d o' g info := by
  obtain ⟨hL, hC, -⟩ := setData_loaded h
  have hst' : o.st = st := hcfg.eq
  subst hst'
  have hsg : o.useScl = true → o.st.useGrad = true := by
    intro hs
    by_contra hu
    rw [Bool.not_eq_true] at hu
    rw [hcfg.scl, hcfg.base hu] at hs
    cases hs
  obtain ⟨-, g, -, hg, -⟩ := loaded_view hL hC hX hsg
  obtain ⟨hok, h1, h2, h3, h4, h5, h6, h7, h8⟩ := loaded_fields hL hC hX hsg hg
  obtain ⟨hi, ho1, ho2⟩ := setData_layout h
  have hno := view_noisy hg
  have hidx : setupHpIdx g o.st.log o.st.optKernel = .ok (hpInfoOf o.st.log o.st.dim true (o.st.optKernel && kernelHasHp o.st.kernel) o'.noisy
      (!o'.knownFval) (o.st.useGrad && !o'.knownFgrad)) := by
    rw [setupHpIdx_ok, h1, h2, h3, h5, h6, hno]
  refine ⟨g, _, hL.st, hg, hi, hok, h1, h3, h2, h4, hL.nEval, ?_, ?_, ?_, fun h => by rw [h8, h4]; exact full_of_grads (hm (h3 ▸ h)), hidx, ?_, ?_, ?_, ?_,
    fun W => plain_ok hcfg hst hX h W hg⟩
  · rcases hk with hk | ⟨S, hS⟩
    · left; rw [h2]; exact hk
    · right
      rw [h5]
      rcases hL.stdFval with ⟨hu, -⟩ | ⟨S', s, -, hkn, -⟩
      · exact (noise_excl hS hu).elim
      · exact hkn
  · rw [h7, h2]
    intro hp
    by_contra hu
    rw [Bool.not_eq_true] at hu
    simp only [GpObj.condOpts, hL.mtd, hcfg.base hu] at hp
    cases hp
  · rw [h7]
    show if o'.etaConst then 0 < o'.etaK else 1 < o'.st.condMaxTarget
    split
    · exact loaded_eta_pos hL hst hn
    · rw [hL.st]; exact hst.2.1
  · intro s
    unfold gpSlots
    rw [h1, h2, h3, h5, h6, hno]
    have hkf : o'.knownFval = false ↔ NoiseUnknown d.stdFval := by
      rw [← hL.optFval, ho1]; simp
    have hkg : (o.st.useGrad && !o'.knownFgrad) = true ↔ (o.st.useGrad = true ∧ NoiseUnknown d.stdGrad) := by
      rw [← hL.optFgrad, ho2]
    have hnn : o'.noisy = true ↔ ¬ (NoiseZero d.stdFval ∧ (o.st.useGrad = false ∨ NoiseZero d.stdGrad)) := by
      rw [← hL.noisy]; simp
    cases s with
    | theta k => simp [hpSlots, Optimised]
    | kernel => simp [hpSlots, Optimised]
    | varK => unfold Optimised; rw [← hnn]; simp [hpSlots]
    | varFval => unfold Optimised; rw [← hkf]; simp [hpSlots]
    | varFgrad =>
      unfold Optimised
      rw [← hkg]
      cases (o.st.useGrad && !o'.knownFgrad) <;> simp [hpSlots]
  · intro x
    have : o'.decGp g = { g with knownFgrad := !o'.optzVarFgrad } := by
      unfold GpObj.decGp
      rw [ho1, Bool.not_not, ← h5]
    rw [this, ← h2, ← h6]
    refine dec_same x fun hu => ?_
    rw [ho2, ← h2, hu, h6]
    simp
  · obtain ⟨f, hf, -⟩ := hL.fval
    exact ⟨f, hf⟩
  · intro hu
    rw [hL.useScl] at hu
    obtain ⟨sc, e1, e2, e3, -⟩ := hL.scl hu
    obtain ⟨X, hX1, hX2, -⟩ := hL.x
    refine ⟨sc, e1, ?_⟩
    rw [(reach_images e2).scale_n]
    rw [hX1] at e3
    cases e3
    have : d.x.shape = [d.fval.size, o.st.dim] := hX
    rw [this] at hX2
    simp only [List.cons.injEq, and_true] at hX2
    exact hX2.2.symm

/-! ### The solution of the optimiser -/

theorem optz_slots_varK {st : GpStatic} {d : DataIn} {o : GpObj} {g : Gp} {info : HpInfo} (D : OptzData st d o g info) {hp : HpVals}
    (hall : ∀ s ∈ gpSlots g st.optKernel, ∃ y, getSlot hp s = some y ∧ 0 < y) (hn : g.noisy = true) : ∃ v, hp.varK = some v ∧ 0 < v := by
  obtain ⟨y, h1, h2⟩ := hall .varK (by simp [gpSlots, hpSlots, hn])
  exact ⟨y, h1, h2⟩

/-- The condition number at a solution is computed. -/
theorem finalCond_ok {st : GpStatic} {d : DataIn} {o : GpObj} {g : Gp} {info : HpInfo} (D : OptzData st d o g info) (hn : 0 < d.fval.size)
    {hp : HpVals} (hh : HpAdm g hp) (hv : g.noisy = true → ∃ v, hp.varK = some v ∧ 0 < v) : ∃ κ, finalCond g hp = .ok κ := by
  obtain ⟨R, hR, -⟩ := calcRtensor_ok (X := g.x) (Y := g.x) rfl
  have hne : 0 < g.nEval := by rw [D.nEval]; exact hn
  unfold finalCond
  rw [hR, ok_bind]
  cases hns : g.noisy with
  | true =>
    obtain ⟨v, hv1, hv2⟩ := hv hns
    obtain ⟨Na, K, out, -, -, -, -, -, -, ho, -⟩ := calcAllK_ok D.ok hh D.noise D.precon hne hR false true none false hv2
      ⟨⟨v, by simpa using hv1, fun _ => rfl⟩, fun h => by cases h⟩
    rw [if_pos rfl, ho]
    exact ⟨_, rfl⟩
  | false =>
    obtain ⟨Na, K, out, -, -, -, -, -, -, ho, -⟩ := calcAllK_ok D.ok hh D.noise D.precon hne hR false true (some 1) false one_pos
      ⟨⟨1, rfl, fun _ => rfl⟩, fun h => by cases h⟩
    rw [if_neg (by simp)]
    unfold calcKernWChofac
    rw [pyAssert_true hns, ok_bind, ho]
    exact ⟨_, rfl⟩

/-- From a solution with admissible values the rest of the optimisation succeeds. -/
theorem decodeSol_total {st : GpStatic} {d : DataIn} {o : GpObj} {g : Gp} {info : HpInfo} (D : OptzData st d o g info) (hn : 0 < d.fval.size)
    (c : OptzCfg) (q : Oracle) {x : Arr1} {hp0 : HpVals} (hx : hpVec2Dataclass g info x = .ok hp0) (hh : HpAdm g hp0)
    (hv : g.noisy = true → ∃ v, hp0.varK = some v ∧ 0 < v) :
    ∃ hv v β, decodeSol c q o info x = .ok hv ∧ Ready g hv v β ∧ hv = { hp0 with beta := hv.beta, varK := hv.varK } ∧
      (g.noisy = true → hv.varK = hp0.varK) := by
  obtain ⟨R, hR, -⟩ := calcRtensor_ok (X := g.x) (Y := g.x) rfl
  have hne : 0 < g.nEval := by rw [D.nEval]; exact hn
  obtain ⟨hv', out, y, V, β, b, h1, -, -, -, -, h2, h3, h4, h5, h6, h7⟩ := C73_closed_form D.ok D.noise D.precon hne D.eta
    (env := o.env c q info) hh hv hR
  have hd : decodeSol c q o info x = .ok hv' := by
    unfold decodeSol
    rw [D.view, ok_bind, D.dec, hx, ok_bind]
    exact h1
  have hvk : ∃ v, hv'.varK = some v ∧ 0 < v := by
    cases hns : g.noisy with
    | true =>
      obtain ⟨v, e1, e2⟩ := hv hns
      exact ⟨v, by rw [(h6 hns).1]; exact e1, e2⟩
    | false =>
      obtain ⟨v, e1, e2, -⟩ := h7 hns
      exact ⟨v, e1, e2⟩
  obtain ⟨v, e1, e2⟩ := hvk
  have hadm : HpAdm g hv' := by
    rw [h2]
    exact ⟨hh.theta, hh.kernel, hh.vf_none, hh.vf_some, hh.vg_none, hh.vg_some⟩
  refine ⟨hv', v, b.get 0, hd, ⟨D.ok, hadm, D.noise, D.precon, hne, e2, e1, ⟨b, h3, h4, rfl⟩, ?_, D.mask⟩, h2, fun h => (h6 h).1⟩
  have := D.eta
  split
  · rename_i h; rw [if_pos h] at this; exact this.le
  · rename_i h; rw [if_neg h] at this; exact this

/-- The box, in natural values, is positive. -/
structure BoxOk (st : GpStatic) (info : HpInfo) (g : Gp) (rng : Slot → Option (ℝ × ℝ)) (p : StartPts) : Prop where
  lb : p.lb.n = info.nHp
  ub : p.ub.n = info.nHp
  rows : 1 ≤ p.x0.r
  box : ∀ k s, (gpSlots g st.optKernel)[k]? = some s → ∃ r l u, rng s = some r ∧ 0 < r.1 ∧ p.lb.get k = some l ∧ p.ub.get k = some u ∧
    r.1 ≤ natural st.log s l ∧ natural st.log s u ≤ r.2
  starts : StartsInBox p

theorem natural_mono (lo : LogOpts) (s : Slot) {x y : ℝ} (h : x ≤ y) : natural lo s x ≤ natural lo s y := by
  unfold natural
  split_ifs
  · exact Real.rpow_le_rpow_of_exponent_le (by norm_num) h
  · exact h

theorem runOptz_ok {o : GpObj} {q : Oracle} {p : StartPts} (hr : 1 ≤ p.x0.r) (hb : RespectsBox (q.opt 0) p) :
    ∃ x, runOptz o q 0 p.x0 = .ok x ∧ x.n = p.lb.n ∧
      ∀ k < x.n, ∀ l u, p.lb.get k = some l → p.ub.get k = some u → l ≤ x.get k ∧ x.get k ≤ u := by
  classical
  have hb' : ∀ j, ∃ r x, j < p.x0.r → q.opt 0 (p.x0.row j) = .ok r ∧ r.obj ≠ none ∧ r.sol.nums = some x ∧ x.n = p.lb.n ∧
      ∀ k < x.n, ∀ l u, p.lb.get k = some l → p.ub.get k = some u → l ≤ x.get k ∧ x.get k ≤ u := by
    intro j
    by_cases hj : j < p.x0.r
    · obtain ⟨r, x, h⟩ := hb j hj
      exact ⟨r, x, fun _ => h⟩
    · exact ⟨default, ⟨0, fun _ => 0⟩, fun h => absurd h hj⟩
  choose out xs hout using hb'
  have hm : (List.range p.x0.r).mapM (fun j => q.opt 0 (p.x0.row j)) = .ok ((List.range p.x0.r).map out) := by
    have : ∀ l : List ℕ, (∀ k ∈ l, k < p.x0.r) → l.mapM (fun k => q.opt 0 (p.x0.row k)) = .ok (l.map out) := by
      intro l
      induction l with
      | nil => intro _; rfl
      | cons a l ih =>
        intro hl
        rw [List.mapM_cons, (hout a (hl a List.mem_cons_self)).1, ok_bind, ih (fun k hk => hl k (List.mem_cons_of_mem _ hk)), ok_bind]
        rfl
    exact this _ fun k hk => List.mem_range.mp hk
  have hpick : ∃ r, pickBest o.useCstr o.st.condMax ((List.range p.x0.r).map out) = .ok r := by
    cases hp : pickBest o.useCstr o.st.condMax ((List.range p.x0.r).map out) with
    | ok r => exact ⟨r, rfl⟩
    | error e =>
      exfalso
      have hall := C58_raises.mp ⟨e, hp⟩
      have hmem : ∀ j < p.x0.r, out j ∈ (List.range p.x0.r).map out := fun j hj => List.mem_map.mpr ⟨j, List.mem_range.mpr hj, rfl⟩
      by_cases hg : ∃ q' ∈ (List.range p.x0.r).map out, GoodRun o.useCstr o.st.condMax q'
      · obtain ⟨q', hq, hgood⟩ := hg
        obtain ⟨j, hj, rfl⟩ := List.mem_map.mp hq
        exact (hout j (List.mem_range.mp hj)).2.1 (hall _ hq fun _ => hgood)
      · exact (hout 0 hr).2.1 (hall _ (hmem 0 hr) fun h => absurd h hg)
  obtain ⟨r, hr'⟩ := hpick
  obtain ⟨hmem, -⟩ := C58_best_run hr'
  obtain ⟨j, hj, rfl⟩ := List.mem_map.mp hmem
  obtain ⟨-, -, h3, h4, h5⟩ := hout j (List.mem_range.mp hj)
  refine ⟨xs j, ?_, h4, h5⟩
  unfold runOptz optzMaxLkd
  rw [hm, ok_bind, hr', ok_bind]
  show numsOr (out j).sol = .ok (xs j)
  unfold numsOr
  rw [h3]

/-- From the starting points to the end of the optimisation. -/
theorem optzHp_ok {st : GpStatic} {d : DataIn} {s : Session} {g : Gp} {info : HpInfo} (D : OptzData st d s.obj g info) (hn : 0 < d.fval.size)
    (hker : st.kernel = .ratQuad → st.optKernel = true) (hc : st.constN < d.fval.size) {n : ℕ} {h : Surr} (H : Hist n s h) {i : ℕ} (hin : i < n)
    (c : OptzCfg) (q : Oracle) (hm : s.obj.mtd.rescales = false ∨ c.maxIter ≤ 1) {p : StartPts} (hp : startPts c q i s g info = .ok p)
    {rng : Slot → Option (ℝ × ℝ)} (hbox : BoxOk st info g rng p) (hopt : RespectsBox (q.opt 0) p) :
    ∃ t hv v β h', optzHp c q i s = (t, .ok ()) ∧ t = { s with hp := some (HpF.ofVals hv), h := some h' } ∧ Ready g hv v β ∧
      (∀ sl ∈ gpSlots g st.optKernel, ∃ r y, rng sl = some r ∧ getSlot hv sl = some y ∧ 0 < y ∧ r.1 ≤ y ∧ y ≤ r.2) := by
  obtain ⟨x, hx, hxn, hxb⟩ := runOptz_ok (o := s.obj) (q := q) hbox.rows hopt
  have hxn' : x.n = info.nHp := hxn.trans hbox.lb
  have hlen : (gpSlots g st.optKernel).length = info.nHp := by
    have := D.idx
    rw [setupHpIdx_ok] at this
    cases this
    exact hpSlots_length ..
  have hval : ∀ k sl, (gpSlots g st.optKernel)[k]? = some sl → ∃ r, rng sl = some r ∧ 0 < r.1 ∧ r.1 ≤ natural st.log sl (x.get k) ∧
      natural st.log sl (x.get k) ≤ r.2 := by
    intro k sl hk
    obtain ⟨r, l, u, h1, h2, h3, h4, h5, h6⟩ := hbox.box k sl hk
    have hlt : k < x.n := by
      rw [hxn', ← hlen]
      exact (List.getElem?_eq_some_iff.mp hk).1
    obtain ⟨h7, h8⟩ := hxb k hlt l u h3 h4
    exact ⟨r, h1, h2, h5.trans (natural_mono _ _ h7), (natural_mono _ _ h8).trans h6⟩
  obtain ⟨hp0, hdec, hadm, hall⟩ := decode_adm D.idx hxn' (fun hk => hker (D.kernel ▸ hk)) (by
    intro k sl hk hlog
    obtain ⟨r, -, h2, h3, -⟩ := hval k sl hk
    unfold natural at h3
    rw [if_neg (by simp [hlog])] at h3
    exact h2.trans_le h3)
  have hvk := optz_slots_varK D hall
  obtain ⟨κ, hκ⟩ := finalCond_ok D hn hadm hvk
  obtain ⟨hv, v, β, h1, h2, h3, h4⟩ := decodeSol_total D hn c q hdec hadm hvk
  have hvec : optzVec c q s.obj g info p.x0 = (s.obj, .ok (x, κ)) := by
    unfold optzVec
    rw [if_neg (by rcases hm with hm | hm <;> simp [hm]), hx, ok_bind, D.dec, hdec, ok_bind, hκ]
    rfl
  have hfit : HpFits s.obj.st.dim nBetaCoeff (HpF.ofVals hv) := by
    obtain ⟨th, e1, e2, -⟩ := h2.adm.theta
    obtain ⟨b, e3, e4, -⟩ := h2.beta
    exact ofVals_fits ⟨th, e1, by rw [e2, D.dim, D.static]⟩ ⟨b, e3, e4⟩
  obtain ⟨f, hf⟩ := D.store
  obtain ⟨h', e1, -⟩ := store_ok (o := s.surr) (s := ({ hp := HpF.ofVals hv, info := some q.info, cond := κ, timeOptz := q.time.1, timeChofac := q.time.2.1, timePick := q.time.2.2 } : StoreArgs))
    H.save H.eq H.sized ⟨⟨_, by simp only [Session.surr, hf, Option.map_some]; rfl⟩, fun hu => by
      obtain ⟨sc, c1, c2⟩ := D.scale hu
      exact ⟨sc.xScale, by simp only [Session.surr, c1, Option.map_some], by show sc.xScale.n = s.obj.st.dim; rw [c2, D.static]⟩⟩ hfit
    (i := i) (k := i) ⟨hin, Or.inl rfl⟩
  refine ⟨_, hv, v, β, h', ?_, rfl, h2, ?_⟩
  · unfold optzHp
    rw [D.view]
    dsimp only
    rw [if_neg (by rw [D.static, D.oEval]; omega)]
    unfold optzNum
    rw [D.layout]
    dsimp only
    rw [hp]
    dsimp only
    rw [hvec]
    dsimp only
    unfold finishOptz
    dsimp only
    rw [h1]
    dsimp only
    unfold Session.store
    rw [e1]
    rfl
  · intro sl hsl
    obtain ⟨k, hk⟩ := List.mem_iff_getElem?.mp hsl
    obtain ⟨r, r1, r2, r3, r4⟩ := hval k sl hk
    obtain ⟨hp1, hdec1, -, -, hsl1, -⟩ := C55_decode g st.log st.optKernel D.idx x hxn'
    rw [hdec] at hdec1
    cases hdec1
    have hget : getSlot hv sl = getSlot hp0 sl := by
      cases sl with
      | varK =>
        have hno : g.noisy = true := by
          by_contra hno
          rw [Bool.not_eq_true] at hno
          simp [gpSlots, hpSlots, hno] at hsl
        show hv.varK = hp0.varK
        exact h4 hno
      | _ => rw [h3]; rfl
    exact ⟨r, _, r1, by rw [hget]; exact hsl1 k sl hk, r2.trans_le r3, r3, r4⟩

/-! ### The starting points -/

/-- The options of the starting points as the optimisation uses them. -/
def startOpts (st : GpStatic) (x : X0Opts) : X0Opts := { x with constN := st.constN, kernelRange := hpKernelRange st.kernel }

/-- What the starting points need: proper ranges, a proper sampling method, and recent rows of the history with numbers. -/
structure StartOk (st : GpStatic) (d : DataIn) (c : OptzCfg) (q : Oracle) (h : Surr) (i : ℕ) : Prop where
  opts : GoodOpts (startOpts st c.x0) st.kernel
  lhsFactor : 1 ≤ c.x0.lhsFactor
  boxFactor : c.x0.lhsFactor ≤ c.x0.boxFactor
  sampler : SamplerOk q.lhs
  past : ∀ s, Optimised st d s → PastOk h c.x0.medianN i s

theorem x0_ok {st : GpStatic} {d : DataIn} {o : GpObj} {g : Gp} {info : HpInfo} (D : OptzData st d o g info) (hd : 0 < st.dim) {n : ℕ} {h : Surr}
    (hsz : Sized st.dim nBetaCoeff n h) {c : OptzCfg} {q : Oracle} {i : ℕ} (S : StartOk st d c q h i) (hi1 : 1 ≤ i) (hin : i ≤ n) {m : ℕ}
    (hm : 1 ≤ m) :
    ∃ p, getHpX0 (startOpts st c.x0) h q.lhs i info m = .ok p ∧ BoxOk st info g (rangeOf (startOpts st c.x0)) p ∧ p.x0.r = m ∧
      ∀ j < m, ∃ x, (p.x0.row j).nums = some x ∧ x.n = info.nHp ∧
        ∀ k s, (gpSlots g st.optKernel)[k]? = some s → ∃ r, rangeOf (startOpts st c.x0) s = some r ∧ 0 < r.1 ∧ r.1 ≤ natural st.log s (x.get k) := by
  have hidx := D.idx
  unfold setupHpIdx at hidx
  rw [D.dim, D.kernel] at hidx
  have hlen : (gpSlots g st.optKernel).length = info.nHp := by
    have := D.idx
    rw [setupHpIdx_ok] at this
    cases this
    exact hpSlots_length ..
  have hslots : gpSlots g st.optKernel = hpSlots st.dim true (st.optKernel && kernelHasHp st.kernel) g.noisy (!g.knownFval)
      (g.useGrad && !g.knownFgrad) := by
    unfold gpSlots; rw [D.dim, D.kernel]
  have h1 : 1 ≤ info.nHp := by
    rw [← hlen, hslots]
    unfold hpSlots
    simp only [List.length_append, if_true, List.length_map, List.length_range]
    omega
  obtain ⟨p, e1, e2, e3, e4, e5, e6⟩ := C57_starting_points_partial S.opts S.lhsFactor S.boxFactor S.sampler hsz hidx h1 hi1 hin
    (fun s hs => S.past s ((D.slots s).mp (by rw [hslots]; exact hs))) m
  have hpos : ∀ s, s ∈ gpSlots g st.optKernel → ∀ r, rangeOf (startOpts st c.x0) s = some r → 0 < r.1 := by
    intro s hs r hr
    obtain ⟨-, hk⟩ := layout_of_ok hidx
    obtain ⟨a, b, h2, h3, -⟩ := goodOpts_range S.opts hk (by rw [← hslots]; exact hs)
    rw [hr] at h2
    cases h2
    exact h3
  rw [← hslots] at e6
  have hin : StartsInBox p := by
    intro j hj
    have hrow : ∀ k < info.nHp, ∃ x l u, p.x0.get j k = some x ∧ p.lb.get k = some l ∧ p.ub.get k = some u ∧ l ≤ x ∧ x ≤ u := by
      intro k hk
      have hk' : k < (gpSlots g st.optKernel).length := by rw [hlen]; exact hk
      obtain ⟨r, l, u, f1, f2, f3, -, f5, -, f7, -⟩ := e6 k _ (List.getElem?_eq_getElem hk')
      obtain ⟨x, f8, f9, f10⟩ := f7 j (by rw [← e2]; exact hj)
      exact ⟨x, l, u, f8, f2, f3, f9, f10⟩
    refine ⟨⟨info.nHp, fun k => (p.x0.get j k).getD 0⟩, ?_, e4.symm, fun k hk l u hl hu => ?_⟩
    · unfold FVec.nums
      have hc : (p.x0.row j).n = info.nHp := e3
      rw [if_pos (by
        intro k hk
        obtain ⟨x, l, u, h3, -⟩ := hrow k (hc ▸ hk)
        show p.x0.get j k ≠ none
        rw [h3]; simp)]
      rw [hc]
      rfl
    · obtain ⟨x, l', u', h3, h4, h5, h6⟩ := hrow k hk
      rw [hl] at h4
      rw [hu] at h5
      cases h4
      cases h5
      dsimp only
      rw [h3]
      exact h6
  refine ⟨p, e1, ⟨e4, e5, by rw [e2]; exact hm, fun k s hk => ?_, hin⟩, e2, fun j hj => ?_⟩
  · obtain ⟨r, l, u, f1, f2, f3, -, f5, f6, -⟩ := e6 k s hk
    exact ⟨r, l, u, f1, hpos s (List.mem_of_getElem? hk) r f1, f2, f3, f5, f6⟩
  · have hrow : ∀ k < info.nHp, ∃ s r x l, (gpSlots g st.optKernel)[k]? = some s ∧ rangeOf (startOpts st c.x0) s = some r ∧
        p.x0.get j k = some x ∧ r.1 ≤ natural st.log s l ∧ l ≤ x := by
      intro k hk
      have hk' : k < (gpSlots g st.optKernel).length := by rw [hlen]; exact hk
      obtain ⟨r, l, u, f1, -, -, -, f5, -, f7, -⟩ := e6 k _ (List.getElem?_eq_getElem hk')
      obtain ⟨x, f8, f9, -⟩ := f7 j hj
      exact ⟨_, r, x, l, List.getElem?_eq_getElem hk', f1, f8, f5, f9⟩
    refine ⟨⟨info.nHp, fun k => (p.x0.get j k).getD 0⟩, ?_, rfl, fun k s hk => ?_⟩
    · unfold FVec.nums
      have hc : (p.x0.row j).n = info.nHp := e3
      rw [if_pos (by
        intro k hk
        obtain ⟨s, r, x, l, -, -, h3, -⟩ := hrow k (hc ▸ hk)
        show p.x0.get j k ≠ none
        rw [h3]; simp)]
      rw [hc]
      rfl
    · have hk' : k < info.nHp := by rw [← hlen]; exact (List.getElem?_eq_some_iff.mp hk).1
      obtain ⟨s', r, x, l, h2, h3, h4, h5, h6⟩ := hrow k hk'
      rw [hk] at h2
      cases h2
      refine ⟨r, h3, hpos s (List.mem_of_getElem? hk) r h3, ?_⟩
      dsimp only
      rw [h4]
      exact h5.trans (natural_mono _ _ h6)

/-- The likelihood at an admissible point: it is computed, and is a number unless the condition number is too large. -/
theorem evalStart_ok {st : GpStatic} {d : DataIn} {o : GpObj} {g : Gp} {info : HpInfo} (D : OptzData st d o g info) (hn : 0 < d.fval.size)
    (hker : st.kernel = .ratQuad → st.optKernel = true) (c : OptzCfg) (q : Oracle) (cc : Bool) {v : FVec} {x : Arr1} (hv : v.nums = some x)
    (hx : x.n = info.nHp) (hpos : ∀ k s, (gpSlots g st.optKernel)[k]? = some s → 0 < natural st.log s (x.get k)) :
    ∃ b l κ, evalStart o g (o.env c q info) cc v = .ok (b, l, κ) ∧ (b = true → l ≠ none) ∧ (cc = false → b = true) ∧
      (WellCondData st d → cc = true → b = true ∧ ∃ y, κ = some y ∧ y ≤ st.condMaxTarget) := by
  obtain ⟨hp0, hdec, hadm, hall⟩ := decode_adm D.idx hx (fun hk => hker (D.kernel ▸ hk)) (by
    intro k sl hk hlog
    have h3 := hpos k sl hk
    unfold natural at h3
    rw [if_neg (by simp [hlog])] at h3
    exact h3)
  have hvk := optz_slots_varK D hall
  obtain ⟨R, hR, -⟩ := calcRtensor_ok (X := g.x) (Y := g.x) rfl
  have hne : 0 < g.nEval := by rw [D.nEval]; exact hn
  obtain ⟨out, h1, h2, h3, h4, -, -⟩ := lkdCov_ok D.ok hadm D.noise D.precon hne D.eta hvk hR cc
  set env := o.env c q info with henv
  have key : ∃ li b, calcLkdAll g env hp0 cc false = .ok (li, b) ∧ (b = true → li.lnLkd ≠ none) ∧ (cc = false → b = true) := by
    unfold calcLkdAll
    simp only [hR, ok_bind, h1]
    unfold kcovGradIf
    simp only [Bool.false_eq_true, if_false, ok_bind]
    cases hf : out.chofac with
    | none =>
      have hcc : cc = true := by
        by_contra hcc
        obtain ⟨F, hF⟩ := h4 fun h => absurd h hcc
        rw [hf] at hF; cases hF
      dsimp only
      unfold condL2WGrad
      simp only [ok_bind]
      cases hns : g.noisy with
      | true =>
        simp only [if_true, setCond, Bool.and_false, Bool.false_eq_true, if_false, ok_bind]
        exact ⟨_, false, rfl, (fun h => by cases h), fun h => by rw [hcc] at h; cases h⟩
      | false =>
        simp only [Bool.false_eq_true, if_false]
        exact ⟨_, false, rfl, (fun h => by cases h), fun h => by rw [hcc] at h; cases h⟩
    | some F =>
      have hFo := h3 F hf
      obtain ⟨y, V, hd, hV, -⟩ := lkdData_ok D.ok hne
      have hb : ∃ r l, lkdBody g env y V F none = .ok r ∧ r.lnLkd = some l := by
        unfold lkdBody
        cases hns : g.noisy with
        | true =>
          obtain ⟨r, β, l, e1, -, e3, -⟩ := C27_gaussian_likelihood (m := env.info.nHp) hFo hV y none env.lkd.useAdj
          exact ⟨r, l, by rw [if_pos rfl]; exact e1, e3⟩
        | false =>
          obtain ⟨r, β, v, l, e1, -, -, e4, -⟩ := C26_closed_form_variance (m := env.info.nHp) env.lkd g.fval hFo hV y none env.lkd.useAdj
          exact ⟨r, l, by rw [if_neg (by simp)]; exact e1, e4⟩
      obtain ⟨r, l, e1, e2⟩ := hb
      dsimp only
      simp only [hd, ok_bind, e1, setCond, Bool.and_false, Bool.false_eq_true, if_false]
      exact ⟨_, true, rfl, fun _ => by show r.lnLkd ≠ none; rw [e2]; simp, fun _ => rfl⟩
  obtain ⟨li, b, k1, k2, k3⟩ := key
  refine ⟨b, li.lnLkd, li.cond, ?_, k2, k3, ?_⟩
  rotate_left
  · rintro W rfl
    obtain ⟨P, p1, p2, -⟩ := D.plain W
    obtain ⟨li', y, l, a1, -, a3, a4⟩ := C99_always_well_conditioned D.ok hadm hne P (by rw [p1, p2]; exact W.condMaxAbs)
      (fun h => by have := D.eta; rwa [if_pos h] at this) hvk env
    rw [k1] at a1
    cases a1
    exact ⟨rfl, y, a3, by rw [← p1]; exact a4⟩
  unfold evalStart numsOr
  rw [hv]
  dsimp only
  have hd2 : hpVec2Dataclass (o.decGp g) env.info x = .ok hp0 := (D.dec x).trans hdec
  rw [ok_bind, hd2, ok_bind, k1, ok_bind]
  rfl

theorem startPts_eq {st : GpStatic} {s : Session} (hst : s.obj.st = st) {h : Surr} (hh : s.h = some h) (c : OptzCfg) (q : Oracle) (i : ℕ) (g : Gp)
    (info : HpInfo) : startPts c q i s g info = selectX0 (startOpts st c.x0) h q.lhs
      (evalStart s.obj g (s.obj.env c q info) (s.obj.mtd != .precon)) c.start (s.obj.mtd != .precon) st.condMax i info := by
  subst hst
  unfold startPts
  rw [hh]
  simp only [histCount, histStop, Int.natCast_nonneg, if_true, Int.toNat_natCast]
  rfl

theorem nanArgmax_lt {l : List Fl} {k : ℕ} (h : nanArgmax l = .ok k) : k < l.length := by
  obtain ⟨x, h1, -⟩ := nanArgmax_ok h
  exact (List.getElem?_eq_some_iff.mp h1).1

theorem mapM_length {α β : Type} {f : α → Py β} : ∀ {l : List α} {r : List β}, l.mapM f = .ok r → r.length = l.length
  | [], r, h => by rw [List.mapM_nil] at h; cases h; rfl
  | a :: l, r, h => by
    rw [List.mapM_cons] at h
    obtain ⟨b, -, h⟩ := bind_eq_ok h
    obtain ⟨r', h1, h⟩ := bind_eq_ok h
    cases h
    rw [List.length_cons, List.length_cons, mapM_length h1]

theorem pickStart_lt {b : Bool} {cm : ℝ} {rows : List (Fl × Fl)} {k : ℕ} (h : pickStart b cm rows = .ok k) : k < rows.length := by
  unfold pickStart at h
  split at h
  · dsimp only at h
    split at h
    · obtain ⟨j, -, h⟩ := bind_eq_ok h
      simpa using nanArgmax_lt h
    · simpa using nanArgmax_lt h
  · simpa using nanArgmax_lt h

/-- The box of the starting points, whatever the method. -/
theorem startPts_box {st : GpStatic} {d : DataIn} {s : Session} {g : Gp} {info : HpInfo} (D : OptzData st d s.obj g info) (hd : 0 < st.dim) {n : ℕ}
    {h : Surr} (H : Hist n s h) {c : OptzCfg} {q : Oracle} {i : ℕ} (S : StartOk st d c q h i) (hi1 : 1 ≤ i) (hin : i ≤ n) {m : ℕ} (hm : 1 ≤ m)
    (hs : c.start = .lhs m ∨ c.start = .hpBest m) {p : StartPts} (hp : startPts c q i s g info = .ok p) :
    BoxOk st info g (rangeOf (startOpts st c.x0)) p := by
  have hsz : Sized st.dim nBetaCoeff n h := by have := H.sized; rwa [D.static] at this
  obtain ⟨p0, e1, e2, -⟩ := x0_ok D hd hsz S hi1 hin hm
  rw [startPts_eq D.static H.eq] at hp
  rcases hs with hs | hs
  · rw [hs] at hp
    have hp : getHpX0 (startOpts st c.x0) h q.lhs i info m = .ok p := hp
    rw [e1] at hp; cases hp
    exact e2
  · rw [hs] at hp
    unfold selectX0 at hp
    dsimp only at hp
    rw [e1, ok_bind] at hp
    obtain ⟨rows, hrows, hp⟩ := bind_eq_ok hp
    obtain ⟨k, hk, hp⟩ := bind_eq_ok hp
    cases hp
    refine ⟨e2.lb, e2.ub, le_refl 1, e2.box, fun j _ => ?_⟩
    have hkr : k < p0.x0.r := by
      have hl : rows.length = p0.x0.r := by
        simpa using mapM_length hrows
      rw [← hl]
      exact pickStart_lt hk
    exact e2.starts k hkr

/-- Starting points are found: always with `lhs`; with `hp_best` always with preconditioning, and for gradient-free data with even
noise. -/
theorem startPts_total {st : GpStatic} {d : DataIn} {s : Session} {g : Gp} {info : HpInfo} (D : OptzData st d s.obj g info) (hn : 0 < d.fval.size)
    (hker : st.kernel = .ratQuad → st.optKernel = true) (hd : 0 < st.dim) {n : ℕ}
    {h : Surr} (H : Hist n s h) {c : OptzCfg} {q : Oracle} {i : ℕ} (S : StartOk st d c q h i) (hi1 : 1 ≤ i) (hin : i ≤ n) {m : ℕ} (hm : 1 ≤ m)
    (hs : c.start = .lhs m ∨ (c.start = .hpBest m ∧ (s.obj.mtd = .precon ∨ WellCondData st d))) : ∃ p, startPts c q i s g info = .ok p := by
  have hsz : Sized st.dim nBetaCoeff n h := by have := H.sized; rwa [D.static] at this
  obtain ⟨p0, e1, e2, e3, e4⟩ := x0_ok D hd hsz S hi1 hin hm
  rw [startPts_eq D.static H.eq]
  rcases hs with hs | ⟨hs, hpre⟩
  · rw [hs]; exact ⟨p0, e1⟩
  · rw [hs]
    have hev : ∀ j, ∃ r : Bool × Fl × Fl, j < m → evalStart s.obj g (s.obj.env c q info) (s.obj.mtd != .precon) (p0.x0.row j) = .ok r ∧ r.1 = true ∧
        r.2.1 ≠ none ∧ ((s.obj.mtd != .precon) = true → ∀ y, r.2.2 = some y → y ≤ 1.2 * st.condMax) := by
      intro j
      by_cases hj : j < m
      · obtain ⟨x, f1, f2, f3⟩ := e4 j hj
        obtain ⟨b, l, κ, g1, g2, g3, g4⟩ := evalStart_ok D hn hker c q (s.obj.mtd != .precon) f1 f2 (fun k sl hk => by
          obtain ⟨r, -, r1, r2⟩ := f3 k sl hk
          exact r1.trans_le r2)
        have hb : b = true ∧ ((s.obj.mtd != .precon) = true → ∀ y, κ = some y → y ≤ 1.2 * st.condMax) := by
          rcases hpre with hpre | W
          · exact ⟨g3 (by rw [hpre]; rfl), fun h => by rw [hpre] at h; cases h⟩
          · have hcc : (s.obj.mtd != .precon) = true := by rw [(D.plain W).2.2.2.1]; rfl
            obtain ⟨hb, y, hy, hle⟩ := g4 W hcc
            refine ⟨hb, fun _ y' hy' => ?_⟩
            rw [hy] at hy'
            cases hy'
            exact hle.trans W.condMax
        exact ⟨(b, l, κ), fun _ => ⟨g1, hb.1, g2 hb.1, hb.2⟩⟩
      · exact ⟨(true, none, none), fun h => absurd h hj⟩
    choose out hout using hev
    cases hq : selectX0 (startOpts st c.x0) h q.lhs (evalStart s.obj g (s.obj.env c q info) (s.obj.mtd != .precon)) (.hpBest m)
        (s.obj.mtd != .precon) st.condMax i info with
    | ok p => exact ⟨p, rfl⟩
    | error e =>
      exfalso
      have := (C57_hp_best_raises e1 e3 hm (fun k hk => (hout k hk).1)).mp ⟨e, hq⟩
      exact (hout 0 hm).2.2.1 (this 0 hm ⟨(hout 0 hm).2.1, fun h => .inl ((hout 0 hm).2.2.2 h)⟩)

/-- **C78.** More than `hp_const_n_eval` points have been set with `set_data`, the method does not rescale (or does not iterate). The
options are proper (`StartOk`: positive ranges, factors at least one, a sampler that respects its limits), the recent rows of the
history have a number for each hyperparameter that is optimised, and the starting points are sampled, or chosen with `hp_best` under
preconditioning or for gradient-free data with even noise. If the optimiser, started inside the box, returns a number and a solution inside the box, then the optimisation
succeeds, the model is up to date, and the hyperparameters are proper ones for the data, each optimised one within its range. -/
theorem C78_optimisation_succeeds {st : GpStatic} {o o' : GpObj} (hcfg : CfgOk st o) (hst : NugOk st) {d : DataIn} (hX : PointsFit st.dim d)
    (hn : st.constN < d.fval.size) (h : setData d o = (o', .ok ())) (hk : st.useGrad = true ∨ ∃ S, NoiseKnown d.stdFval S)
    (hm : st.kernel = .ratQuad → numGrads d = d.fval.size ∧ st.optKernel = true) (hd : 0 < st.dim) {s : Session} (hs : s.obj = o') {n : ℕ} {hh : Surr}
    (H : Hist n s hh) {i : ℕ} (hi1 : 1 ≤ i) (hin : i < n) {c : OptzCfg} {q : Oracle} (hr : o.mtd.rescales = false ∨ c.maxIter ≤ 1)
    (S : StartOk st d c q hh i) {m : ℕ} (hm1 : 1 ≤ m) (hstart : c.start = .lhs m ∨ (c.start = .hpBest m ∧ (o.mtd = .precon ∨ WellCondData st d)))
    (hopt : ∀ g info p, o'.view = .ok g → o'.info = some info → startPts c q i s g info = .ok p → StartsInBox p → RespectsBox (q.opt 0) p)
    (hp : Option HpF) (cc : Bool) :
    ∃ t hv v β, setHpara c q "optz" i hp cc s = (t, .ok ()) ∧ UpToDate cc t ∧ t.obj = o' ∧ t.hp = some (HpF.ofVals hv) ∧ HpFor st d hv v β ∧
      ∀ sl, Optimised st d sl → ∃ r y, rangeOf (startOpts st c.x0) sl = some r ∧ getSlot hv sl = some y ∧ 0 < y ∧ r.1 ≤ y ∧ y ≤ r.2 := by
  have hn0 : 0 < d.fval.size := by omega
  obtain ⟨g, info, D⟩ := optz_data hcfg hst hX hn0 h hk (fun e => (hm e).1)
  have D' : OptzData st d s.obj g info := by rw [hs]; exact D
  obtain ⟨hL, hC, -⟩ := setData_loaded h
  have hmt : s.obj.mtd = o.mtd := by rw [hs]; exact hL.mtd
  obtain ⟨p, hp'⟩ := startPts_total D' hn0 (fun e => (hm e).2) hd H S hi1 hin.le hm1 (by rw [hmt]; exact hstart)
  have hbox := startPts_box D' hd H S hi1 hin.le hm1 (by rcases hstart with h | h; exacts [.inl h, .inr h.1]) hp'
  obtain ⟨t, hv, v, β, h', e1, e2, e3, e4⟩ := optzHp_ok D' hn0 (fun e => (hm e).2) hn H hin c q (by rw [hmt]; exact hr) hp' hbox
    (hopt g info p D.view D.layout hp' hbox.starts)
  obtain ⟨e, pe, he⟩ := setup_total (s := t) (h := HpF.ofVals hv) (g := g) (by rw [e2]) (ofVals_nums _) (by rw [e2]; exact D'.view) e3 cc
  have hfin : setHpara c q "optz" i hp cc s = ({ t with ev := e, setupHp := pe }, .ok ()) := by
    have hse : selectHp c q "optz" i hp s = (t, .ok ()) := by
      simp only [selectHp]
      rw [if_neg (by decide), if_pos trivial]
      exact e1
    unfold setHpara
    rw [hse]
    exact he
  have hst' : o.st = st := hcfg.eq
  subst hst'
  refine ⟨_, hv, v, β, hfin, (setHpara_ok hfin).1, by rw [e2]; exact hs, by rw [e2], ?_, fun sl hsl => e4 sl ((D.slots sl).mpr hsl)⟩
  exact ready_hpFor rfl hL hC hX (fun hu => by
    by_contra hc
    rw [Bool.not_eq_true] at hc
    rw [hcfg.scl, hcfg.base hc] at hu
    cases hu) D.view e3

end Props
