import Verif.Props.AfterOptz
import Verif.Props.WarmStart
import Verif.Props.OptzTotal

/-! The optimisation with a rescaling method succeeds: C95. -/

open Np GP Matrix Spec

noncomputable section

namespace Props

/-! ### The iterations -/

/-- A vector of the right length whose entries other than the length scales are within the limits. -/
def InBoxAfter (dim : ℕ) (p : StartPts) (y : Arr1) : Prop :=
  y.n = p.lb.n ∧ ∀ k < y.n, dim ≤ k → ∀ l u, p.lb.get k = some l → p.ub.get k = some u → l ≤ y.get k ∧ y.get k ≤ u

theorem rescaleLoop_total {o : RescaleOpts} {s : Scl} {opt : ℕ → Arr1 → Py Arr1} {p : StartPts} (hl : o.log = true) (h2 : 2 ≤ s.xScl.r)
    (hX : s.xScl.c = o.dim) (hs : s.xScale.n = o.dim) (hi : o.idxTheta = List.range o.dim) (hd : o.dim ≤ p.lb.n)
    (hopt : ∀ k y, 1 ≤ k → InBoxAfter o.dim p y → ∃ b, opt k y = .ok b ∧ InBoxAfter o.dim p b) :
    ∀ (k : ℕ) (theta best : Arr1) (its : List RescaleOut), theta.n = o.dim → InBoxAfter o.dim p best →
      (∀ i ∈ its, i.theta.n = o.dim ∧ ∃ t, ∀ d < o.dim, i.theta.get d = t) →
      ∃ b its', rescaleLoop o opt s (k + 1) theta best its = .ok (b, its') ∧ InBoxAfter o.dim p b ∧ its' ≠ [] ∧
        ∀ i ∈ its', i.theta.n = o.dim ∧ ∃ t, ∀ d < o.dim, i.theta.get d = t
  | k, theta, best, its, hn, hb, hit => by
    obtain ⟨r, D, h1, -, h3, -⟩ := rescaleTheta_ok (log := o.log) (theta := theta) h2 hX hn hs (fun d _ => by
      rw [hl]; simp only [thetaLin, if_true]; positivity)
    have hrn : r.theta.n = o.dim := by rw [h3]
    have hit' : ∀ i ∈ its ++ [r], i.theta.n = o.dim ∧ ∃ t, ∀ d < o.dim, i.theta.get d = t := by
      intro i hx
      rcases List.mem_append.mp hx with hx | hx
      · exact hit i hx
      · rw [List.mem_singleton] at hx
        rw [hx, h3]
        exact ⟨rfl, _, fun _ _ => rfl⟩
    unfold rescaleLoop
    rw [h1]
    simp only [ok_bind]
    split_ifs with hc
    · exact ⟨best, _, rfl, hb, by simp, hit'⟩
    · obtain ⟨y, q1, q2, q3, q4⟩ := putIdx_range (v := best) (w := r.theta) (n := o.dim) (by rw [hb.1]; exact hd) hrn
      rw [← hi] at q1
      rw [q1]
      simp only [ok_bind]
      have hy : InBoxAfter o.dim p y := ⟨q2.trans hb.1, fun j hj hj' l u e1 e2 => by
        rw [q4 j hj']
        exact hb.2 j (by rw [← q2]; exact hj) hj' l u e1 e2⟩
      obtain ⟨b, e1, e2⟩ := hopt (its ++ [r]).length y (by simp) hy
      rw [e1]
      simp only [ok_bind]
      cases k with
      | zero => exact absurd (Or.inl rfl) hc
      | succ k => exact rescaleLoop_total hl h2 hX hs hi hd hopt k r.theta b (its ++ [r]) hrn e2 hit'

/-- The rescaling method finds hyperparameters; with two or more points their length scales are all the same. -/
theorem optzRescale_total {o : RescaleOpts} {s : Scl} {opt : ℕ → Arr1 → Py Arr1} {p : StartPts} {x0 best : Arr1} {x : Arr2} {od : ObjData} {c b : ℝ}
    (hl : o.log = true) (hK : SclKeep x od c b true s) (hx : x.c = o.dim) (hx0 : 0 < x.r) (hi : o.idxTheta = List.range o.dim) (hd0 : 0 < o.dim) (hd : o.dim ≤ p.lb.n)
    (hm : 1 ≤ o.maxIter) (h0 : opt 0 x0 = .ok best) (hb : InBoxAfter o.dim p best)
    (hopt : ∀ k y, 1 ≤ k → InBoxAfter o.dim p y → ∃ b, opt k y = .ok b ∧ InBoxAfter o.dim p b) :
    ∃ s' v, optzRescale o opt x0 s = (s', .ok v) ∧ InBoxAfter o.dim p v ∧ (2 ≤ x.r → ∃ t, ∀ d < o.dim, v.get d = t) := by
  have hI := hK.images
  have hxi := hK.xInit
  by_cases h2 : 1 < s.xInit.r
  · obtain ⟨m, hm'⟩ : ∃ m, o.maxIter = m + 1 := ⟨o.maxIter - 1, by omega⟩
    obtain ⟨b1, its, k1, k2, k3, k4⟩ := rescaleLoop_total (opt := opt) (p := p) hl (s := s) (by rw [hI.x.1]; omega) (by rw [hI.x.2.1, hxi, hx])
      (by rw [hI.scale_n, hxi, hx]) hi hd hopt m ⟨o.dim, fun k => if k < o.dim then best.get k else 0⟩ best [] rfl hb (by simp)
    obtain ⟨i, hi'⟩ : ∃ i, its.argmin (fun i => i.dist) = some i := by
      cases ha : its.argmin (fun i => i.dist) with
      | none => exact absurd (List.argmin_eq_none.mp ha) k3
      | some i => exact ⟨i, rfl⟩
    obtain ⟨hin, t, ht⟩ := k4 i (List.argmin_mem hi')
    obtain ⟨v, q1, q2, q3, q4⟩ := putIdx_range (v := b1) (w := i.theta) (n := o.dim) (by rw [k2.1]; exact hd) hin
    rw [← hi] at q1
    have hr : rescaleHp o opt s best = .ok (i.scale, v) := by
      unfold rescaleHp
      rw [hi, takeIdx_range (by rw [hb.1]; exact hd), ok_bind, hm', k1]
      simp only [ok_bind]
      rw [hi', ← hi]
      simp only
      rw [q1]
      rfl
    have hv : InBoxAfter o.dim p v := ⟨q2.trans k2.1, fun j hj hj' l u e1 e2 => by
      rw [q4 j hj']
      exact k2.2 j (by rw [← q2]; exact hj) hj' l u e1 e2⟩
    have hxc : s.xInit.c = o.dim := by rw [hxi, hx]
    obtain ⟨i2, ⟨p1, p2⟩, e⟩ := rescaleHp_all (P := fun i => i.scale.n = o.dim ∧ ∀ d < o.dim, 0 < i.scale.get d) (fun th r hr => by
      rw [hl] at hr
      exact rescaleTheta_pos hr hd0 (by rw [hI.x.2.1, hxc]) (by rw [hI.scale_n, hxc]) (fun d hd' => hK.scale d (by rw [hx]; exact hd'))) hr
    dsimp only at e
    rw [← e] at p1 p2
    obtain ⟨j, hj⟩ := hK.index
    obtain ⟨s1, h1⟩ := setXscale_total (s := s) (v := i.scale) (by rw [p1, hxc]) (fun d hd' => p2 d (by rw [← p1]; exact hd'))
      (i := j) (by rw [hxi]; exact hj) (by rw [hK.mtd rfl]; decide) (by omega)
      (fun o ho => by rw [hK.obj] at ho; cases ho; rw [hxi]; exact hK.fits) hK.box hK.lin hK.nlc
    refine ⟨s1, v, ?_, hv, fun _ => ⟨t, fun d hd' => by rw [q3 d hd', ht d hd']⟩⟩
    unfold optzRescale
    rw [h0]
    simp only
    rw [if_pos h2, hr]
    simp only
    rw [h1]
  · refine ⟨s, best, ?_, hb, fun h => absurd (by rw [hxi]; omega) h2⟩
    unfold optzRescale
    rw [h0]
    simp only
    rw [if_neg h2]

/-! ### The object after a change of the scaling -/

theorem optzData_scl {st : GpStatic} {d : DataIn} {o1 : GpObj} {g0 g1 : Gp} {info : HpInfo} (D : OptzData st d o1 g1 info) (hu : o1.useScl = true)
    (h0 : o1.view0 = .ok g0) (hok : GpOk g0) {s : Scl} (hI : Images s) (ho : s.obj.isSome = true) (hx : s.xInit = g0.x)
    (hstd : ∀ S, g0.stdGrad = some S → S.c = g0.dim) :
    ∃ g, OptzData st d { o1 with scl := some s } g info ∧ sclView g0 s = .ok g ∧ (∀ b, gpSlots g b = gpSlots g1 b) ∧
      ∀ {hp : HpVals} {v β : ℝ}, Ready g hp v β → Ready g1 hp v β := by
  have hv1 := D.view
  unfold GpObj.view at hv1
  rw [h0, ok_bind, hu, if_pos rfl] at hv1
  obtain ⟨s1, -, hv1⟩ : ∃ s1, o1.scl = some s1 ∧ sclView g0 s1 = .ok g1 := by
    cases hs : o1.scl with
    | none => rw [hs] at hv1; cases hv1
    | some s1 => rw [hs] at hv1; exact ⟨s1, rfl, hv1⟩
  obtain ⟨v1, a1, b1, c1, e1⟩ := sclView_fields hv1
  obtain ⟨g, hg, hgok, -⟩ := sclView_ok hok hI ho hx hstd
  obtain ⟨v2, a2, b2, c2, e2⟩ := sclView_fields hg
  have hview : ({ o1 with scl := some s } : GpObj).view = .ok g := by
    unfold GpObj.view
    have : ({ o1 with scl := some s } : GpObj).view0 = .ok g0 := h0
    rw [this, ok_bind]
    show (if o1.useScl = true then sclView g0 s else _) = _
    rw [hu, if_pos rfl, hg]
  refine ⟨g, ?_, hg, fun b => by rw [e1, e2]; rfl, fun {hp v β} R => ?_⟩
  · subst e1 e2
    refine ⟨D.static, hview, D.layout, hgok, D.dim, D.kernel, D.useGrad, D.nEval, D.oEval, D.noise, D.precon, D.eta, D.mask, D.idx, D.slots, D.dec, D.store, fun _ => ?_,
      fun W => absurd (D.plain W).2.2.2.2 (by rw [hu]; decide)⟩
    refine ⟨s, rfl, ?_⟩
    rw [hI.scale_n, hx]
    exact hok.x_c.trans D.dim
  · subst e1 e2
    exact ⟨D.ok, ⟨R.adm.theta, R.adm.kernel, R.adm.vf_none, R.adm.vf_some, R.adm.vg_none, R.adm.vg_some⟩, R.noise, R.precon, R.ne, R.vpos, R.varK, R.beta, R.eta, R.mask⟩

theorem slot_pos {g : Gp} {b : Bool} {k : ℕ} (hk : k < g.dim) : (gpSlots g b)[k]? = some (.theta k) := by
  unfold gpSlots hpSlots
  simp only [if_true, List.append_assoc]
  rw [List.getElem?_append_left (by simpa using hk)]
  simp [hk]

theorem slot_ge {g : Gp} {b : Bool} {k : ℕ} {sl : Slot} (h : (gpSlots g b)[k]? = some sl) (hn : ∀ j, sl ≠ .theta j) : g.dim ≤ k := by
  by_contra hc
  push Not at hc
  rw [slot_pos hc] at h
  cases h
  exact hn _ rfl

/-- Later runs of the optimiser, each from one point: if the hyperparameters other than the length scales are within the limits at the
start, they are within the limits at the solution. -/
def LaterRuns (dim : ℕ) (opt : FVec → Py Run) (p : StartPts) : Prop :=
  ∀ y, InBoxAfter dim p y → ∃ r x, opt (startAt y) = .ok r ∧ r.obj ≠ none ∧ r.sol.nums = some x ∧ InBoxAfter dim p x

/-- From the starting points to the end of the optimisation with a rescaling method. -/
theorem optzHp_rescale {st : GpStatic} {d : DataIn} {s : Session} {g : Gp} {info : HpInfo} (D : OptzData st d s.obj g info) (hn : 0 < d.fval.size)
    (hker : st.kernel = .ratQuad → st.optKernel = true) (hc : st.constN < d.fval.size) {n : ℕ} {h : Surr} (H : Hist n s h) {i : ℕ} (hin : i < n)
    (c : OptzCfg) (q : Oracle) (hm : s.obj.mtd.rescales = true) (hit : 1 < c.maxIter) (hlog : st.log.theta = true) (hu : s.obj.useScl = true)
    {p : StartPts} (hp : startPts c q i s g info = .ok p)
    {rng : Slot → Option (ℝ × ℝ)} (hbox : BoxOk st info g rng p) (hopt : RespectsBox (q.opt 0) p) (hlat : ∀ k, 1 ≤ k → LaterRuns st.dim (q.opt k) p)
    {sc : Scl} (hsc : s.obj.scl = some sc) {x : Arr2} {od : ObjData} {a b : ℝ} (hK : SclKeep x od a b true sc) (hx : x.c = st.dim) (hxr : x.r = d.fval.size)
    (hd : 0 < st.dim)
    {g0 : Gp} (h0 : s.obj.view0 = .ok g0) (hok : GpOk g0) (hgx : g0.x = x) (hstd : ∀ S, g0.stdGrad = some S → S.c = g0.dim) :
    ∃ t hv v β h' s' g', optzHp c q i s = (t, .ok ()) ∧ t = { s with obj := { s.obj with scl := some s' }, hp := some (HpF.ofVals hv), h := some h' } ∧
      SclKeep x od a b true s' ∧ t.obj.view = .ok g' ∧ Ready g' hv v β ∧ Ready g hv v β ∧
      (∀ sl ∈ gpSlots g st.optKernel, (∀ j, sl ≠ .theta j) → ∃ r y, rng sl = some r ∧ getSlot hv sl = some y ∧ 0 < y ∧ r.1 ≤ y ∧ y ≤ r.2) ∧
      (2 ≤ d.fval.size → ∃ T, 0 < T ∧ ∀ j < st.dim, getSlot hv (.theta j) = some T) := by
  obtain ⟨xb, hxb1, hxn, hxb⟩ := runOptz_ok (o := s.obj) (q := q) hbox.rows hopt
  have hidx := D.idx
  rw [setupHpIdx_ok] at hidx
  have hlen : (gpSlots g st.optKernel).length = info.nHp := by
    cases hidx
    exact hpSlots_length ..
  have hidt : info.idxTheta = List.range st.dim := by
    have := D.dim
    cases hidx
    rw [← this]
    rfl
  have hdl : st.dim ≤ p.lb.n := by
    rw [hbox.lb, ← hlen, ← D.dim]
    unfold gpSlots hpSlots
    simp
  have hst := D.static
  have hxbb : InBoxAfter st.dim p xb := ⟨hxn, fun k hk _ l u e1 e2 => hxb k hk l u e1 e2⟩
  obtain ⟨s', w, hw, hwb, hwt⟩ := optzRescale_total (o := s.obj.rescaleOpts c info) (opt := rescaleOpt s.obj q p.x0) (x0 := ⟨0, fun _ => 0⟩) (p := p)
    (best := xb) (by show s.obj.st.log.theta = true; rw [hst]; exact hlog) hK (by rw [hx, ← hst]; rfl) (by rw [hxr]; exact hn)
    (by show info.idxTheta = List.range s.obj.st.dim; rw [hst]; exact hidt) (by show 0 < s.obj.st.dim; rw [hst]; exact hd)
    (by show s.obj.st.dim ≤ _; rw [hst]; exact hdl) (by show 1 ≤ c.maxIter; omega) (by unfold rescaleOpt; rw [if_pos rfl]; exact hxb1)
    (by show InBoxAfter s.obj.st.dim p xb; rw [hst]; exact hxbb) (fun k y hk hy => by
      obtain ⟨r, x', e1, e2, e3, e4⟩ := hlat k hk y (by rw [← hst]; exact hy)
      refine ⟨x', ?_, by show InBoxAfter s.obj.st.dim p x'; rw [hst]; exact e4⟩
      unfold rescaleOpt
      rw [if_neg (by omega), runOptz_one, e1]
      show (pickBest s.obj.useCstr s.obj.st.condMax [r]).bind _ = _
      rw [pickBest_single (Option.isSome_iff_ne_none.mpr e2)]
      show numsOr r.sol = _
      unfold numsOr; rw [e3])
  have hwb : InBoxAfter st.dim p w := by rw [← hst]; exact hwb
  have hK' : SclKeep x od a b true s' := rescale_keep (by show s.obj.st.log.theta = true; rw [hst]; exact hlog) (by show 0 < s.obj.st.dim; rw [hst]; exact hd)
    (by rw [hx, ← hst]; rfl) hK hw
  have hvec : optzVec c q s.obj g info p.x0 = ({ s.obj with scl := some s' }, .ok (w, q.cond)) := by
    unfold optzVec
    rw [hm, hsc, decide_eq_true hit]
    simp only [Bool.and_self, if_true]
    rw [hw]
  obtain ⟨g', D', -, hsl, hR⟩ := optzData_scl D hu h0 hok hK'.images (by rw [hK'.obj]; rfl) (hK'.xInit.trans hgx.symm) hstd
  have hwn : w.n = info.nHp := hwb.1.trans hbox.lb
  have hval : ∀ k sl, (gpSlots g' st.optKernel)[k]? = some sl → (∀ j, sl ≠ .theta j) → ∃ r, rng sl = some r ∧ 0 < r.1 ∧ r.1 ≤ natural st.log sl (w.get k) ∧
      natural st.log sl (w.get k) ≤ r.2 := by
    intro k sl hk hne
    rw [hsl] at hk
    have hge := slot_ge hk hne
    obtain ⟨r, l, u, h1, h2, h3, h4, h5, h6⟩ := hbox.box k sl hk
    have hlt : k < w.n := by
      rw [hwn, ← hlen]
      exact (List.getElem?_eq_some_iff.mp hk).1
    obtain ⟨h7, h8⟩ := hwb.2 k hlt (by rw [← D.dim]; exact hge) l u h3 h4
    exact ⟨r, h1, h2, h5.trans (natural_mono _ _ h7), (natural_mono _ _ h8).trans h6⟩
  obtain ⟨hp0, hdec, hadm, hall⟩ := decode_adm D'.idx hwn (fun hk => hker (D'.kernel ▸ hk)) (by
    intro k sl hk hl
    by_cases hne : ∀ j, sl ≠ .theta j
    · obtain ⟨r, -, h2, h3, -⟩ := hval k sl hk hne
      unfold natural at h3
      rw [if_neg (by simp [hl])] at h3
      exact h2.trans_le h3
    · push Not at hne
      obtain ⟨j, rfl⟩ := hne
      unfold slotLog at hl
      rw [hlog] at hl
      cases hl)
  have hvk := optz_slots_varK D' hall
  obtain ⟨hv, v, β, h1, h2, h3, h4⟩ := decodeSol_total D' hn c q hdec hadm hvk
  set s2 : Session := { s with obj := { s.obj with scl := some s' } } with hs2
  have hfit : HpFits s2.obj.st.dim nBetaCoeff (HpF.ofVals hv) := by
    obtain ⟨th, e1, e2, -⟩ := h2.adm.theta
    obtain ⟨b, e3, e4, -⟩ := h2.beta
    exact ofVals_fits ⟨th, e1, by rw [e2, D'.dim, ← hst]⟩ ⟨b, e3, e4⟩
  obtain ⟨f, hf⟩ := D.store
  obtain ⟨h', e1, -⟩ := store_ok (o := s2.surr) (s := ({ hp := HpF.ofVals hv, info := some q.info, cond := q.cond, timeOptz := q.time.1, timeChofac := q.time.2.1, timePick := q.time.2.2 } : StoreArgs))
    H.save H.eq H.sized ⟨⟨_, by simp only [Session.surr, hs2, hf, Option.map_some]; rfl⟩, fun hu => by
      obtain ⟨sc, c1, c2⟩ := D'.scale hu
      exact ⟨sc.xScale, by simp only [Session.surr, hs2, c1, Option.map_some], by show sc.xScale.n = s.obj.st.dim; rw [c2, hst]⟩⟩ hfit
    (i := i) (k := i) ⟨hin, Or.inl rfl⟩
  obtain ⟨hp1, hdec1, -, -, hsl1, -⟩ := C55_decode g' st.log st.optKernel D'.idx w hwn
  rw [hdec] at hdec1
  cases hdec1
  refine ⟨_, hv, v, β, h', s', g', ?_, rfl, hK', D'.view, h2, hR h2, ?_, fun h2' => ?_⟩
  · have hfin : optzHp c q i s = finishOptz c q i info w q.cond s2 := by
      unfold optzHp
      rw [D.view]
      dsimp only
      rw [if_neg (by rw [D.static, D.oEval]; omega)]
      unfold optzNum
      rw [D.layout]
      dsimp only
      rw [hp]
      dsimp only
      rw [hvec]
    rw [hfin]
    unfold finishOptz
    dsimp only
    rw [h1]
    dsimp only
    unfold Session.store
    rw [e1]
    rfl
  · intro sl hsl' hne
    rw [← hsl] at hsl'
    obtain ⟨k, hk⟩ := List.mem_iff_getElem?.mp hsl'
    obtain ⟨r, r1, r2, r3, r4⟩ := hval k sl hk hne
    have hget : getSlot hv sl = getSlot hp0 sl := by
      cases sl with
      | varK =>
        have hno : g'.noisy = true := by
          by_contra hno
          rw [Bool.not_eq_true] at hno
          simp [gpSlots, hpSlots, hno] at hsl'
        show hv.varK = hp0.varK
        exact h4 hno
      | _ => rw [h3]; rfl
    exact ⟨r, _, r1, by rw [hget]; exact hsl1 k sl hk, r2.trans_le r3, r3, r4⟩
  · obtain ⟨T, hT⟩ := hwt (by rw [hxr]; exact h2')
    refine ⟨(10 : ℝ) ^ T, by positivity, fun j hj => ?_⟩
    have hget : getSlot hv (.theta j) = getSlot hp0 (.theta j) := by rw [h3]; rfl
    rw [hget, hsl1 j _ (slot_pos (by rw [D'.dim]; exact hj))]
    unfold natural slotLog
    rw [hlog, if_pos rfl, hT j (by show j < s.obj.st.dim; rw [hst]; exact hj)]

/-- **C95.** A new object with a rescaling method, any calls; then more than `hp_const_n_eval` points are given with `set_data`, and any
calls follow that keep the data and the method (among them optimisations that change the scaling, and calls that raise). The options
are proper, the starting points are sampled (or `hp_best` finds one), every run of the optimiser from the starting points returns a
number and a solution inside the limits, and every later run keeps the hyperparameters other than the length scales inside the
limits (the length scales of its starting point may be outside of them). Then `set_hpara('optz')` succeeds, whatever the number of
iterations; the hyperparameters are proper ones for the data, all within their limits except for the length scales, which are all
the same positive number if there are two or more points; and (without the condition-number check) the model makes predictions. -/
theorem C95_rescaling_succeeds {st : GpStatic} {m : Option String} {s0 s1 : Session} (h0 : newSession st m = .ok s0) (hst : NugOk st)
    (l : List SOp) {d : DataIn} (hX : PointsFit st.dim d) (hn : st.constN < d.fval.size) (hd : (SOp.data d).run (runOps l s0) = (s1, .ok ()))
    (hrs : s1.obj.mtd.rescales = true) (hlog : st.log.theta = true) (hD : DistPos st s1.obj.mtd)
    (hm : st.kernel = .ratQuad → numGrads d = d.fval.size ∧ st.optKernel = true)
    (l' : List SOp) (hl' : ∀ a ∈ l', a.sameData) {n : ℕ} {hh : Surr} (H : Hist n (runOps l' s1) hh) {i : ℕ} (hi1 : 1 ≤ i) (hin : i < n)
    {c : OptzCfg} {q : Oracle} (S : StartOk st d c q hh i) (hit : 1 < c.maxIter) {k : ℕ} (hk : 1 ≤ k)
    (hstart : c.start = .lhs k ∨ (c.start = .hpBest k ∧ ∀ g info, (runOps l' s1).obj.view = .ok g → (runOps l' s1).obj.info = some info →
      ∃ p, startPts c q i (runOps l' s1) g info = .ok p))
    (hopt : ∀ g info p, (runOps l' s1).obj.view = .ok g → (runOps l' s1).obj.info = some info → startPts c q i (runOps l' s1) g info = .ok p →
      StartsInBox p → RespectsBox (q.opt 0) p ∧ ∀ j, 1 ≤ j → LaterRuns st.dim (q.opt j) p)
    (hp : Option HpF) (cc : Bool) {X : Arr2} (hXc : X.c = st.dim) (hXr : 0 < X.r) (cg : Bool) :
    ∃ t hv v β, setHpara c q "optz" i hp cc (runOps l' s1) = (t, .ok ()) ∧ UpToDate cc t ∧ t.hp = some (HpF.ofVals hv) ∧ HpFor st d hv v β ∧
      (∀ sl, Optimised st d sl → (∀ j, sl ≠ .theta j) →
        ∃ r y, rangeOf (startOpts st c.x0) sl = some r ∧ getSlot hv sl = some y ∧ 0 < y ∧ r.1 ≤ y ∧ y ≤ r.2) ∧
      (2 ≤ d.fval.size → ∃ T, 0 < T ∧ ∀ j < st.dim, getSlot hv (.theta j) = some T) ∧
      (cc = false → ∃ out, t.predict X cg false = .ok out) := by
  have hcfg : CfgOk st (runOps l s0).obj := runOps_cfgOk l (new_cfgOk h0)
  have hcfg1 : CfgOk st s1.obj := by
    have := run_cfgOk hcfg (.data d)
    rw [hd] at this
    exact this
  have hst1 : s1.obj.st = st := hcfg1.eq
  have hn0 : 0 < d.fval.size := by omega
  have hu : s1.obj.useScl = true := by rw [hcfg1.scl, hrs]; rfl
  have hd' := data_call hd
  obtain ⟨hL, hC, -⟩ := setData_loaded hd'
  have hst0 : (runOps l s0).obj.st = st := hcfg.eq
  have hug : st.useGrad = true := by
    by_contra hug
    rw [Bool.not_eq_true] at hug
    have := hcfg1.base hug
    rw [this] at hrs
    cases hrs
  have hspf : s1.obj.mtd = .dfltVmax → 2 ≤ d.fval.size → Spreadable .dfltVmax d.x.mat := fun h => by rw [h] at hrs; cases hrs
  obtain ⟨g0, sc, od, k1, hH, hK1, hop, hxc, hkr⟩ := keep_ready h0 hst l hX hn0 hd hu hD hspf (fun e => (hm e).1)
  have hKl := runOps_keep hcfg1.scl (by rw [hst1]; exact fun _ => hlog) (by rw [hst1]; exact hst.1) (by rw [hst1]; exact hxc) l' hK1 hl'
  obtain ⟨sc1, e1, e2⟩ := id hKl
  obtain ⟨sk, rfl, K⟩ := e2 hu
  rw [hrs] at K
  obtain ⟨g00, ev0, hH0, hok0, -⟩ := holdsData0 hcfg hX hd'
  obtain ⟨g1, info, D1⟩ := optz_data hcfg hst hX hn0 hd' (.inl hug) (fun e => (hm e).1)
  obtain ⟨x, f, hx, hf, hg⟩ : ∃ x f, s1.obj.xIn = some x ∧ s1.obj.fvalIn = some f ∧ s1.obj.gp x f = g00 := by
    have e0 := ev0
    unfold GpObj.view0 at e0
    cases hx : s1.obj.xIn with
    | none => rw [hx] at e0; cases e0
    | some x =>
      cases hf : s1.obj.fvalIn with
      | none => rw [hx, hf] at e0; cases e0
      | some f =>
        rw [hx, hf] at e0
        exact ⟨x, f, rfl, rfl, Except.ok.inj (show Except.ok (s1.obj.gp x f) = Except.ok g00 from e0)⟩
  have hu0 : (runOps l s0).obj.useScl = true := by rw [← hL.useScl]; exact hu
  have hgx : d.x.mat = g00.x := by
    obtain ⟨s', q1, -, q3, -⟩ := hL.scl hu0
    obtain ⟨sd, od', r1, r2, -⟩ := data_keep hcfg hst hX hn0 hd' hu hD hspf
    rw [r1] at q1
    cases q1
    rw [r2.xInit, hx] at q3
    rw [Option.some.inj q3, ← hg]
    rfl
  have hstd : ∀ S, g00.stdGrad = some S → S.c = g00.dim := by
    intro S hS
    have hg9 : g00.stdGrad = s1.obj.stdGradIn := by rw [← hg]; rfl
    rw [hg9] at hS
    rcases hL.stdGrad with ⟨-, -, h⟩ | ⟨T, t, hug, hT, -, ht, hT2, -⟩
    · rw [h] at hS; cases hS
    · rw [ht] at hS; cases hS
      have := hC.stdGrad hug T hT
      rw [hT2] at this
      simp only [List.cons.injEq, and_true] at this
      rw [this.2, hH0.dim, hst0]
  have hso : sk.obj.isSome = true := by rw [K.obj]; rfl
  obtain ⟨g, D, hgv, hsl, hRR⟩ := optzData_scl D1 hu ev0 hok0 K.images hso (K.xInit.trans hgx) hstd
  have D' : OptzData st d (runOps l' s1).obj g info := by rw [e1]; exact D
  have hxr : d.x.mat.r = d.fval.size := by
    rw [hgx, hok0.x_r]; exact hH0.nEval
  have hstart' : ∃ p, startPts c q i (runOps l' s1) g info = .ok p := by
    rcases hstart with h | ⟨-, h⟩
    · exact startPts_total D' hn0 (fun e => (hm e).2) hst.1 H S hi1 hin.le hk (.inl h)
    · exact h g info D'.view D'.layout
  obtain ⟨p, hp'⟩ := hstart'
  have hbox := startPts_box D' hst.1 H S hi1 hin.le hk (by rcases hstart with h | h; exacts [.inl h, .inr h.1]) hp'
  obtain ⟨ho1, ho2⟩ := hopt g info p D'.view D'.layout hp' hbox.starts
  have hscl : (runOps l' s1).obj.scl = some sk := by rw [e1]
  have hul : (runOps l' s1).obj.useScl = true := by rw [e1]; exact hu
  obtain ⟨t, hv, v, β, h', s', g', r1, r2, r3, r4, r5, r6, r7, r8⟩ := optzHp_rescale D' hn0 (fun e => (hm e).2) hn H hin c q (by rw [e1]; exact hrs)
    hit hlog hul hp' hbox ho1 ho2 hscl K hxc hxr hst.1 (g0 := g00) (by rw [e1]; exact ev0) hok0 hgx.symm hstd
  obtain ⟨e, pe, he⟩ := setup_total (s := t) (h := HpF.ofVals hv) (g := g') (by rw [r2]) (ofVals_nums _) r4 r5 cc
  have hfin : setHpara c q "optz" i hp cc (runOps l' s1) = ({ t with ev := e, setupHp := pe }, .ok ()) := by
    have hse : selectHp c q "optz" i hp (runOps l' s1) = (t, .ok ()) := by
      simp only [selectHp]
      rw [if_neg (by decide), if_pos trivial]
      exact r1
    unfold setHpara
    rw [hse]
    exact he
  have hfor : HpFor st d hv v β := by
    have := ready_hpFor hst0 hL hC (by rw [hst0]; exact hX) (fun _ => by rw [hst0]; exact hug) D1.view (hRR r6)
    exact this
  have hup := (setHpara_ok hfin).1
  have hobj : t.obj = { s1.obj with scl := some s' } := by rw [r2, e1]
  refine ⟨_, hv, v, β, hfin, hup, by rw [r2], hfor, fun sl hs hne => r7 sl ((D'.slots sl).mpr hs) hne, r8, ?_⟩
  rintro rfl
  have hKt : Keep s1.obj d.x.mat od sc.objScale sc.objShift ({ t with ev := e, setupHp := pe } : Session) :=
    ⟨some s', hobj, fun _ => ⟨s', rfl, by rw [hrs]; exact r3⟩⟩
  obtain ⟨gg, ss, p1, p2, p3, p4, p5, p6, p7, p8, p9, p9', p10, p11, p12, -⟩ := hkr hKt hfor
  exact predict_total_scaled hup (by rw [r2]) (ofVals_nums hv) (by show t.obj.useScl = true; rw [hobj]; exact hu) hH p1 p2 p3 p4 p5 p6 p7 p8
    (by rw [p9]; exact hop) p10 p11 p12 hXc hXr cg

end Props
