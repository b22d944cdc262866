import Verif.Spec.ScaleSpec
import Verif.Props.Original
import Verif.Props.RescaleHp

/-! C76: what `set_data` does with a scaling method; C75 through the methods of the object. -/

open Np GP Matrix Spec

noncomputable section

namespace Props

/-! ### The scale that the constructor chooses -/

theorem calcCoeff_pos {s : Scl} {X : Arr2} {c : ℝ} (hc : calcCoeff s X = .ok c) (hX : X.r = s.xInit.r) (h1 : 1 ≤ X.r) (hD : 0 < s.distSet.getD 1)
    (hv : s.xMtd = .vmax → X.r = 1 ∨ ∃ p < X.r, ∃ q < X.r, ∃ i < X.c, X.get p i ≠ X.get q i) : 0 < c := by
  unfold calcCoeff at hc
  by_cases h : s.xInit.r = 1 ∨ s.xMtd = .none
  · rw [if_pos h] at hc; cases hc; exact one_pos
  · rw [if_neg h] at hc
    push Not at h
    obtain ⟨lo, hi, k1, k2, -, -, k3⟩ := (C16_distances X).2 (by omega)
    cases hm : s.xMtd with
    | vmin =>
      rw [hm] at hc
      simp only [isoScaling, if_true, k1, needDist, ok_bind, pure_eq_ok] at hc
      cases hc
      exact div_pos hD (lt_max_of_lt_left (by unfold tolMinDistX; positivity))
    | vmax =>
      rw [hm] at hc
      simp only [isoScaling, Bool.false_eq_true, if_false, k2, needDist, ok_bind, pure_eq_ok] at hc
      cases hc
      refine div_pos hD ?_
      obtain h1 | ⟨a, ha, e, he, i, hi, hne⟩ := hv hm
      · omega
      · refine lt_of_lt_of_le ?_ (k3 a ha e he (by rintro rfl; exact hne rfl)).2
        exact Real.sqrt_pos.mpr (lt_of_lt_of_le (sq_pos_of_ne_zero (sub_ne_zero.mpr hne)) (Finset.single_le_sum (f := fun d =>
          (X.get a d - X.get e d) ^ 2) (fun _ _ => sq_nonneg _) (Finset.mem_range.mpr hi)))
    | none => exact absurd hm h.2
    | other => rw [hm] at hc; cases hc

/-- The constructor scales all coordinates by one factor. -/
theorem newScl_iso {x : Arr2} {m : XMtd} {D : ℝ} {s : Scl} (h : newScl x none true m (some D) = (s, .ok ())) (h1 : 1 ≤ x.r) :
    ∃ c, (∀ i < x.c, s.xScale.get i = c) ∧ (∀ i < x.c, s.xShift.get i = x.get (x.r - 1) i) ∧
      (0 < D → (m = .vmax → x.r = 1 ∨ ∃ p < x.r, ∃ q < x.r, ∃ i < x.c, x.get p i ≠ x.get q i) → 0 < c) := by
  unfold newScl at h
  dsimp only at h
  split at h
  · cases h
  obtain ⟨r, hr, -, hI, e1, e2, -⟩ := setXscale_ok h
  obtain ⟨X, c, sin, -, k0, k1, -, -, rfl, k2, k3⟩ := calcXShiftScale_inv hr
  cases k1
  have hsh : r.1 = ⟨x.c, x.get (x.r - 1)⟩ := by
    unfold calcShift at k0
    simp only [if_true, Option.getD_none] at k0
    have : pyIdx ((x.r : ℤ) - 1) x.r = .ok (x.r - 1) := by
      unfold pyIdx
      rw [if_pos (by omega)]
      congr 1; omega
    rw [this, ok_bind] at k0
    exact (Except.ok.inj k0).symm
  refine ⟨c, fun i _ => by rw [e2, k3]; exact one_mul c, fun i _ => by rw [e1, hsh], fun hD hv => ?_⟩
  refine calcCoeff_pos k2 rfl h1 hD fun hm => ?_
  rcases hv hm with h | ⟨p, hp, q, hq, i, hi, hne⟩
  · exact .inl h
  · refine .inr ⟨p, hp, q, hq, i, hi, ?_⟩
    show (x.get p i - _) * 1 ≠ (x.get q i - _) * 1
    intro h
    apply hne
    linarith

theorem setObjData_frame {o : ObjData} {u : Bool} {m : ObjMtd} {s s' : Scl} (h : setObjData o u m s = (s', .ok ())) :
    s'.xScale = s.xScale ∧ s'.xShift = s.xShift ∧ s'.xScl = s.xScl ∧ s'.idxBest = s.idxBest ∧ s'.distSet = s.distSet ∧ s'.xMtd = s.xMtd := by
  unfold setObjData at h
  split at h
  · simp at h
  split at h
  · simp at h
  dsimp only at h
  split at h
  · unfold setObjScaling at h
    split at h
    · unfold setSclObj at h
      obtain ⟨a, -, rfl⟩ := compute_ok h
      exact ⟨rfl, rfl, rfl, rfl, rfl, rfl⟩
    · simp at h
  · simp at h

/-- What a successful `set_data` with a scaling method did. -/
theorem setData_scaled {d : DataIn} {o o' : GpObj} (h : setData d o = (o', .ok ())) (hu : o.useScl = true) :
    ∃ s s0 od m D, o'.scl = some s ∧ newScl d.x.mat none true m (some D) = (s0, .ok ()) ∧ scaleArgs o d.fval.size = .ok (m, D) ∧
      setObjData od true .dfltMax s0 = (s, .ok ()) ∧ od.val = d.fval.ravel ∧ s0.xInit = d.x.mat ∧ d.x.mat.r = d.fval.size ∧
      o'.vminReq = (if o.mtd = .rescaleOrigin then some D else o.vminReq) := by
  obtain ⟨ng, fz, gz, b, e, k, vm, inf, hng, hx, hsf, ⟨hg1, hg2⟩, hz1, hz2, hz3, hz4, hz5, hnug, hk, hvm, hinf, hsc⟩ := setData_iff.mp h
  obtain ⟨v, s, sg, s0, m, r, rfl, h1, h2, h3, h4, h5⟩ := scaleCall_on (o := filled d o ng fz gz b e k vm inf) hu hsc
  obtain ⟨h6, -, h7⟩ := setObjData_inv h5
  have hx0 := (newScl_ok h1).2.2.1
  exact ⟨s, s0, _, m, r, rfl, h1, h3, h5, rfl, hx0, by rw [← hx0]; exact h7, h4⟩

theorem reqVmin_eq {n d : ℕ} (hn : 2 ≤ n) : calcVreq n d = reqVmin n d := by
  unfold calcVreq reqVmin
  rw [if_neg (by omega), min_comm]

theorem scaleArgs_pos {o : GpObj} {n : ℕ} {m : XMtd} {D : ℝ} (h : scaleArgs o n = .ok (m, D)) (hn : 1 ≤ n) (hd : 0 < o.st.dim)
    (hD : DistPos o.st o.mtd) : 0 < D ∧ (m = .vmax ↔ o.mtd = .dfltVmax) := by
  unfold scaleArgs at h
  unfold DistPos at hD
  cases hm : o.mtd with
  | rescaleOrigin =>
    rw [hm] at h; cases h
    refine ⟨?_, by simp⟩
    rcases Nat.lt_or_ge n 2 with h | h
    · have : n = 1 := by omega
      rw [this]; unfold calcVreq; simp
    · have := vreq_pos h hd; linarith
  | rescaleEtaVary => rw [hm] at h hD; cases h; exact ⟨hD, by simp⟩
  | dfltVmin => rw [hm] at h hD; cases h; exact ⟨hD, by simp⟩
  | dfltVmax => rw [hm] at h hD; cases h; exact ⟨hD, by simp⟩
  | base => rw [hm] at h; cases h
  | precon => rw [hm] at h; cases h

/-- **C76.** A successful `set_data` on an object with a scaling method (any arguments, any earlier state): the scaling it leaves is that
of the given points, with the last point moved to the origin and all coordinates multiplied by one number; with two or more points
that allow it, the scaled points have exactly the configured smallest (largest) distance of the method; the last objective value
becomes 0, the order of the values is kept, and a range of at least `1e-20` becomes exactly 100. -/
theorem C76_scaled_data {d : DataIn} {o o' : GpObj} (h : setData d o = (o', .ok ())) (hu : o.useScl = true) (hd : 0 < o.st.dim)
    (hn : 1 ≤ d.fval.size) (hD : DistPos o.st o.mtd) :
    ∃ s X f, o'.scl = some s ∧ Images s ∧ s.xInit = d.x.mat ∧ s.xScl = X ∧ (s.objScl.map fun a => a.val) = some f ∧
      X.r = d.fval.size ∧ f.n = d.fval.size ∧
      (∃ c, ∀ a < X.r, ∀ i < X.c, X.get a i = c * (d.x.get [a, i] - d.x.get [d.fval.size - 1, i])) ∧
      (2 ≤ d.fval.size → Spreadable o.mtd d.x.mat → Spread o.st o.mtd X) ∧
      f.get (d.fval.size - 1) = 0 ∧
      (∀ a < f.n, ∀ b < f.n, f.get a ≤ f.get b ↔ d.fval.flat a ≤ d.fval.flat b) ∧
      (2 ≤ d.fval.size → (∃ a < f.n, ∃ b < f.n, (10 : ℝ) ^ (-20 : ℤ) ≤ d.fval.flat a - d.fval.flat b) →
        (∃ a < f.n, ∃ b < f.n, f.get a - f.get b = 100) ∧ ∀ a < f.n, ∀ b < f.n, f.get a - f.get b ≤ 100) ∧
      (o.mtd = .rescaleOrigin → 2 ≤ d.fval.size → o'.vminReq = some (reqVmin d.fval.size o.st.dim)) := by
  obtain ⟨s, s0, od, m, D, h1, h2, h3, h4, h5, h6, h7, h8⟩ := setData_scaled h hu
  obtain ⟨hI0, hm, -, hmt, hds, hib, -⟩ := newScl_ok h2
  obtain ⟨f1, f2, f3, -, -, -⟩ := setObjData_frame h4
  obtain ⟨i1, i2, -⟩ := setObjData_inv h4
  have hI : Images s := reach_images (.call (.objData _ _ _) (.new h2) h4)
  obtain ⟨ob, i, j1, j2, j3, j4, j5, j6, -, j7⟩ := C48_objective_scaling h4
  have hval : od.val.n = d.fval.size := by rw [h5]; rfl
  have hvg : ∀ k, od.val.get k = d.fval.flat k := fun k => by rw [h5]; rfl
  obtain ⟨c, c1, c2, -⟩ := newScl_iso h2 (by rw [h7]; exact hn)
  have hi : i = d.fval.size - 1 := by
    have : pyIdx s0.idxBest od.val.n = .ok (d.fval.size - 1) := by
      rw [hib, hval]
      unfold pyIdx
      rw [Option.getD_none, h7, if_pos (by omega)]
      congr 1; omega
    rw [this] at j2
    exact (Except.ok.inj j2).symm
  have hXr : s.xScl.r = d.fval.size := by rw [f3, hI0.x.1, h6, h7]
  have hXc : s.xScl.c = d.x.mat.c := by rw [f3, hI0.x.2.1, h6]
  refine ⟨s, s.xScl, ob.val, h1, hI, i1.trans h6, rfl, by rw [j1]; rfl, hXr, j3.trans hval, ⟨c, fun a ha e he => ?_⟩, fun hn2 hsp => ?_,
    by rw [← hi]; exact j4, ?_, ?_, ?_⟩
  · rw [f3, hI0.x.2.2 a (by rw [h6, h7, ← hXr]; exact ha) e (by rw [h6, ← hXc]; exact he), sclPt]
    rw [c1 e (by rw [← hXc]; exact he), c2 e (by rw [← hXc]; exact he), h6, h7]
    exact mul_comm _ _
  · have hne : newScl d.x.mat none true m (some D) = setXscale none none
        { xInit := d.x.mat, idxBest := (d.x.mat.r : ℤ) - 1, useShift := true, xMtd := m, distSet := some D
          xShift := ⟨0, fun _ => 0⟩, xScale := ⟨0, fun _ => 0⟩, xScl := ⟨0, 0, fun _ _ => 0⟩, R := ⟨0, 0, 0, fun _ _ _ => 0⟩ } := by
      unfold newScl
      dsimp only
      rw [if_neg hm]
      rfl
    rw [hne] at h2
    obtain ⟨hDp, hvm⟩ := scaleArgs_pos h3 hn hd hD
    have hst : ∀ p q, ptDist (stretched d.x.mat fun _ => 1) p q = ptDist d.x.mat p q := by
      intro p q
      unfold ptDist stretched
      simp
    unfold Spreadable at hsp
    have hmin : o.mtd ≠ .dfltVmax → m = .vmin → IsMinDist s.xScl D := by
      intro hne hm
      rw [if_neg hne] at hsp
      rw [f3]
      refine (C47_min_distance h2 hm (by show 2 ≤ d.x.mat.r; rw [h7]; exact hn2) hDp fun p hp q hq hpq => ?_).1
      show _ ≤ ptDist (stretched d.x.mat fun _ => 1) p q
      rw [hst]
      exact hsp p hp q hq hpq
    unfold scaleArgs at h3
    unfold Spread
    cases hmm : o.mtd with
    | rescaleOrigin =>
      rw [hmm] at h3 hmin; cases h3
      have := hmin (by decide) rfl
      dsimp only
      rw [hXr, ← reqVmin_eq hn2]
      exact this
    | rescaleEtaVary => rw [hmm] at h3 hmin; cases h3; exact hmin (by decide) rfl
    | dfltVmin => rw [hmm] at h3 hmin; cases h3; exact hmin (by decide) rfl
    | dfltVmax =>
      rw [hmm, if_pos rfl] at hsp
      rw [hmm] at h3; cases h3
      dsimp only
      rw [f3]
      exact (C47_max_distance h2 rfl (by show 2 ≤ d.x.mat.r; rw [h7]; exact hn2) hDp hsp).1
    | base => rw [hmm] at h3; cases h3
    | precon => rw [hmm] at h3; cases h3
  · rw [j3]
    intro a ha b hb
    rw [j6 a ha b hb, hvg, hvg]
  · intro hn2 hr
    rw [j3] at hr ⊢
    refine j7 (by rw [hval]; exact hn2) ?_
    simpa only [hvg] using hr
  · intro hmm hn2
    rw [h8, if_pos hmm]
    unfold scaleArgs at h3
    rw [hmm] at h3
    cases h3
    rw [reqVmin_eq hn2]

/-! ### Prediction -/

theorem data_call {d : DataIn} {s s1 : Session} (h : (SOp.data d).run s = (s1, .ok ())) : setData d s.obj = (s1.obj, .ok ()) := by
  have : (SOp.data d).run s = ({ s with obj := (setData d s.obj).1 }, (setData d s.obj).2) := rfl
  rw [this] at h
  simp only [Prod.mk.injEq] at h
  rw [← h.1]
  exact Prod.ext rfl h.2

/-- The scaling that `set_data` leaves is positive. -/
theorem setData_scale_pos {d : DataIn} {o o' : GpObj} (h : setData d o = (o', .ok ())) (hu : o.useScl = true) (hd : 0 < o.st.dim)
    (hn : 1 ≤ d.fval.size) (hD : DistPos o.st o.mtd) (hsp : o.mtd = .dfltVmax → 2 ≤ d.fval.size → Spreadable o.mtd d.x.mat) :
    ∃ s, o'.scl = some s ∧ 0 < s.objScale ∧ ∃ c, 0 < c ∧ ∀ i < d.x.mat.c, s.xScale.get i = c := by
  obtain ⟨s, s0, od, m, D, h1, h2, h3, h4, h5, h6, h7, h8⟩ := setData_scaled h hu
  obtain ⟨f1, -⟩ := setObjData_frame h4
  obtain ⟨ob, i, -, -, -, -, j5, -⟩ := C48_objective_scaling h4
  obtain ⟨c, c1, -, c3⟩ := newScl_iso h2 (by rw [h7]; exact hn)
  obtain ⟨hDp, hvm⟩ := scaleArgs_pos h3 hn hd hD
  refine ⟨s, h1, j5, c, c3 hDp fun hm => ?_, fun i hi => by rw [f1]; exact c1 i hi⟩
  rcases Nat.lt_or_ge d.fval.size 2 with hlt | hge
  · left; omega
  · right
    have := hsp (hvm.mp hm) hge
    unfold Spreadable at this
    rw [if_pos (hvm.mp hm)] at this
    exact this

/-- What is needed for a prediction after data with scaling and hyperparameters were given. -/
theorem scaled_ready {st : GpStatic} {m : Option String} {s0 s1 : Session} (h0 : newSession st m = .ok s0) (hst : NugOk st) (l : List SOp)
    {d : DataIn} (hX : PointsFit st.dim d) (hn : 0 < d.fval.size) (hd : (SOp.data d).run (runOps l s0) = (s1, .ok ()))
    (hu : s1.obj.useScl = true) (hD : DistPos st s1.obj.mtd) (hsp : s1.obj.mtd = .dfltVmax → 2 ≤ d.fval.size → Spreadable .dfltVmax d.x.mat)
    (hm : st.kernel = .ratQuad → numGrads d = d.fval.size) {hp : HpVals} {v β : ℝ} (hh : HpFor st d hp v β) :
    ∃ g0 g s, HoldsData st d g0 ∧ s1.obj.view = .ok g ∧ sclView g0 s = .ok g ∧ s1.obj.scl = some s ∧ Images s ∧ s.obj.isSome = true ∧
      s.xInit = g0.x ∧ (∀ S, g0.stdGrad = some S → S.c = g0.dim) ∧ (∀ i < st.dim, 0 < s.xScale.get i) ∧ 0 < s.objScale ∧
      Ready g0 hp v β ∧ Ready g hp v β ∧ (if g.o.etaConst then 0 < g.o.etaK else 1 < g.o.condMaxTarget) ∧ g0.o = s1.obj.condOpts ∧ g.o = g0.o := by
  have hcfg : CfgOk st (runOps l s0).obj := runOps_cfgOk l (new_cfgOk h0)
  have hd' := data_call hd
  obtain ⟨hL, hC, -⟩ := setData_loaded hd'
  have hst' : (runOps l s0).obj.st = st := hcfg.eq
  have hu0 : (runOps l s0).obj.useScl = true := by rw [← hL.useScl]; exact hu
  have hug : st.useGrad = true := by
    by_contra hug
    rw [Bool.not_eq_true] at hug
    rw [hcfg.scl, hcfg.base hug] at hu0
    cases hu0
  obtain ⟨g0, h0', hH, hok0, hgo⟩ := holdsData0 hcfg hX hd'
  obtain ⟨g0', g, e1, e2, -, -, -, e3, -⟩ := loaded_view hL (by rw [hst']; rw [hst'] at hC; exact hC) (by rw [hst']; exact hX)
    (fun _ => by rw [hst']; exact hug)
  rw [h0'] at e1
  cases e1
  obtain ⟨s, k1, k2, k3, k4, k5⟩ := e3 hu0
  have hI := reach_images k2
  obtain ⟨hR0, -⟩ := data_ready hcfg hst hX hn hd' (.inl hug) hm (.inr h0') hh
  obtain ⟨hR, hη⟩ := data_ready hcfg hst hX hn hd' (.inl hug) hm (.inl e2) hh
  obtain ⟨s', p1, p2, c, p3, p4⟩ := setData_scale_pos hd' hu0 (by rw [hst']; exact hst.1) hn (by rw [hst', ← hL.mtd]; exact hD)
    (fun hq h2 => by rw [hq]; exact hsp (hL.mtd.trans hq) h2)
  rw [k1] at p1
  cases p1
  have hxc : d.x.mat.c = st.dim := by
    show d.x.shape.getD 1 0 = _
    rw [show d.x.shape = [d.fval.size, st.dim] from hX]; rfl
  have hstd : ∀ S, g0.stdGrad = some S → S.c = g0.dim := by
    intro S hS
    have hg9 : g0.stdGrad = s1.obj.stdGradIn := by
      unfold GpObj.view0 at h0'
      cases hx : s1.obj.xIn with
      | none => rw [hx] at h0'; cases h0'
      | some x =>
        cases hf : s1.obj.fvalIn with
        | none => rw [hx, hf] at h0'; cases h0'
        | some f =>
          rw [hx, hf] at h0'
          rw [← Except.ok.inj (show Except.ok (s1.obj.gp x f) = Except.ok g0 from h0')]
          rfl
    rw [hg9] at hS
    rcases hL.stdGrad with ⟨-, -, h⟩ | ⟨T, t, hug, hT, -, ht, hT2, -⟩
    · rw [h] at hS; cases hS
    · rw [ht] at hS; cases hS
      have := hC.stdGrad hug T hT
      rw [hT2] at this
      simp only [List.cons.injEq, and_true] at this
      rw [this.2, hH.dim, hst']
  obtain ⟨g', v1, -, -, v2⟩ := sclView_ready hR0 hI k4 k3 hstd
  rw [k5] at v1
  cases v1
  exact ⟨g0, g, s, hH, e2, k5, k1, hI, k4, k3, hstd, fun i hi => by rw [p4 i (by rw [hxc]; exact hi)]; exact p3, p2, hR0, hR, hη, hgo, v2⟩

/-- **C75, end to end.** For every program on a new object with a scaling method that then gives it data `d` and hyperparameters `h`
that fit (both calls accepted), every prediction it makes at points `X`, given in original units, is the mean and standard deviation of
the conditional distribution of the function value given the data in original units, for the prior with mean `β / c + shift`,
variance `v / c²`, and kernel parameters `theta_i s_i²`, where `c`, `shift` and `s_i > 0` are the scaling of the objective and of the
coordinates. -/
theorem C75_end_to_end {st : GpStatic} {m : Option String} {s0 s1 t : Session} (h0 : newSession st m = .ok s0) (hst : NugOk st) (l : List SOp)
    {d : DataIn} (hX : PointsFit st.dim d) (hn : 0 < d.fval.size) (hd : (SOp.data d).run (runOps l s0) = (s1, .ok ()))
    (hu : s1.obj.useScl = true) (hD : DistPos st s1.obj.mtd) (hsp : s1.obj.mtd = .dfltVmax → 2 ≤ d.fval.size → Spreadable .dfltVmax d.x.mat)
    (hm : st.kernel = .ratQuad → numGrads d = d.fval.size) {h : HpF} {hp : HpVals} {v β : ℝ} (hnum : h.nums = some hp) (hh : HpFor st d hp v β)
    {c : OptzCfg} {q : Oracle} {i : ℤ} {cc : Bool} (ht : setHpara c q "set" i (some h) cc s1 = (t, .ok ())) {X : Arr2} (hXc : X.c = st.dim)
    (hXr : 0 < X.r) {cg : Bool} {out : Obj6} (hout : t.predict X cg false = .ok out) :
    ∃ g s μ σ η, HoldsData st d g ∧ t.obj.scl = some s ∧ Images s ∧ s.xInit = g.x ∧ (∀ i < st.dim, 0 < s.xScale.get i) ∧ 0 < s.objScale ∧
      out.mu = some μ ∧ μ.n = X.r ∧ out.sig = some σ ∧ σ.n = X.r ∧ 0 < η ∧ (t.obj.etaConst = true → η = t.obj.etaK) ∧
      ∀ u, UnitFactor g s u → ∀ N, OrigNoise g hp s N → ∀ K, IsKern g (origHp s hp) K → ∀ y, DataSpec g y → ∀ a < X.r, ∀ k,
        IsCross g (origHp s hp) (X.get a) k →
        CondNormal (origCov (t.obj.mtd == .precon) (v / s.objScale ^ 2) K (fun q => v * N q) η u) ((v / s.objScale ^ 2) • k) (v / s.objScale ^ 2)
          (priorMean g (β / s.objScale + s.objShift)) (β / s.objScale + s.objShift) y (μ.get a) (σ.get a ^ 2) := by
  obtain ⟨g0, g, s, hH, hv, k5, k1, hI, k4, k3, hstd, hpos, hop, hR0, hR, hη, hgo, hg2⟩ := scaled_ready h0 hst l hX hn hd hu hD hsp hm hh
  obtain ⟨e1, e2, hup⟩ := setHpara_set ht
  obtain ⟨hf, hp', g', e, f1, f2, f3, f4, f5⟩ := predict_upToDate hup
  rw [e2] at f1
  cases f1
  rw [hnum] at f2
  cases f2
  rw [e1, hv] at f3
  cases f3
  rw [f5, GpObj.evalWith, e1, hu, if_pos rfl, k1] at hout
  dsimp only at hout
  have hdim : g0.dim = st.dim := hH.dim
  have hgd : g.dim = st.dim := by
    obtain ⟨_, _, _, _, hg⟩ := sclView_fields k5
    rw [hg]; exact hdim
  have hcd : s.xInit.c = g0.dim := by rw [k3, hR0.ok.x_c]
  set X' : Arr2 := ⟨X.r, X.c, fun p d => sclPt s (X.get p) d⟩ with hX'
  have hXs : xInit2Scl s X = .ok X' := xInit2Scl_ok hI.shift_n hI.scale_n (by rw [hXc, hcd, hdim])
  have hF : e.chofac ≠ none := by
    unfold evalModelScl at hout
    rw [hXs, ok_bind] at hout
    cases ho : evalModel g e hp X' cg false with
    | error er => rw [ho] at hout; cases hout
    | ok o => exact ((C44_eval_hp g e hp X' cg false).1 o ho).2
  obtain ⟨out', μ, σ, q1, q2, q3, q4, q5, q6⟩ := C75_posterior_original_units hI k4 k3 hstd (fun i hi => hpos i (by rw [← hdim]; exact hi)) hop k5 hR0
    f4 hF (X := X) (by rw [hXc, hdim]) hXr cg
  rw [hout] at q1
  cases q1
  obtain ⟨o, g1, g3⟩ := C37_variance_bounds hR.toV f4 hF (X := X') (by rw [hgd]; exact hXc) hXr cg
  obtain ⟨out'', r1, -, ⟨σ', r5, r6, r7⟩, -⟩ := evalScl_val (g := g) hI k4 (hgd.trans (hdim.symm.trans hcd.symm)) hXs g1
  rw [hout] at r1
  cases r1
  rw [q4] at r5
  cases r5
  obtain ⟨N, K, hs, -⟩ := ready_setup hR.toV f4
  refine ⟨g0, s, μ, σ, e.etaK, hH, by rw [e1]; exact k1, hI, k3, hpos, hop, q2, q3, q4, q5, hs.etaPos hη, fun hc => ?_,
    fun u hu' N hN K hK y hy a ha k hk => ?_⟩
  · rw [hs.etaConst (by rw [hg2, hgo, ← e1]; exact hc), hg2, hgo, e1]; rfl
  · have hpre : (t.obj.mtd == .precon) = g0.o.precon := by rw [hgo, e1]; rfl
    rw [hpre]
    refine q6 u hu' N hN K hK y hy a ha k hk ?_
    have : σ.get a = o.sig ⟨a, ha⟩ / s.objScale := r7 ⟨a, ha⟩
    rw [this]
    exact div_pos ((g3 ⟨a, ha⟩).2.2 hη) hop

/-- **C75, totality.** Under the same conditions (without the condition-number check) the two calls `set_hpara('set')` and
`eval_model` succeed for all hyperparameters that fit the data and all points. -/
theorem C75_total {st : GpStatic} {m : Option String} {s0 s1 : Session} (h0 : newSession st m = .ok s0) (hst : NugOk st) (l : List SOp)
    {d : DataIn} (hX : PointsFit st.dim d) (hn : 0 < d.fval.size) (hd : (SOp.data d).run (runOps l s0) = (s1, .ok ()))
    (hu : s1.obj.useScl = true) (hD : DistPos st s1.obj.mtd) (hsp : s1.obj.mtd = .dfltVmax → 2 ≤ d.fval.size → Spreadable .dfltVmax d.x.mat)
    (hm : st.kernel = .ratQuad → numGrads d = d.fval.size) {h : HpF} {hp : HpVals} {v β : ℝ} (hnum : h.nums = some hp) (hh : HpFor st d hp v β)
    (c : OptzCfg) (q : Oracle) (i : ℤ) {X : Arr2} (hXc : X.c = st.dim) (hXr : 0 < X.r) (cg : Bool) :
    ∃ t out, setHpara c q "set" i (some h) false s1 = (t, .ok ()) ∧ t.predict X cg false = .ok out := by
  obtain ⟨g0, g, s, hH, hv, k5, k1, hI, k4, k3, hstd, hpos, hop, hR0, hR, hη, hgo, hg2⟩ := scaled_ready h0 hst l hX hn hd hu hD hsp hm hh
  obtain ⟨t, ht, -, -⟩ := C66_set_total c q i hv hnum hR false
  obtain ⟨e1, e2, hup⟩ := setHpara_set ht
  obtain ⟨hf, hp', g', e, f1, f2, f3, f4, f5⟩ := predict_upToDate hup
  rw [e2] at f1
  cases f1
  rw [hnum] at f2
  cases f2
  rw [e1, hv] at f3
  cases f3
  have hdim : g0.dim = st.dim := hH.dim
  obtain ⟨out, q1⟩ : ∃ out, t.predict X cg false = .ok out := by
    rw [f5, GpObj.evalWith, e1, hu, if_pos rfl, k1]
    dsimp only
    have hgd : g.dim = st.dim := by
      obtain ⟨_, _, _, _, hg⟩ := sclView_fields k5
      rw [hg]; exact hdim
    obtain ⟨e', o, g1, g2, -⟩ := C37_pipeline_total hR.toV hη (X := X) (by rw [hXc, hgd]) hXr cg
    rw [f4] at g1
    cases g1
    have hF : e.chofac ≠ none := ((C44_eval_hp g e hp X cg false).1 o g2).2
    obtain ⟨out', μ, σ, q1, -⟩ := C75_posterior_original_units hI k4 k3 hstd (fun i hi => hpos i (by rw [← hdim]; exact hi)) hop k5 hR0
      f4 hF (X := X) (by rw [hXc, hdim]) hXr cg
    exact ⟨out', q1⟩
  exact ⟨t, out, ht, q1⟩

/-! ### A concrete program -/

theorem runOps_useScl : ∀ (l : List SOp) {s : Session}, (∀ a ∈ l, ∀ w, a ≠ .wellcond w) → (runOps l s).obj.useScl = s.obj.useScl
  | [], _, _ => rfl
  | a :: l, _, hl => (runOps_useScl l fun b hb => hl b (List.mem_cons_of_mem _ hb)).trans (run_useScl (hl a (List.mem_cons_self ..)))

theorem exKnown_spreadable (m : WcMtd) (y : ℕ → ℝ) : Spreadable m (exKnown y).x.mat := by
  unfold Spreadable
  split
  · refine ⟨0, by show (0 : ℕ) < 3; decide, 1, by show (1 : ℕ) < 3; decide, 1, by show (1 : ℕ) < 2; decide, ?_⟩
    show ((0 : ℕ) : ℝ) * ((1 : ℕ) : ℝ) ≠ ((1 : ℕ) : ℝ) * ((1 : ℕ) : ℝ)
    norm_num
  · intro p _ q _ hpq
    refine le_trans (b := 1) (by norm_num) ?_
    refine Real.le_sqrt_of_sq_le ?_
    show (1 : ℝ) ^ 2 ≤ ∑ i ∈ Finset.range 2, ((p : ℝ) * (i : ℝ) - (q : ℝ) * (i : ℝ)) ^ 2
    rw [Finset.sum_range_succ, Finset.sum_range_one]
    have hz : ((p : ℤ) - q) ≠ 0 := sub_ne_zero.mpr (by exact_mod_cast hpq)
    have h1 : (1 : ℤ) ≤ ((p : ℤ) - q) ^ 2 := by
      have := sq_pos_of_ne_zero hz
      omega
    have h2 : (1 : ℝ) ≤ ((p : ℝ) - q) ^ 2 := by exact_mod_cast h1
    push_cast
    nlinarith

theorem exStatic_dist (m : WcMtd) : DistPos exStatic m := by
  unfold DistPos
  cases m <;> first | trivial | exact one_pos

/-- A program that meets the hypotheses of the C75 and C76 theorems: an object with any of the four scaling methods, after any calls, gets
three values `y`, and predictions with the hyperparameters `exHpK` can be made everywhere. -/
example {m : String} (hm : m ∈ ["rescale_origin", "rescale_eta_vary", "dflt_vmin", "dflt_vmax"]) (l : List SOp)
    (hl : ∀ a ∈ l, ∀ w, a ≠ .wellcond w) (c : OptzCfg) (q : Oracle) (y : ℕ → ℝ) (X : Arr2) (hX : X.c = 2) (hXr : 0 < X.r) :
    ∃ s0 s1 t out, newSession exStatic (some m) = .ok s0 ∧ (SOp.data (exKnown y)).run (runOps l s0) = (s1, .ok ()) ∧ s1.obj.useScl = true ∧
      Spreadable s1.obj.mtd (exKnown y).x.mat ∧ DistPos exStatic s1.obj.mtd ∧
      setHpara c q "set" 1 (some (HpF.ofVals exHpK)) false s1 = (t, .ok ()) ∧ t.predict X false false = .ok out := by
  have hm' : m ∈ wcAvail := by
    simp only [List.mem_cons, List.not_mem_nil, or_false] at hm
    rcases hm with rfl | rfl | rfl | rfl <;> decide
  obtain ⟨o, ho⟩ := newGp_total exStatic hm'
  have hs0 : newSession exStatic (some m) = .ok { obj := o } := by unfold newSession; rw [ho]; rfl
  have hcfg := runOps_cfgOk l (new_cfgOk hs0)
  have huo : o.useScl = true := by
    unfold newGp setWellcond at ho
    simp only [List.mem_cons, List.not_mem_nil, or_false] at hm
    rcases hm with rfl | rfl | rfl | rfl <;> (cases ho; rfl)
  have hul : (runOps l { obj := o }).obj.useScl = true := (runOps_useScl l hl).trans huo
  obtain ⟨o1, g, hd, hL, hv, -⟩ := accepts_cfg hcfg exStatic_ok.1 (exKnown_consistent y) rfl (exKnown_size _) (fun _ S hS => exKnown_grads _)
    (fun _ S hS => by cases hS; rfl)
  set s1 : Session := { (runOps l ({ obj := o } : Session)) with obj := o1 } with hs1
  have hrun : (SOp.data (exKnown y)).run (runOps l { obj := o }) = (s1, .ok ()) := by
    have hr : (SOp.data (exKnown y)).run (runOps l { obj := o })
      = ({ (runOps l { obj := o }) with obj := (setData (exKnown y) (runOps l { obj := o }).obj).1 }, (setData (exKnown y) (runOps l { obj := o }).obj).2) := rfl
    rw [hr, hd]
  have hu1 : s1.obj.useScl = true := hL.useScl.trans hul
  obtain ⟨t, out, ht, hout⟩ := C75_total hs0 exStatic_ok.1 l (d := exKnown y) rfl (exKnown_size _) hrun hu1 (exStatic_dist _)
    (fun _ _ => exKnown_spreadable _ y) (fun _ => rfl) (ofVals_nums exHpK) (exHpK_for y) c q 1 hX hXr false
  exact ⟨_, s1, t, out, hs0, hrun, hu1, exKnown_spreadable _ y, exStatic_dist _, ht, hout⟩

end Props
