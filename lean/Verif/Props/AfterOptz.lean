import Verif.Props.ScaledData
import Verif.Props.OptzHp

/-! Predictions after any calls of `set_hpara`, in particular after optimisations that change the scaling: C94. -/

open Np GP Matrix Spec

noncomputable section

namespace Props

/-! ### The scaling stays consistent -/

theorem rescaleTheta_pos {dim : ℕ} {X : Arr2} {scale1 theta : Arr1} {r : RescaleOut} (h : rescaleTheta true dim X scale1 theta = .ok r)
    (hd : 0 < dim) (hX : X.c = dim) (hs : scale1.n = dim) (hpos : ∀ d < dim, 0 < scale1.get d) :
    r.scale.n = dim ∧ ∀ d < dim, 0 < r.scale.get d := by
  have h2 : 2 ≤ X.r := by
    unfold rescaleTheta at h
    by_contra hc
    unfold pyAssert at h
    rw [if_neg (by omega)] at h
    cases h
  have hn : theta.n = dim := by
    by_contra hc
    unfold rescaleTheta at h
    dsimp only at h
    obtain ⟨-, -, h⟩ := bindOk h
    obtain ⟨X2, -, h⟩ := bindOk h
    obtain ⟨dm, -, h⟩ := bindOk h
    obtain ⟨sn, -, h⟩ := bindOk h
    rw [if_neg hc] at h
    cases h
  have hlin : ∀ v : ℝ, 0 < thetaLin true v := fun v => by simp only [thetaLin, if_true]; positivity
  obtain ⟨r', D, k1, -, -, k2, k3, -⟩ := rescaleTheta_ok (log := true) (theta := theta) h2 hX hn hs (fun d _ => hlin _)
  rw [h] at k1
  cases k1
  refine ⟨k2, fun d hd' => ?_⟩
  rw [k3]
  have hv := vreq_pos h2 hd
  have hG : 0 < geoMean dim fun e => thetaLin true (theta.get e) := geoMean_pos fun d _ => hlin _
  have hm : (0 : ℝ) < max D ((10 : ℝ) ^ (-15 : ℤ)) := lt_max_of_lt_right (by positivity)
  exact mul_pos (mul_pos (hpos d hd') (Real.sqrt_pos.mpr (div_pos (hlin _) hG))) (div_pos (by linarith) hm)

theorem rescaleLoop_all {o : RescaleOpts} {opt : ℕ → Arr1 → Py Arr1} {s : Scl} {P : RescaleOut → Prop}
    (hP : ∀ th r, rescaleTheta o.log o.dim s.xScl s.xScale th = .ok r → P r) :
    ∀ (k : ℕ) (theta best : Arr1) (its : List RescaleOut) {r}, rescaleLoop o opt s k theta best its = .ok r → (∀ i ∈ its, P i) → ∀ i ∈ r.2, P i
  | 0, _, _, _, _, h, _ => by cases h
  | k + 1, theta, best, its, r, h, hi => by
    unfold rescaleLoop at h
    obtain ⟨a, ha, h⟩ := bindOk h
    dsimp only at h
    have hi' : ∀ i ∈ its ++ [a], P i := by
      intro i hx
      rcases List.mem_append.mp hx with hx | hx
      · exact hi i hx
      · rw [List.mem_singleton] at hx; rw [hx]; exact hP _ _ ha
    split at h
    · cases h; exact hi'
    · obtain ⟨x0, -, h⟩ := bindOk h
      obtain ⟨b, -, h⟩ := bindOk h
      exact rescaleLoop_all hP k _ _ _ h hi'

theorem rescaleHp_all {o : RescaleOpts} {opt : ℕ → Arr1 → Py Arr1} {s : Scl} {best : Arr1} {r : Arr1 × Arr1} {P : RescaleOut → Prop}
    (hP : ∀ th r, rescaleTheta o.log o.dim s.xScl s.xScale th = .ok r → P r) (h : rescaleHp o opt s best = .ok r) : ∃ i, P i ∧ r.1 = i.scale := by
  unfold rescaleHp at h
  obtain ⟨th, -, h⟩ := bindOk h
  obtain ⟨a, ha, h⟩ := bindOk h
  split at h
  · cases h
  · rename_i i hi
    obtain ⟨hp, -, h⟩ := bindOk h
    cases h
    exact ⟨i, rescaleLoop_all hP _ _ _ _ ha (by simp) i (List.argmin_mem hi), rfl⟩

/-- What is known of the scaling of an object that holds data: it is consistent with the data, all factors are positive. -/
structure SclKeep (x : Arr2) (od : ObjData) (c b : ℝ) (rs : Bool) (s : Scl) : Prop where
  images : Images s
  xInit : s.xInit = x
  obj : s.obj = some od
  fits : Obj6Ok x.c od.args
  objScale : s.objScale = c
  objShift : s.objShift = b
  box : s.box = none
  lin : s.lin = none
  nlc : s.nlc = none
  mtd : rs = true → s.xMtd = .vmin
  index : ∃ i, pyIdx s.idxBest x.r = .ok i
  dist : 0 < s.distSet.getD 1
  scale : ∀ d < x.c, 0 < s.xScale.get d

theorem rescale_keep {o : RescaleOpts} {opt : ℕ → Arr1 → Py Arr1} {x0 : Arr1} {s s' : Scl} {res : Py Arr1} {x : Arr2} {od : ObjData} {c b : ℝ}
    (hl : o.log = true) (hd : 0 < o.dim) (hx : x.c = o.dim) (hK : SclKeep x od c b true s) (h : optzRescale o opt x0 s = (s', res)) :
    SclKeep x od c b true s' := by
  unfold optzRescale at h
  split at h
  · cases h; exact hK
  · split at h
    · rename_i h2
      split at h
      · cases h; exact hK
      · rename_i r hr
        have hI := hK.images
        have hxc : s.xInit.c = o.dim := by rw [hK.xInit, hx]
        obtain ⟨i, ⟨p1, p2⟩, e⟩ := rescaleHp_all (P := fun i => i.scale.n = o.dim ∧ ∀ d < o.dim, 0 < i.scale.get d) (fun th r hr => by
          rw [hl] at hr
          exact rescaleTheta_pos hr hd (by rw [hI.x.2.1, hxc]) (by rw [hI.scale_n, hxc]) (fun d hd' => hK.scale d (by rw [hx]; exact hd'))) hr
        rw [e] at h
        obtain ⟨j, hj⟩ := hK.index
        obtain ⟨s1, h1⟩ := setXscale_total (s := s) (v := i.scale) (by rw [p1, hxc]) (fun d hd' => p2 d (by rw [← p1]; exact hd'))
          (i := j) (by rw [hK.xInit]; exact hj) (by rw [hK.mtd rfl]; decide) (by omega)
          (fun o ho => by rw [hK.obj] at ho; cases ho; rw [hK.xInit]; exact hK.fits) hK.box hK.lin hK.nlc
        rw [h1] at h
        cases h
        obtain ⟨r', -, -, i1, -, -, i2, i3, i4, i5, i6, i7, i8, -, i9, i10, i11⟩ := setXscale_ok h1
        obtain ⟨f, sin, f1, -, -, -, -, f2, f3⟩ := xscale_factor h1
        obtain ⟨-, -, hs⟩ := calcScaleIn_n f1
        have hs : sin = i.scale := hs
        subst hs
        have hf : 0 < f := calcCoeff_pos f3 rfl (by dsimp only; omega) hK.dist (fun hv => by rw [hK.mtd rfl] at hv; cases hv)
        exact ⟨i1, i2.trans hK.xInit, i3.trans hK.obj, hK.fits, i5.trans hK.objScale, i4.trans hK.objShift, i9.trans hK.box, i10.trans hK.lin,
          i11, fun _ => i6.trans (hK.mtd rfl), ⟨j, by rw [i8]; exact hj⟩, by rw [i7]; exact hK.dist, fun d hd' => by
            rw [f2 d (by rw [hK.xInit]; exact hd')]
            exact mul_pos (p2 d (by rw [← hx]; exact hd')) hf⟩
    · cases h; exact hK

/-! ### The object -/

/-- The object differs from `o1` only in the scaling, which is still consistent. -/
def Keep (o1 : GpObj) (x : Arr2) (od : ObjData) (c b : ℝ) (s : Session) : Prop :=
  ∃ sc, s.obj = { o1 with scl := sc } ∧ (o1.useScl = true → ∃ k, sc = some k ∧ SclKeep x od c b o1.mtd.rescales k)

theorem optzVec_keep {o1 : GpObj} {x : Arr2} {od : ObjData} {a b : ℝ} (hcfg : o1.useScl = (o1.mtd.rescales || o1.mtd.dfltV))
    (hl : o1.mtd.rescales = true → o1.st.log.theta = true) (hd : 0 < o1.st.dim) (hx : x.c = o1.st.dim) {sc : Option Scl}
    (hk : o1.useScl = true → ∃ k, sc = some k ∧ SclKeep x od a b o1.mtd.rescales k) (c : OptzCfg) (q : Oracle) (g : Gp) (info : HpInfo) (x0 : FMat) :
    ∃ sc', (optzVec c q { o1 with scl := sc } g info x0).1 = { o1 with scl := sc' } ∧
      (o1.useScl = true → ∃ k, sc' = some k ∧ SclKeep x od a b o1.mtd.rescales k) := by
  unfold optzVec
  split
  · rename_i hr
    have hrs : o1.mtd.rescales = true := by
      rw [Bool.and_eq_true] at hr; exact hr.1
    have hu : o1.useScl = true := by rw [hcfg, hrs]; rfl
    obtain ⟨k, rfl, hk'⟩ := hk hu
    rw [hrs] at hk'
    dsimp only
    split
    · rename_i s' v hv
      exact ⟨some s', rfl, fun _ => ⟨s', rfl, by rw [hrs]; exact rescale_keep (hl hrs) hd hx hk' hv⟩⟩
    · rename_i s' e hv
      exact ⟨some s', rfl, fun _ => ⟨s', rfl, by rw [hrs]; exact rescale_keep (hl hrs) hd hx hk' hv⟩⟩
  · exact ⟨sc, rfl, hk⟩

theorem selectHp_keep {o1 : GpObj} {x : Arr2} {od : ObjData} {a b : ℝ} (hcfg : o1.useScl = (o1.mtd.rescales || o1.mtd.dfltV))
    (hl : o1.mtd.rescales = true → o1.st.log.theta = true) (hd : 0 < o1.st.dim) (hx : x.c = o1.st.dim) {s : Session} (hk : Keep o1 x od a b s) (c : OptzCfg) (q : Oracle)
    {m : String} (hm : m ≠ "stored") (i : ℤ) (hp : Option HpF) : Keep o1 x od a b (selectHp c q m i hp s).1 := by
  have hput : ∀ {t : Session} (j : ℤ) (w : StoreArgs), Keep o1 x od a b t → Keep o1 x od a b (t.store j w).1 := by
    intro t j w ht
    have : (t.store j w).1.obj = t.obj := by
      unfold Session.store storeSurr
      dsimp only
      split
      · split
        · rfl
        · split <;> rfl
      · rfl
    unfold Keep
    rw [this]
    exact ht
  unfold selectHp
  rw [if_neg hm]
  split
  · unfold optzHp
    split
    · exact hk
    · rename_i g hg
      split
      · split
        · exact hk
        · exact hput _ _ hk
      · unfold optzNum
        split
        · exact hk
        · rename_i info hinfo
          split
          · exact hk
          · rename_i p hp
            obtain ⟨sc, e1, e2⟩ := hk
            obtain ⟨sc', f1, f2⟩ := optzVec_keep hcfg hl hd hx e2 c q g info p.x0
            rw [e1]
            split
            · rename_i o e hq
              rw [hq] at f1
              exact ⟨sc', f1, f2⟩
            · rename_i o r hq
              rw [hq] at f1
              dsimp only at f1
              have hk' : Keep o1 x od a b { s with obj := o } := ⟨sc', f1, f2⟩
              unfold finishOptz
              split
              · exact hk'
              · exact hput _ _ hk'
  · split
    · split
      · split <;> exact hk
      · exact hk
    · split
      · split <;> exact hk
      · exact hk

theorem run_keep {o1 : GpObj} {x : Arr2} {od : ObjData} {a b : ℝ} (hcfg : o1.useScl = (o1.mtd.rescales || o1.mtd.dfltV))
    (hl : o1.mtd.rescales = true → o1.st.log.theta = true) (hd : 0 < o1.st.dim) (hx : x.c = o1.st.dim) {s : Session} (hk : Keep o1 x od a b s) {op : SOp}
    (hop : op.sameData) : Keep o1 x od a b (op.run s).1 := by
  cases op with
  | wellcond m => exact hop.elim
  | data d => exact hop.elim
  | init n => exact hk
  | hpara c q m i hp cc =>
    obtain ⟨e, p, he⟩ := setHpara_fst c q m i hp cc s
    show Keep o1 x od a b (setHpara c q m i hp cc s).1
    rw [he]
    exact selectHp_keep hcfg hl hd hx hk c q hop i hp
  | custom h =>
    show Keep o1 x od a b (setCustomHp h s).1
    unfold setCustomHp
    split
    · exact hk
    · split <;> exact hk
    · exact hk
  | finish n =>
    obtain ⟨y, hy⟩ := finish_frame n s.surr
    show Keep o1 x od a b (s.put (finishSurr n s.surr).1)
    rw [hy, put_hist]
    exact hk
  | load d =>
    obtain ⟨y, hy⟩ := load_frame d s.surr
    show Keep o1 x od a b (s.put (loadSurr d s.surr).1)
    rw [hy, put_hist]
    exact hk

theorem runOps_keep {o1 : GpObj} {x : Arr2} {od : ObjData} {a b : ℝ} (hcfg : o1.useScl = (o1.mtd.rescales || o1.mtd.dfltV))
    (hl : o1.mtd.rescales = true → o1.st.log.theta = true) (hd : 0 < o1.st.dim) (hx : x.c = o1.st.dim) :
    ∀ (l : List SOp) {s : Session}, Keep o1 x od a b s → (∀ op ∈ l, op.sameData) → Keep o1 x od a b (runOps l s)
  | [], _, hk, _ => hk
  | op :: l, _, hk, hop => runOps_keep hcfg hl hd hx l (run_keep hcfg hl hd hx hk (hop op (List.mem_cons_self ..)))
      (fun a ha => hop a (List.mem_cons_of_mem _ ha))

theorem nums_flags {hf : HpF} {hp : HpVals} (h : hf.nums = some hp) :
    (hp.varFval = none ↔ hf.varFval = none) ∧ (hp.varFgrad = none ↔ hf.varFgrad = none) := by
  have key : ∀ (o : Option Fl) (r : Option ℝ), optNum o = some r → (r = none ↔ o = none) := by
    intro o r hr
    cases o with
    | none => cases hr; simp
    | some f =>
      cases f with
      | none => cases hr
      | some y => cases hr; simp
  unfold HpF.nums at h
  simp only [Option.bind_eq_bind, Option.bind_eq_some_iff, Option.pure_def, Option.some.injEq] at h
  obtain ⟨b, -, t, -, v, -, f, hf', g, hg, rfl⟩ := h
  exact ⟨key _ _ hf', key _ _ hg⟩

/-- After a call of `set_hpara` that succeeds and leaves fitting hyperparameters, the object still differs only in the scaling, even if
the hyperparameters are restored from the history: the flags on the noise are then set as they were. -/
theorem final_keep {o o1 : GpObj} {x : Arr2} {od : ObjData} {a b : ℝ} (hcfg : o1.useScl = (o1.mtd.rescales || o1.mtd.dfltV))
    (hl : o1.mtd.rescales = true → o1.st.log.theta = true) (hd : 0 < o1.st.dim) (hx : x.c = o1.st.dim) {u t : Session} (hk : Keep o1 x od a b u) {d : DataIn}
    (hL : Loaded d o o1) {c : OptzCfg} {q : Oracle} {m : String} {i : ℤ} {h : Option HpF} {cc : Bool}
    (ht : setHpara c q m i h cc u = (t, .ok ())) (hm : m = "stored" → o1.st.useGrad = true) {hf : HpF} {hp : HpVals} {v β : ℝ}
    (hhp : t.hp = some hf) (hnum : hf.nums = some hp) (hh : HpFor o1.st d hp v β) : Keep o1 x od a b t ∧ UpToDate cc t := by
  obtain ⟨hup, t', e, p, h2, h3⟩ := setHpara_ok ht
  refine ⟨?_, hup⟩
  by_cases hs : m = "stored"
  · subst hs
    unfold selectHp at h2
    rw [if_pos rfl] at h2
    split at h2
    · unfold setHpFromIdx at h2
      dsimp only at h2
      split at h2
      · cases h2
      · rename_i h0 hh0
        split at h2
        · cases h2
        · rename_i k hk'
          cases h2
          have hhf : ∃ B T K V, hf = ⟨B, T, K, V, (stdFromHist ((h0.one .varFval).get k)).2,
              (stdFromHist ((h0.one .varFgrad).get k)).2⟩ := by
            rw [h3] at hhp
            exact ⟨_, _, _, _, (Option.some.inj hhp).symm⟩
          obtain ⟨B, T, K, V, hhf⟩ := hhf
          obtain ⟨n1, n2⟩ := nums_flags hnum
          have hug := hm rfl
          have flag : ∀ w : Fl, (stdFromHist w).1 = true ↔ (stdFromHist w).2 = none := by
            intro w; cases w <;> simp [stdFromHist]
          have e1 : hf.varFval = (stdFromHist ((h0.one .varFval).get k)).2 := by rw [hhf]
          have e2 : hf.varFgrad = (stdFromHist ((h0.one .varFgrad).get k)).2 := by rw [hhf]
          have f1 : (stdFromHist ((h0.one .varFval).get k)).1 = o1.knownFval := by
            rw [Bool.eq_iff_iff, flag, ← e1, ← n1]
            rcases hL.stdFval with ⟨g1, g2, -⟩ | ⟨S, -, g1, g2, -⟩
            · obtain ⟨y, hy, -⟩ := hh.unknown g1
              rw [hy, g2]; simp
            · rw [hh.known S g1, g2]; simp
          have f2 : (stdFromHist ((h0.one .varFgrad).get k)).1 = o1.knownFgrad := by
            rw [Bool.eq_iff_iff, flag, ← e2, ← n2]
            rcases hL.stdGrad with ⟨g1, g2, -⟩ | ⟨S, -, -, g1, g2, -⟩
            · rw [← hL.st] at g1
              obtain ⟨y, hy, -⟩ := hh.gunknown hug (g1.resolve_left (by rw [hug]; decide))
              rw [hy, g2]; simp
            · rw [hh.gknown hug S g1, g2]; simp
          obtain ⟨sc, r1, r2⟩ := hk
          refine ⟨sc, ?_, r2⟩
          rw [h3]
          show ({ u.obj with knownFval := _, knownFgrad := _ } : GpObj) = _
          rw [f1, f2, r1]
    · cases h2
  · have := selectHp_keep hcfg hl hd hx hk c q hs i h
    rw [h2] at this
    rw [h3]
    exact this

theorem newScl_bare {x : Arr2} {m : XMtd} {D : ℝ} {s : Scl} (h : newScl x none true m (some D) = (s, .ok ())) :
    s.box = none ∧ s.lin = none ∧ s.nlc = none := by
  unfold newScl at h
  dsimp only at h
  split at h
  · cases h
  · obtain ⟨r, -, -, -, -, -, -, -, -, -, -, -, -, -, i9, i10, i11⟩ := setXscale_ok h
    exact ⟨i9, i10, i11⟩

theorem setObjData_bare {o : ObjData} {u : Bool} {m : ObjMtd} {s s' : Scl} (h : setObjData o u m s = (s', .ok ())) :
    s'.box = s.box ∧ s'.lin = s.lin ∧ s'.nlc = s.nlc := by
  unfold setObjData at h
  split at h
  · simp at h
  split at h
  · simp at h
  dsimp only at h
  split at h
  · unfold setObjScaling at h
    split at h
    · unfold setSclObj at h
      obtain ⟨a, -, rfl⟩ := compute_ok h
      exact ⟨rfl, rfl, rfl⟩
    · simp at h
  · simp at h

/-- The scaling that `set_data` leaves. -/
theorem data_keep {st : GpStatic} {o o1 : GpObj} (hcfg : CfgOk st o) {d : DataIn} (hst : NugOk st) (hX : PointsFit st.dim d) (hn : 0 < d.fval.size)
    (hd : setData d o = (o1, .ok ())) (hu : o1.useScl = true) (hD : DistPos st o1.mtd)
    (hsp : o1.mtd = .dfltVmax → 2 ≤ d.fval.size → Spreadable .dfltVmax d.x.mat) :
    ∃ s od, o1.scl = some s ∧ SclKeep d.x.mat od s.objScale s.objShift o1.mtd.rescales s ∧ 0 < s.objScale ∧ d.x.mat.c = st.dim := by
  obtain ⟨hL, hC, -⟩ := setData_loaded hd
  have hst' : o.st = st := hcfg.eq
  have hu0 : o.useScl = true := by rw [← hL.useScl]; exact hu
  have hug : st.useGrad = true := by
    by_contra hug
    rw [Bool.not_eq_true] at hug
    rw [hcfg.scl, hcfg.base hug] at hu0
    cases hu0
  obtain ⟨s, s0, od, m, D, h1, h2, h3, h4, h5, h6, h7, h8⟩ := setData_scaled hd hu0
  obtain ⟨hI0, hm, -, hmt, hds, hib, -⟩ := newScl_ok h2
  obtain ⟨f1, f2, f3, f4, f5, f6⟩ := setObjData_frame h4
  obtain ⟨i1, i2, -⟩ := setObjData_inv h4
  obtain ⟨b1, b2, b3⟩ := newScl_bare h2
  obtain ⟨c1, c2, c3⟩ := setObjData_bare h4
  have hI : Images s := reach_images (.call (.objData _ _ _) (.new h2) h4)
  obtain ⟨hDp, hvm⟩ := scaleArgs_pos h3 hn (by rw [hst']; exact hst.1) (by rw [hst', ← hL.mtd]; exact hD)
  obtain ⟨s', p1, p2, c, p3, p4⟩ := setData_scale_pos hd hu0 (by rw [hst']; exact hst.1) hn (by rw [hst', ← hL.mtd]; exact hD)
    (fun hq h2 => by rw [hq]; exact hsp (hL.mtd.trans hq) h2)
  rw [h1] at p1
  cases p1
  have hxc : d.x.mat.c = st.dim := by
    show d.x.shape.getD 1 0 = _
    rw [show d.x.shape = [d.fval.size, st.dim] from hX]; rfl
  obtain ⟨s'', q1, -, -, od', q2, -, q3, -, q4⟩ := hL.scl hu0
  rw [h1] at q1
  cases q1
  rw [i2] at q2
  cases q2
  refine ⟨s, od, h1, ⟨hI, i1.trans h6, i2, ⟨fun A hA => ?_, fun A hA => ?_, (fun A hA => by cases hA), (fun A hA => by cases hA)⟩, rfl, rfl,
    c1.trans b1, c2.trans b2, c3.trans b3, fun hr => ?_, ⟨d.x.mat.r - 1, ?_⟩, by rw [f5, hds]; exact hDp, fun i hi => by rw [p4 i hi]; exact p3⟩, p2, hxc⟩
  · have hA' : od.grad = some A := hA
    rw [q3] at hA'
    rcases hL.grad with ⟨-, g1⟩ | ⟨G, G', g1, g2, g3, -⟩
    · rw [g1] at hA'; cases hA'
    · rw [g2] at hA'; cases hA'
      have := hC.gradShape G g1
      rw [g3] at this
      simp only [List.cons.injEq, and_true] at this
      rw [this.2, hst', hxc]
  · have hA' : od.stdGrad = some A := hA
    rw [q4 (by rw [hst']; exact hug)] at hA'
    rcases hL.stdGrad with ⟨-, -, g1⟩ | ⟨S, S', g0, g1, -, g2, g3, -⟩
    · rw [g1] at hA'; cases hA'
    · rw [g2] at hA'; cases hA'
      have := hC.stdGrad g0 S g1
      rw [g3] at this
      simp only [List.cons.injEq, and_true] at this
      rw [this.2, hst', hxc]
  · rw [f6, hmt]
    rw [hL.mtd] at hr
    unfold scaleArgs at h3
    cases hq : o.mtd with
    | rescaleOrigin => rw [hq] at h3; cases h3; rfl
    | rescaleEtaVary => rw [hq] at h3; cases h3; rfl
    | dfltVmin => rw [hq] at hr; cases hr
    | dfltVmax => rw [hq] at hr; cases hr
    | base => rw [hq] at hr; cases hr
    | precon => rw [hq] at hr; cases hr
  · rw [f4, hib]
    unfold pyIdx
    have : 1 ≤ d.x.mat.r := by rw [h7]; exact hn
    rw [Option.getD_none, if_pos (by omega)]
    congr 1; omega

/-! ### C94 -/

/-- The model that predictions use, in original units. -/
theorem predict_scaled {st : GpStatic} {d : DataIn} {t : Session} {g0 g : Gp} {s : Scl} {hf : HpF} {hp : HpVals} {v β : ℝ} {cc : Bool}
    (hup : UpToDate cc t) (hhp : t.hp = some hf) (hnum : hf.nums = some hp) (hu : t.obj.useScl = true) (hH : HoldsData st d g0)
    (hv : t.obj.view = .ok g) (k5 : sclView g0 s = .ok g) (k1 : t.obj.scl = some s) (hI : Images s) (k4 : s.obj.isSome = true) (k3 : s.xInit = g0.x)
    (hstd : ∀ S, g0.stdGrad = some S → S.c = g0.dim) (hpos : ∀ i < st.dim, 0 < s.xScale.get i) (hop : 0 < s.objScale)
    (hR0 : Ready g0 hp v β) (hR : Ready g hp v β) (hη : if g.o.etaConst then 0 < g.o.etaK else 1 < g.o.condMaxTarget)
    (hgo : g0.o = t.obj.condOpts) (hg2 : g.o = g0.o) {X : Arr2} (hXc : X.c = st.dim) (hXr : 0 < X.r) {cg : Bool} {out : Obj6}
    (hout : t.predict X cg false = .ok out) :
    ∃ μ σ η, out.mu = some μ ∧ μ.n = X.r ∧ out.sig = some σ ∧ σ.n = X.r ∧ 0 < η ∧ (t.obj.etaConst = true → η = t.obj.etaK) ∧
      ∀ u, UnitFactor g0 s u → ∀ N, OrigNoise g0 hp s N → ∀ K, IsKern g0 (origHp s hp) K → ∀ y, DataSpec g0 y → ∀ a < X.r, ∀ k,
        IsCross g0 (origHp s hp) (X.get a) k →
        CondNormal (origCov (t.obj.mtd == .precon) (v / s.objScale ^ 2) K (fun q => v * N q) η u) ((v / s.objScale ^ 2) • k) (v / s.objScale ^ 2)
          (priorMean g0 (β / s.objScale + s.objShift)) (β / s.objScale + s.objShift) y (μ.get a) (σ.get a ^ 2) := by
  obtain ⟨hf', hp', g', e, f1, f2, f3, f4, f5⟩ := predict_upToDate hup
  rw [hhp] at f1
  cases f1
  rw [hnum] at f2
  cases f2
  rw [hv] at f3
  cases f3
  rw [f5, GpObj.evalWith, hu, if_pos rfl, k1] at hout
  dsimp only at hout
  have hdim : g0.dim = st.dim := hH.dim
  have hgd : g.dim = st.dim := by
    obtain ⟨_, _, _, _, hg⟩ := sclView_fields k5
    rw [hg]; exact hdim
  have hcd : s.xInit.c = g0.dim := by rw [k3, hR0.ok.x_c]
  set X' : Arr2 := ⟨X.r, X.c, fun p d => sclPt s (X.get p) d⟩ with hX'
  have hXs : xInit2Scl s X = .ok X' := xInit2Scl_ok hI.shift_n hI.scale_n (by rw [hXc, hcd, hdim])
  have hF : e.chofac ≠ none := by
    unfold evalModelScl at hout
    rw [hXs, ok_bind] at hout
    cases ho : evalModel g e hp X' cg false with
    | error er => rw [ho] at hout; cases hout
    | ok o => exact ((C44_eval_hp g e hp X' cg false).1 o ho).2
  obtain ⟨out', μ, σ, q1, q2, q3, q4, q5, q6⟩ := C75_posterior_original_units hI k4 k3 hstd (fun i hi => hpos i (by rw [← hdim]; exact hi)) hop k5 hR0
    f4 hF (X := X) (by rw [hXc, hdim]) hXr cg
  rw [hout] at q1
  cases q1
  obtain ⟨o, g1, g3⟩ := C37_variance_bounds hR.toV f4 hF (X := X') (by rw [hgd]; exact hXc) hXr cg
  obtain ⟨out'', r1, -, ⟨σ', r5, r6, r7⟩, -⟩ := evalScl_val (g := g) hI k4 (hgd.trans (hdim.symm.trans hcd.symm)) hXs g1
  rw [hout] at r1
  cases r1
  rw [q4] at r5
  cases r5
  obtain ⟨N, K, hs, -⟩ := ready_setup hR.toV f4
  refine ⟨μ, σ, e.etaK, q2, q3, q4, q5, hs.etaPos hη, fun hc => ?_, fun u hu' N hN K hK y hy a ha k hk => ?_⟩
  · rw [hs.etaConst (by rw [hg2, hgo]; exact hc), hg2, hgo]; rfl
  · have hpre : (t.obj.mtd == .precon) = g0.o.precon := by rw [hgo]; rfl
    rw [hpre]
    refine q6 u hu' N hN K hK y hy a ha k hk ?_
    have : σ.get a = o.sig ⟨a, ha⟩ / s.objScale := r7 ⟨a, ha⟩
    rw [this]
    exact div_pos ((g3 ⟨a, ha⟩).2.2 hη) hop

/-- What holds after data were given to an object with a scaling method and calls were made that keep them. -/
theorem keep_ready {st : GpStatic} {m : Option String} {s0 s1 : Session} (h0 : newSession st m = .ok s0) (hst : NugOk st)
    (l : List SOp) {d : DataIn} (hX : PointsFit st.dim d) (hn : 0 < d.fval.size) (hd : (SOp.data d).run (runOps l s0) = (s1, .ok ()))
    (hu : s1.obj.useScl = true) (hD : DistPos st s1.obj.mtd) (hsp : s1.obj.mtd = .dfltVmax → 2 ≤ d.fval.size → Spreadable .dfltVmax d.x.mat)
    (hm : st.kernel = .ratQuad → numGrads d = d.fval.size) :
    ∃ g0 sc od, s1.obj.scl = some sc ∧ HoldsData st d g0 ∧ Keep s1.obj d.x.mat od sc.objScale sc.objShift s1 ∧ 0 < sc.objScale ∧ d.x.mat.c = st.dim ∧
      ∀ {t : Session} {hp : HpVals} {v β : ℝ}, Keep s1.obj d.x.mat od sc.objScale sc.objShift t → HpFor st d hp v β →
        ∃ g s, t.obj.view = .ok g ∧ sclView g0 s = .ok g ∧ t.obj.scl = some s ∧ Images s ∧ s.obj.isSome = true ∧
          s.xInit = g0.x ∧ (∀ S, g0.stdGrad = some S → S.c = g0.dim) ∧ (∀ i < st.dim, 0 < s.xScale.get i) ∧ s.objScale = sc.objScale ∧
          s.objShift = sc.objShift ∧
          Ready g0 hp v β ∧ Ready g hp v β ∧ (if g.o.etaConst then 0 < g.o.etaK else 1 < g.o.condMaxTarget) ∧ g0.o = t.obj.condOpts ∧ g.o = g0.o := by
  have hcfg : CfgOk st (runOps l s0).obj := runOps_cfgOk l (new_cfgOk h0)
  have hd' := data_call hd
  obtain ⟨hL, hC, -⟩ := setData_loaded hd'
  have hst' : (runOps l s0).obj.st = st := hcfg.eq
  have hu0 : (runOps l s0).obj.useScl = true := by rw [← hL.useScl]; exact hu
  have hug : st.useGrad = true := by
    by_contra hug
    rw [Bool.not_eq_true] at hug
    rw [hcfg.scl, hcfg.base hug] at hu0
    cases hu0
  obtain ⟨sc, od, k1, k2, k3, k4⟩ := data_keep hcfg hst hX hn hd' hu hD hsp
  obtain ⟨g0, e0, hH, hok0, hgo⟩ := holdsData0 hcfg hX hd'
  have e0' := e0
  obtain ⟨x, f, hx, hf, hg⟩ : ∃ x f, s1.obj.xIn = some x ∧ s1.obj.fvalIn = some f ∧ s1.obj.gp x f = g0 := by
    unfold GpObj.view0 at e0
    cases hx : s1.obj.xIn with
    | none => rw [hx] at e0; cases e0
    | some x =>
      cases hf : s1.obj.fvalIn with
      | none => rw [hx, hf] at e0; cases e0
      | some f =>
        rw [hx, hf] at e0
        exact ⟨x, f, rfl, rfl, Except.ok.inj (show Except.ok (s1.obj.gp x f) = Except.ok g0 from e0)⟩
  have hgx : d.x.mat = g0.x := by
    obtain ⟨s', q1, -, q3, -⟩ := hL.scl hu0
    rw [k1] at q1
    cases q1
    rw [k2.xInit, hx] at q3
    rw [Option.some.inj q3, ← hg]
    rfl
  have hstd : ∀ S, g0.stdGrad = some S → S.c = g0.dim := by
    intro S hS
    have hg9 : g0.stdGrad = s1.obj.stdGradIn := by rw [← hg]; rfl
    rw [hg9] at hS
    rcases hL.stdGrad with ⟨-, -, h⟩ | ⟨T, t, hug, hT, -, ht, hT2, -⟩
    · rw [h] at hS; cases hS
    · rw [ht] at hS; cases hS
      have := hC.stdGrad hug T hT
      rw [hT2] at this
      simp only [List.cons.injEq, and_true] at this
      rw [this.2, hH.dim, hst']
  refine ⟨g0, sc, od, k1, hH, ⟨some sc, by rw [← k1], fun _ => ⟨sc, rfl, k2⟩⟩, k3, k4, fun {t hp v β} hK hh => ?_⟩
  obtain ⟨hR0, hη0⟩ := data_ready hcfg hst hX hn hd' (.inl hug) hm (.inr e0') hh
  obtain ⟨sc', r1, r2⟩ := hK
  obtain ⟨s, rfl, K⟩ := r2 hu
  have hxi : s.xInit = g0.x := by rw [K.xInit, hgx]
  have hso : s.obj.isSome = true := by rw [K.obj]; rfl
  obtain ⟨g, v1, v2, -, v3⟩ := sclView_ready hR0 K.images hso hxi hstd
  refine ⟨g, s, ?_, v1, by rw [r1], K.images, hso, hxi, hstd, fun i hi => K.scale i (by rw [k4]; exact hi), K.objScale, K.objShift, hR0, v2,
    by rw [v3]; exact hη0, by rw [hgo, r1]; rfl, v3⟩
  rw [r1]
  unfold GpObj.view GpObj.view0
  dsimp only
  rw [hx, hf]
  show (if s1.obj.useScl = true then sclView (s1.obj.gp x f) s else _) = _
  rw [hu, if_pos rfl, hg, v1]

/-- **C94.** For every program on a new object with a scaling method that then gives it data `d`, and after that makes any calls that
keep the data and the method - optimisations that rescale the data, calls that raise, calls that set hyperparameters - if the last
`set_hpara` (any method: optimised, given, current, or restored ones) succeeded and left hyperparameters that fit the data, then every
prediction is the mean and standard deviation of the conditional distribution of the function value given the data in original units, for
the prior with mean `β / c + shift`, variance `v / c²`, and kernel parameters `theta_i s_i²`, where `s_i > 0` is the scaling of the
coordinates *after* the last call, and `c`, `shift` the scaling of the objective, which no call changes. -/
theorem C94_predictions {st : GpStatic} {m : Option String} {s0 s1 t : Session} (h0 : newSession st m = .ok s0) (hst : NugOk st)
    (l : List SOp) {d : DataIn} (hX : PointsFit st.dim d) (hn : 0 < d.fval.size)
    (hd : (SOp.data d).run (runOps l s0) = (s1, .ok ())) (hlog : s1.obj.mtd.rescales = true → st.log.theta = true) (hu : s1.obj.useScl = true) (hD : DistPos st s1.obj.mtd)
    (hsp : s1.obj.mtd = .dfltVmax → 2 ≤ d.fval.size → Spreadable .dfltVmax d.x.mat) (hm : st.kernel = .ratQuad → numGrads d = d.fval.size)
    (l' : List SOp) (hl' : ∀ a ∈ l', a.sameData) {c : OptzCfg} {q : Oracle} {mt : String} {i : ℤ} {ho : Option HpF} {cc : Bool}
    (ht : setHpara c q mt i ho cc (runOps l' s1) = (t, .ok ())) {hf : HpF} {hp : HpVals} {v β : ℝ} (hhp : t.hp = some hf)
    (hnum : hf.nums = some hp) (hh : HpFor st d hp v β) {X : Arr2} (hXc : X.c = st.dim) (hXr : 0 < X.r) {cg : Bool} {out : Obj6}
    (hout : t.predict X cg false = .ok out) :
    ∃ g sc s μ σ η, HoldsData st d g ∧ s1.obj.scl = some sc ∧ t.obj.scl = some s ∧ Images s ∧ s.xInit = g.x ∧
      (∀ i < st.dim, 0 < s.xScale.get i) ∧ 0 < s.objScale ∧ s.objScale = sc.objScale ∧ s.objShift = sc.objShift ∧
      out.mu = some μ ∧ μ.n = X.r ∧ out.sig = some σ ∧ σ.n = X.r ∧ 0 < η ∧ (t.obj.etaConst = true → η = t.obj.etaK) ∧
      ∀ u, UnitFactor g s u → ∀ N, OrigNoise g hp s N → ∀ K, IsKern g (origHp s hp) K → ∀ y, DataSpec g y → ∀ a < X.r, ∀ k,
        IsCross g (origHp s hp) (X.get a) k →
        CondNormal (origCov (t.obj.mtd == .precon) (v / s.objScale ^ 2) K (fun q => v * N q) η u) ((v / s.objScale ^ 2) • k) (v / s.objScale ^ 2)
          (priorMean g (β / s.objScale + s.objShift)) (β / s.objScale + s.objShift) y (μ.get a) (σ.get a ^ 2) := by
  have hcfg : CfgOk st (runOps l s0).obj := runOps_cfgOk l (new_cfgOk h0)
  have hcfg1 : CfgOk st s1.obj := by
    have := run_cfgOk hcfg (.data d)
    rw [hd] at this
    exact this
  have hst1 : s1.obj.st = st := hcfg1.eq
  obtain ⟨hL, -, -⟩ := setData_loaded (data_call hd)
  obtain ⟨g0, sc, od, k1, hH, hK1, hop, hxc, hkr⟩ := keep_ready h0 hst l hX hn hd hu hD hsp hm
  have hug : s1.obj.st.useGrad = true := by
    by_contra hug
    rw [Bool.not_eq_true, hst1] at hug
    rw [hcfg1.scl, hcfg1.base hug] at hu
    cases hu
  have hKl := runOps_keep hcfg1.scl (by rw [hst1]; exact hlog) (by rw [hst1]; exact hst.1) (by rw [hst1]; exact hxc) l' hK1 hl'
  obtain ⟨hKt, hup⟩ := final_keep hcfg1.scl (by rw [hst1]; exact hlog) (by rw [hst1]; exact hst.1) (by rw [hst1]; exact hxc) hKl hL ht
    (fun _ => hug) hhp hnum (by rw [hst1]; exact hh)
  obtain ⟨g, s, p1, p2, p3, p4, p5, p6, p7, p8, p9, p9', p10, p11, p12, p13, p14⟩ := hkr hKt hh
  have hut : t.obj.useScl = true := by
    obtain ⟨_, r1, -⟩ := hKt
    rw [r1]; exact hu
  obtain ⟨μ, σ, η, r⟩ := predict_scaled hup hhp hnum hut hH p1 p2 p3 p4 p5 p6 p7 p8 (by rw [p9]; exact hop) p10 p11 p12 p13 p14 hXc hXr hout
  exact ⟨g0, sc, s, μ, σ, η, hH, k1, p3, p4, p6, p8, by rw [p9]; exact hop, p9, p9', r⟩

/-- **C94** (nothing breaks): after any such calls - including an optimisation that raised half-way, after changing the scaling -
setting hyperparameters that fit the data succeeds, and so does every prediction. -/
theorem C94_recovers {st : GpStatic} {m : Option String} {s0 s1 : Session} (h0 : newSession st m = .ok s0) (hst : NugOk st)
    (l : List SOp) {d : DataIn} (hX : PointsFit st.dim d) (hn : 0 < d.fval.size)
    (hd : (SOp.data d).run (runOps l s0) = (s1, .ok ())) (hlog : s1.obj.mtd.rescales = true → st.log.theta = true) (hu : s1.obj.useScl = true) (hD : DistPos st s1.obj.mtd)
    (hsp : s1.obj.mtd = .dfltVmax → 2 ≤ d.fval.size → Spreadable .dfltVmax d.x.mat) (hm : st.kernel = .ratQuad → numGrads d = d.fval.size)
    (l' : List SOp) (hl' : ∀ a ∈ l', a.sameData) {h : HpF} {hp : HpVals} {v β : ℝ} (hnum : h.nums = some hp) (hh : HpFor st d hp v β)
    (c : OptzCfg) (q : Oracle) (i : ℤ) {X : Arr2} (hXc : X.c = st.dim) (hXr : 0 < X.r) (cg : Bool) :
    ∃ t out, setHpara c q "set" i (some h) false (runOps l' s1) = (t, .ok ()) ∧ t.predict X cg false = .ok out := by
  have hcfg : CfgOk st (runOps l s0).obj := runOps_cfgOk l (new_cfgOk h0)
  have hcfg1 : CfgOk st s1.obj := by
    have := run_cfgOk hcfg (.data d)
    rw [hd] at this
    exact this
  have hst1 : s1.obj.st = st := hcfg1.eq
  obtain ⟨g0, sc, od, k1, hH, hK1, hop, hxc, hkr⟩ := keep_ready h0 hst l hX hn hd hu hD hsp hm
  have hKl := runOps_keep hcfg1.scl (by rw [hst1]; exact hlog) (by rw [hst1]; exact hst.1) (by rw [hst1]; exact hxc) l' hK1 hl'
  obtain ⟨g, s, p1, p2, p3, p4, p5, p6, p7, p8, p9, p9', p10, p11, p12, p13, p14⟩ := hkr hKl hh
  obtain ⟨t, ht, -, -⟩ := C66_set_total c q i p1 hnum p11 false
  obtain ⟨e1, e2, hup⟩ := setHpara_set ht
  obtain ⟨hf, hp', g', e, f1, f2, f3, f4, f5⟩ := predict_upToDate hup
  rw [e2] at f1
  cases f1
  rw [hnum] at f2
  cases f2
  rw [e1, p1] at f3
  cases f3
  have hut : (runOps l' s1).obj.useScl = true := by
    obtain ⟨_, r1, -⟩ := hKl
    rw [r1]; exact hu
  have hdim : g0.dim = st.dim := hH.dim
  refine ⟨t, ?_⟩
  obtain ⟨out, q1⟩ : ∃ out, t.predict X cg false = .ok out := by
    rw [f5, GpObj.evalWith, e1, hut, if_pos rfl, p3]
    dsimp only
    have hgd : g.dim = st.dim := by
      obtain ⟨_, _, _, _, hg⟩ := sclView_fields p2
      rw [hg]; exact hdim
    obtain ⟨e', o, g1, g2, -⟩ := C37_pipeline_total p11.toV p12 (X := X) (by rw [hXc, hgd]) hXr cg
    rw [f4] at g1
    cases g1
    have hF : e.chofac ≠ none := ((C44_eval_hp g e hp X cg false).1 o g2).2
    obtain ⟨out', μ, σ, q1, -⟩ := C75_posterior_original_units p4 p5 p6 p7 (fun i hi => p8 i (by rw [← hdim]; exact hi)) (by rw [p9]; exact hop) p2 p10
      f4 hF (X := X) (by rw [hXc, hdim]) hXr cg
    exact ⟨out', q1⟩
  exact ⟨out, ht, q1⟩

/-- A model that is up to date for data with a consistent scaling makes predictions. -/
theorem predict_total_scaled {st : GpStatic} {d : DataIn} {t : Session} {g0 g : Gp} {s : Scl} {hf : HpF} {hp : HpVals} {v β : ℝ}
    (hup : UpToDate false t) (hhp : t.hp = some hf) (hnum : hf.nums = some hp) (hu : t.obj.useScl = true) (hH : HoldsData st d g0)
    (hv : t.obj.view = .ok g) (k5 : sclView g0 s = .ok g) (k1 : t.obj.scl = some s) (hI : Images s) (k4 : s.obj.isSome = true) (k3 : s.xInit = g0.x)
    (hstd : ∀ S, g0.stdGrad = some S → S.c = g0.dim) (hpos : ∀ i < st.dim, 0 < s.xScale.get i) (hop : 0 < s.objScale)
    (hR0 : Ready g0 hp v β) (hR : Ready g hp v β) (hη : if g.o.etaConst then 0 < g.o.etaK else 1 < g.o.condMaxTarget) {X : Arr2} (hXc : X.c = st.dim)
    (hXr : 0 < X.r) (cg : Bool) : ∃ out, t.predict X cg false = .ok out := by
  obtain ⟨hf', hp', g', e, f1, f2, f3, f4, f5⟩ := predict_upToDate hup
  rw [hhp] at f1
  cases f1
  rw [hnum] at f2
  cases f2
  rw [hv] at f3
  cases f3
  have hdim : g0.dim = st.dim := hH.dim
  rw [f5, GpObj.evalWith, hu, if_pos rfl, k1]
  dsimp only
  have hgd : g.dim = st.dim := by
    obtain ⟨_, _, _, _, hg⟩ := sclView_fields k5
    rw [hg]; exact hdim
  obtain ⟨e', o, g1, g2, -⟩ := C37_pipeline_total hR.toV hη (X := X) (by rw [hXc, hgd]) hXr cg
  rw [f4] at g1
  cases g1
  have hF : e.chofac ≠ none := ((C44_eval_hp g e hp X cg false).1 o g2).2
  obtain ⟨out', μ, σ, q1, -⟩ := C75_posterior_original_units hI k4 k3 hstd (fun i hi => hpos i (by rw [← hdim]; exact hi)) hop k5 hR0
    f4 hF (X := X) (by rw [hXc, hdim]) hXr cg
  exact ⟨out', q1⟩

/-- **C94** (predictions exist): after such a program, if the last `set_hpara` was without the check of the condition number,
predictions can be made everywhere. -/
theorem C94_total {st : GpStatic} {m : Option String} {s0 s1 t : Session} (h0 : newSession st m = .ok s0) (hst : NugOk st)
    (l : List SOp) {d : DataIn} (hX : PointsFit st.dim d) (hn : 0 < d.fval.size)
    (hd : (SOp.data d).run (runOps l s0) = (s1, .ok ())) (hlog : s1.obj.mtd.rescales = true → st.log.theta = true) (hu : s1.obj.useScl = true) (hD : DistPos st s1.obj.mtd)
    (hsp : s1.obj.mtd = .dfltVmax → 2 ≤ d.fval.size → Spreadable .dfltVmax d.x.mat) (hm : st.kernel = .ratQuad → numGrads d = d.fval.size)
    (l' : List SOp) (hl' : ∀ a ∈ l', a.sameData) {c : OptzCfg} {q : Oracle} {mt : String} {i : ℤ} {ho : Option HpF}
    (ht : setHpara c q mt i ho false (runOps l' s1) = (t, .ok ())) {hf : HpF} {hp : HpVals} {v β : ℝ} (hhp : t.hp = some hf)
    (hnum : hf.nums = some hp) (hh : HpFor st d hp v β) {X : Arr2} (hXc : X.c = st.dim) (hXr : 0 < X.r) (cg : Bool) :
    ∃ out, t.predict X cg false = .ok out := by
  have hcfg : CfgOk st (runOps l s0).obj := runOps_cfgOk l (new_cfgOk h0)
  have hcfg1 : CfgOk st s1.obj := by
    have := run_cfgOk hcfg (.data d)
    rw [hd] at this
    exact this
  have hst1 : s1.obj.st = st := hcfg1.eq
  obtain ⟨hL, -, -⟩ := setData_loaded (data_call hd)
  obtain ⟨g0, sc, od, k1, hH, hK1, hop, hxc, hkr⟩ := keep_ready h0 hst l hX hn hd hu hD hsp hm
  have hug : s1.obj.st.useGrad = true := by
    by_contra hug
    rw [Bool.not_eq_true, hst1] at hug
    rw [hcfg1.scl, hcfg1.base hug] at hu
    cases hu
  have hKl := runOps_keep hcfg1.scl (by rw [hst1]; exact hlog) (by rw [hst1]; exact hst.1) (by rw [hst1]; exact hxc) l' hK1 hl'
  obtain ⟨hKt, hup⟩ := final_keep hcfg1.scl (by rw [hst1]; exact hlog) (by rw [hst1]; exact hst.1) (by rw [hst1]; exact hxc) hKl hL ht
    (fun _ => hug) hhp hnum (by rw [hst1]; exact hh)
  obtain ⟨g, s, p1, p2, p3, p4, p5, p6, p7, p8, p9, p9', p10, p11, p12, -⟩ := hkr hKt hh
  have hut : t.obj.useScl = true := by
    obtain ⟨_, r1, -⟩ := hKt
    rw [r1]; exact hu
  exact predict_total_scaled hup hhp hnum hut hH p1 p2 p3 p4 p5 p6 p7 p8 (by rw [p9]; exact hop) p10 p11 p12 hXc hXr cg

/-- **C94** (without data scaling): the same for the methods that do not scale the data. (If the last call restores hyperparameters
from the history, gradients must be in use: otherwise it changes a flag on the noise of the absent gradients.) -/
theorem C94_predictions_unscaled {st : GpStatic} {m : Option String} {s0 s1 t : Session} (h0 : newSession st m = .ok s0) (hst : NugOk st)
    (l : List SOp) {d : DataIn} (hX : PointsFit st.dim d) (hn : 0 < d.fval.size)
    (hd : (SOp.data d).run (runOps l s0) = (s1, .ok ())) (hu : s1.obj.useScl = false) (hk : st.useGrad = true ∨ ∃ S, NoiseKnown d.stdFval S)
    (hm : st.kernel = .ratQuad → numGrads d = d.fval.size) (l' : List SOp) (hl' : ∀ a ∈ l', a.sameData) {c : OptzCfg} {q : Oracle} {mt : String}
    {i : ℤ} {ho : Option HpF} {cc : Bool} (ht : setHpara c q mt i ho cc (runOps l' s1) = (t, .ok ())) (hmt : mt = "stored" → st.useGrad = true)
    {hf : HpF} {hp : HpVals} {v β : ℝ} (hhp : t.hp = some hf)
    (hnum : hf.nums = some hp) (hh : HpFor st d hp v β) {X : Arr2} (hXc : X.c = st.dim) (hXr : 0 < X.r) {cg : Bool} {out : Obj6}
    (hout : t.predict X cg false = .ok out) :
    ∃ g μ σ η, HoldsData st d g ∧ out.mu = some μ ∧ μ.n = X.r ∧ out.sig = some σ ∧ σ.n = X.r ∧ 0 < η ∧
      (t.obj.etaConst = true → η = t.obj.etaK) ∧
      ∀ N, IsNoise g hp N → ∀ K, IsKern g hp K → ∀ y, DataSpec g y → ∀ a < X.r, ∀ k, IsCross g hp (X.get a) k →
        CondNormal (noisyCov (t.obj.mtd == .precon) v K (v • N) η) (v • k) v (priorMean g β) β y (μ.get a) (σ.get a ^ 2) := by
  have hcfg : CfgOk st (runOps l s0).obj := runOps_cfgOk l (new_cfgOk h0)
  have hcfg1 : CfgOk st s1.obj := by
    have := run_cfgOk hcfg (.data d)
    rw [hd] at this
    exact this
  have hst1 : s1.obj.st = st := hcfg1.eq
  have hd' := data_call hd
  obtain ⟨hL, hC, -⟩ := setData_loaded hd'
  have hrs : s1.obj.mtd.rescales = true → s1.obj.st.log.theta = true := by
    intro hr
    have := hcfg1.scl
    rw [hr, hu] at this
    cases this
  have hx0 : (⟨0, st.dim, fun _ _ => 0⟩ : Arr2).c = s1.obj.st.dim := hst1 ▸ rfl
  have hK1 : Keep s1.obj ⟨0, st.dim, fun _ _ => 0⟩ { val := ⟨0, fun _ => 0⟩, std := none, grad := none, stdGrad := none } 0 0 s1 :=
    ⟨s1.obj.scl, rfl, fun h => by rw [hu] at h; cases h⟩
  have hKl := runOps_keep hcfg1.scl hrs (by rw [hst1]; exact hst.1) hx0 l' hK1 hl'
  obtain ⟨⟨sc, r1, -⟩, hup⟩ := final_keep hcfg1.scl hrs (by rw [hst1]; exact hst.1) hx0 hKl hL ht
    (fun h => by rw [hst1]; exact hmt h) hhp hnum (by rw [hst1]; exact hh)
  obtain ⟨hf', hp', g, e, f1, f2, f3, f4, f5⟩ := predict_upToDate hup
  rw [hhp] at f1
  cases f1
  rw [hnum] at f2
  cases f2
  have hview : s1.obj.view = .ok g := by
    rw [← f3, r1]
    unfold GpObj.view GpObj.view0
    dsimp only
    rw [hu]
    rfl
  obtain ⟨hR, -⟩ := data_ready hcfg hst hX hn hd' hk hm (.inl hview) hh
  obtain ⟨t2, k1, -, -⟩ := C66_set_total c q i hview hnum hR cc
  obtain ⟨e1, e2, hup2⟩ := setHpara_set k1
  obtain ⟨hf2, hp2, g2, e', q1, q2, q3, q4, q5⟩ := predict_upToDate hup2
  rw [e2] at q1
  cases q1
  rw [hnum] at q2
  cases q2
  rw [e1, hview] at q3
  cases q3
  rw [f4] at q4
  cases q4
  have hsame : t2.predict X cg false = .ok out := by
    rw [← hout, f5, q5, e1, r1]
    unfold GpObj.evalWith
    dsimp only
    rw [hu]
    rfl
  have := C74_end_to_end h0 hst l hX hn hd hu hk hm hnum hh k1 hXc hXr hsame
  rw [e1] at this
  rw [r1]
  exact this

/-- **C94**, recovery without scaling: whatever calls were made since the data were set, setting proper hyperparameters makes predictions
possible. -/
theorem C94_recovers_unscaled {st : GpStatic} {m : Option String} {s0 s1 : Session} (h0 : newSession st m = .ok s0) (hst : NugOk st)
    (l : List SOp) {d : DataIn} (hX : PointsFit st.dim d) (hn : 0 < d.fval.size)
    (hd : (SOp.data d).run (runOps l s0) = (s1, .ok ())) (hu : s1.obj.useScl = false) (hk : st.useGrad = true ∨ ∃ S, NoiseKnown d.stdFval S)
    (hm : st.kernel = .ratQuad → numGrads d = d.fval.size) (l' : List SOp) (hl' : ∀ a ∈ l', a.sameData)
    {h : HpF} {hp : HpVals} {v β : ℝ} (hnum : h.nums = some hp) (hh : HpFor st d hp v β)
    (c : OptzCfg) (q : Oracle) (i : ℤ) {X : Arr2} (hXc : X.c = st.dim) (hXr : 0 < X.r) (cg : Bool) :
    ∃ t out, setHpara c q "set" i (some h) false (runOps l' s1) = (t, .ok ()) ∧ t.predict X cg false = .ok out := by
  have hcfg : CfgOk st (runOps l s0).obj := runOps_cfgOk l (new_cfgOk h0)
  have hcfg1 : CfgOk st s1.obj := by
    have := run_cfgOk hcfg (.data d)
    rw [hd] at this
    exact this
  have hst1 : s1.obj.st = st := hcfg1.eq
  have hd' := data_call hd
  obtain ⟨hL, hC, -⟩ := setData_loaded hd'
  have hrs : s1.obj.mtd.rescales = true → s1.obj.st.log.theta = true := by
    intro hr
    have := hcfg1.scl
    rw [hr, hu] at this
    cases this
  have hx0 : (⟨0, st.dim, fun _ _ => 0⟩ : Arr2).c = s1.obj.st.dim := hst1 ▸ rfl
  have hK1 : Keep s1.obj ⟨0, st.dim, fun _ _ => 0⟩ { val := ⟨0, fun _ => 0⟩, std := none, grad := none, stdGrad := none } 0 0 s1 :=
    ⟨s1.obj.scl, rfl, fun h => by rw [hu] at h; cases h⟩
  obtain ⟨sc, r1, -⟩ := runOps_keep hcfg1.scl hrs (by rw [hst1]; exact hst.1) hx0 l' hK1 hl'
  obtain ⟨g, hv, hH, -, hgo⟩ := holdsData hcfg hX hd' (by rw [← hL.useScl]; exact hu)
  obtain ⟨hR, hη⟩ := data_ready hcfg hst hX hn hd' hk hm (.inl hv) hh
  have hv' : (runOps l' s1).obj.view = .ok g := by
    rw [← hv, r1]
    unfold GpObj.view GpObj.view0
    dsimp only
    rw [hu]
    rfl
  obtain ⟨t, ht, -, -⟩ := C66_set_total c q i hv' hnum hR false
  obtain ⟨e1, e2, hup⟩ := setHpara_set ht
  obtain ⟨hf, hp', g', e, f1, f2, f3, f4, f5⟩ := predict_upToDate hup
  rw [e2] at f1
  cases f1
  rw [hnum] at f2
  cases f2
  rw [e1, hv'] at f3
  cases f3
  obtain ⟨e', o, g1, g2, -⟩ := C37_pipeline_total hR.toV hη (X := X) (by rw [hXc, hH.dim]) hXr cg
  rw [f4] at g1
  cases g1
  have hu' : (runOps l' s1).obj.useScl = false := by rw [r1]; exact hu
  refine ⟨t, o.arrs, ht, ?_⟩
  rw [f5, GpObj.evalWith, e1, hu', if_neg (by decide), g2]
  rfl

/-! ### Concrete programs -/

/-- The hypotheses of the C94 theorems are met: with every scaling method, three values `y` with gradients, and after
any calls that leave the data as they are (optimisations among them), predictions with the hyperparameters `exHpK` can be made. -/
example {m : String} (hm : m ∈ ["rescale_origin", "rescale_eta_vary", "dflt_vmin", "dflt_vmax"]) (l : List SOp)
    (hl : ∀ a ∈ l, ∀ w, a ≠ .wellcond w) (l' : List SOp) (hl' : ∀ a ∈ l', a.sameData) (c : OptzCfg) (q : Oracle) (y : ℕ → ℝ) (X : Arr2)
    (hX : X.c = 2) (hXr : 0 < X.r) :
    ∃ s0 s1 t out, newSession exStatic (some m) = .ok s0 ∧ (SOp.data (exKnown y)).run (runOps l s0) = (s1, .ok ()) ∧
      s1.obj.useScl = true ∧ setHpara c q "set" 1 (some (HpF.ofVals exHpK)) false (runOps l' s1) = (t, .ok ()) ∧ t.predict X false false = .ok out := by
  have hm' : m ∈ wcAvail := by
    simp only [List.mem_cons, List.not_mem_nil, or_false] at hm
    rcases hm with rfl | rfl | rfl | rfl <;> decide
  obtain ⟨o, ho⟩ := newGp_total exStatic hm'
  have hs0 : newSession exStatic (some m) = .ok { obj := o } := by unfold newSession; rw [ho]; rfl
  have huo : o.useScl = true := by
    unfold newGp setWellcond at ho
    simp only [List.mem_cons, List.not_mem_nil, or_false] at hm
    rcases hm with rfl | rfl | rfl | rfl <;> (cases ho; rfl)
  have hcfg := runOps_cfgOk l (new_cfgOk hs0)
  have hul : (runOps l { obj := o }).obj.useScl = true := (runOps_useScl l hl).trans huo
  obtain ⟨o1, g, hd, hL, hv, -⟩ := accepts_cfg hcfg exStatic_ok.1 (exKnown_consistent y) rfl (exKnown_size _) (fun _ S hS => exKnown_grads _)
    (fun _ S hS => by cases hS; rfl)
  set s1 : Session := { (runOps l ({ obj := o } : Session)) with obj := o1 } with hs1
  have hrun : (SOp.data (exKnown y)).run (runOps l { obj := o }) = (s1, .ok ()) := by
    have hr : (SOp.data (exKnown y)).run (runOps l { obj := o })
      = ({ (runOps l { obj := o }) with obj := (setData (exKnown y) (runOps l { obj := o }).obj).1 }, (setData (exKnown y) (runOps l { obj := o }).obj).2) := rfl
    rw [hr, hd]
  have hu1 : s1.obj.useScl = true := hL.useScl.trans hul
  obtain ⟨t, out, ht, hout⟩ := C94_recovers hs0 exStatic_ok.1 l (d := exKnown y) rfl (exKnown_size _) hrun (fun _ => rfl) hu1 (exStatic_dist _)
    (fun _ _ => exKnown_spreadable _ y) (fun _ => rfl) l' hl' (ofVals_nums exHpK) (exHpK_for y) c q 1 hX hXr false
  exact ⟨_, s1, t, out, hs0, hrun, hu1, ht, hout⟩

/-- The same without scaling. -/
example (l : List SOp) (hl : ∀ a ∈ l, ∀ w, a ≠ .wellcond w) (l' : List SOp) (hl' : ∀ a ∈ l', a.sameData) (c : OptzCfg) (q : Oracle)
    (y : ℕ → ℝ) (X : Arr2) (hX : X.c = 2) (hXr : 0 < X.r) :
    ∃ s0 s1 t out, newSession exStatic (some "precon") = .ok s0 ∧ (SOp.data (exKnown y)).run (runOps l s0) = (s1, .ok ()) ∧
      s1.obj.useScl = false ∧ setHpara c q "set" 1 (some (HpF.ofVals exHpK)) false (runOps l' s1) = (t, .ok ()) ∧ t.predict X false false = .ok out := by
  obtain ⟨o, ho⟩ := newGp_total exStatic (s := "precon") (by decide)
  have hs0 : newSession exStatic (some "precon") = .ok { obj := o } := by unfold newSession; rw [ho]; rfl
  have huo : o.useScl = false := by
    unfold newGp setWellcond at ho
    cases ho; rfl
  have hcfg := runOps_cfgOk l (new_cfgOk hs0)
  have hul : (runOps l { obj := o }).obj.useScl = false := (runOps_useScl l hl).trans huo
  obtain ⟨o1, g, hd, hL, hv, -⟩ := accepts_cfg hcfg exStatic_ok.1 (exKnown_consistent y) rfl (exKnown_size _) (fun _ S hS => exKnown_grads _)
    (fun _ S hS => by cases hS; rfl)
  set s1 : Session := { (runOps l ({ obj := o } : Session)) with obj := o1 } with hs1
  have hrun : (SOp.data (exKnown y)).run (runOps l { obj := o }) = (s1, .ok ()) := by
    have hr : (SOp.data (exKnown y)).run (runOps l { obj := o })
      = ({ (runOps l { obj := o }) with obj := (setData (exKnown y) (runOps l { obj := o }).obj).1 }, (setData (exKnown y) (runOps l { obj := o }).obj).2) := rfl
    rw [hr, hd]
  have hu1 : s1.obj.useScl = false := hL.useScl.trans hul
  obtain ⟨t, out, ht, hout⟩ := C94_recovers_unscaled hs0 exStatic_ok.1 l (d := exKnown y) rfl (exKnown_size _) hrun hu1 (.inl rfl)
    (fun _ => rfl) l' hl' (ofVals_nums exHpK) (exHpK_for y) c q 1 hX hXr false
  exact ⟨_, s1, t, out, hs0, hrun, hu1, ht, hout⟩

end Props
