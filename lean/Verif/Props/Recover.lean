import Verif.Props.ScaledData

/-! Property C86: what `set_data` does depends on the configuration and the data only, not on what was done before, in
particular not on earlier data sets, accepted or rejected. -/

open Np Spec GP

noncomputable section

namespace Props

/-- Calls that cannot tell related objects apart: same exception or none, and related results. -/
def Sim (P Q : GpObj → GpObj → Prop) (c : GCall) : Prop :=
  ∀ a b, P a b → (c a).2 = (c b).2 ∧ ((c a).2 = .ok () → Q (c a).1 (c b).1)

theorem Sim.andThen {P Q R : GpObj → GpObj → Prop} {c c' : GCall} (h : Sim P Q c) (h' : Sim Q R c') : Sim P R (c.andThen c') := by
  intro a b hab
  obtain ⟨h1, h2⟩ := h a b hab
  unfold GCall.andThen
  rcases hca : c a with ⟨t, r⟩
  rcases hcb : c b with ⟨t', r'⟩
  rw [hca, hcb] at h1 h2
  simp only at h1 h2
  subst h1
  cases r with
  | error e => exact ⟨rfl, fun h => by cases h⟩
  | ok u => cases u; exact h' t t' (h2 rfl)

theorem sim_gset {P Q : GpObj → GpObj → Prop} {f : GpObj → GpObj} (h : ∀ a b, P a b → Q (f a) (f b)) : Sim P Q (gset f) :=
  fun a b hab => ⟨rfl, fun _ => h a b hab⟩

theorem sim_gcompute {P Q : GpObj → GpObj → Prop} {α : Type} {f : GpObj → Py α} {put : GpObj → α → GpObj}
    (hf : ∀ a b, P a b → f a = f b) (h : ∀ a b x, P a b → f a = .ok x → Q (put a x) (put b x)) : Sim P Q (gcompute f put) := by
  intro a b hab
  unfold gcompute
  rw [← hf a b hab]
  cases hx : f a with
  | error e => exact ⟨rfl, fun h => by cases h⟩
  | ok x => exact ⟨rfl, fun _ => h a b x hab hx⟩

/-- The configuration. -/
def K0 (o : GpObj) := cfg o
def K1 (o : GpObj) := (K0 o, o.nEval, o.nGrad, o.nData)
def K2 (o : GpObj) := (K1 o, o.knownFval)
def K3 (o : GpObj) := (K2 o, o.knownFgrad, o.hasGradInfo)
def K4 (o : GpObj) := (K3 o, o.xIn, o.fvalIn, o.stdFvalIn, o.gradIn, o.stdGradIn, o.bvec)
def K5 (o : GpObj) := (K4 o, o.optzVarFval, o.fvalZero)
def K6 (o : GpObj) := (K5 o, o.optzVarFgrad, o.fgradZero)
def K7 (o : GpObj) := (K6 o, o.noisy)
def K8 (o : GpObj) := (K7 o, o.etaKbase, o.etaKgrad, o.etaK)
def K9 (o : GpObj) := (K8 o, o.vminInit)
def K10 (o : GpObj) := (K9 o, o.info)

/-- Two objects that agree in everything a later call can read: all attributes, except that the scaling object is compared only if
the data are scaled, the distances of the unscaled points only if they are not, and the required distance only for the method that
sets it. -/
structure SameState (a b : GpObj) : Prop where
  rest : { a with scl := none, rInit := none, vminReq := none } = { b with scl := none, rInit := none, vminReq := none }
  scl : a.useScl = true → a.scl = b.scl
  rInit : a.useScl = false → a.rInit = b.rInit
  vminReq : a.mtd = .rescaleOrigin → a.useScl = true → a.vminReq = b.vminReq

def rel {α : Type} (k : GpObj → α) : GpObj → GpObj → Prop := fun a b => k a = k b

macro "unK" : tactic => `(tactic| simp only [rel, K10, K9, K8, K7, K6, K5, K4, K3, K2, K1, K0, cfg, Prod.mk.injEq] at *)

theorem sim_counts (d : DataIn) (ng : ℕ) : Sim (rel K0) (rel K1)
    (gset fun o => { o with nEval := d.fval.size, nGrad := ng, nData := d.fval.size + ng * o.st.dim }) := by
  apply sim_gset
  intro a b h
  unK
  obtain ⟨h1, h2, h3, h4, h5⟩ := h
  simp_all

theorem sim_ndim (d : DataIn) : Sim (rel K1) (rel K1) (gcompute (fun _ => pyAssert (d.x.ndim = 2)) (fun o _ => o)) :=
  sim_gcompute (fun _ _ _ => rfl) (fun _ _ _ h _ => h)

theorem sim_stdFval (d : DataIn) : Sim (rel K1) (rel K2) (checkStdFval d) := by
  intro a b h
  unfold checkStdFval
  cases knownStd d.stdFval with
  | none => refine ⟨rfl, fun _ => ?_⟩; unK; simp_all
  | some s => refine ⟨rfl, fun _ => ?_⟩; unK; simp_all

theorem sim_grad (d : DataIn) : Sim (rel K2) (rel K3) (checkGrad d) := by
  intro a b h
  have hu : a.st.useGrad = b.st.useGrad := by unK; simp_all
  have hd : a.st.dim = b.st.dim := by unK; simp_all
  have hn : a.nGrad = b.nGrad := by unK; simp_all
  unfold checkGrad
  dsimp only
  rw [hu, hd, hn]
  cases d.grad with
  | none =>
    cases b.st.useGrad with
    | true => exact ⟨rfl, fun h => by cases h⟩
    | false => refine ⟨rfl, fun _ => ?_⟩; unK; simp_all
  | some G =>
    cases b.st.useGrad with
    | false => exact ⟨rfl, fun h => by cases h⟩
    | true =>
      simp only [if_true]
      split
      · cases knownStd d.stdGrad with
        | none => refine ⟨rfl, fun _ => ?_⟩; unK; simp_all
        | some S => refine ⟨rfl, fun _ => ?_⟩; unK; simp_all
      · exact ⟨rfl, fun h => by cases h⟩

theorem sim_store (d : DataIn) : Sim (rel K3) (rel K4) (gset (storeIn d)) := by
  apply sim_gset
  intro a b h
  have h1 : a.knownFval = b.knownFval := by unK; simp_all
  have h2 : a.knownFgrad = b.knownFgrad := by unK; simp_all
  unfold storeIn
  unK
  exact ⟨h, trivial, trivial, by rw [h1], trivial, by rw [h2], trivial⟩

theorem sim_fval (d : DataIn) : Sim (rel K4) (rel K5) (classifyFval d) := by
  intro a b h
  have h1 : a.knownFval = b.knownFval := by unK; simp_all
  unfold classifyFval
  dsimp only
  rw [h1]
  cases b.knownFval with
  | false => refine ⟨rfl, fun _ => ?_⟩; unK; simp_all
  | true =>
    simp only [if_true]
    cases isZeroStd (knownStd d.stdFval) with
    | error e => exact ⟨rfl, fun h => by cases h⟩
    | ok z => refine ⟨rfl, fun _ => ?_⟩; unK; simp_all

theorem sim_fgrad (d : DataIn) : Sim (rel K5) (rel K6) (classifyFgrad d) := by
  intro a b h
  have h1 : a.knownFgrad = b.knownFgrad := by unK; simp_all
  have h2 : a.st.useGrad = b.st.useGrad := by unK; simp_all
  unfold classifyFgrad
  dsimp only
  rw [h1, h2]
  cases b.st.useGrad with
  | false => refine ⟨rfl, fun _ => ?_⟩; unK; simp_all
  | true =>
    simp only [if_true]
    cases b.knownFgrad with
    | false => refine ⟨rfl, fun _ => ?_⟩; unK; simp_all
    | true =>
      simp only [if_true]
      cases isZeroStd (knownStd d.stdGrad) with
      | error e => exact ⟨rfl, fun h => by cases h⟩
      | ok z => refine ⟨rfl, fun _ => ?_⟩; unK; simp_all

theorem sim_noisy : Sim (rel K6) (rel K7) (gset fun o => { o with noisy := !(o.fvalZero && o.fgradZero) }) := by
  apply sim_gset
  intro a b h
  unK
  exact ⟨h, by rw [h.1.2.2, h.2.2]⟩

theorem sim_nugget : Sim (rel K7) (rel K8) nuggetCall := by
  unfold nuggetCall
  apply sim_gcompute
  · intro a b h
    have h1 : a.nugOpts = b.nugOpts := by unfold GpObj.nugOpts; unK; simp_all
    have h2 : a.nEval = b.nEval := by unK; simp_all
    have h3 : a.st.useGrad = b.st.useGrad := by unK; simp_all
    rw [h1, h2, h3]
  · intro a b x h _
    unK
    simp_all

theorem sim_vmin (d : DataIn) : Sim (rel K8) (rel K9) (gcompute (fun _ => calcDistMin d.x.mat) (fun o v => { o with vminInit := v })) := by
  apply sim_gcompute (fun _ _ _ => rfl)
  intro a b x h _
  unK
  simp_all

theorem sim_hpIdx : Sim (rel K9) (rel K10) hpIdxCall := by
  unfold hpIdxCall
  apply sim_gcompute
  · intro a b h
    have h1 : a.st = b.st := by unK; simp_all
    have h2 : a.knownFval = b.knownFval := by unK; simp_all
    have h3 : a.knownFgrad = b.knownFgrad := by unK; simp_all
    have h4 : a.noisy = b.noisy := by unK; simp_all
    have h5 : a.optzVarFval = b.optzVarFval := by unK; simp_all
    have h6 : a.optzVarFgrad = b.optzVarFgrad := by unK; simp_all
    rw [h1, h2, h3, h4, h5, h6]
  · intro a b x h _
    unK
    simp_all

theorem sim_sclCall (d : DataIn) (m : XMtd) (dist : ℝ) {a b : GpObj} (h : K10 a = K10 b) (hs : a.useScl = true)
    (hv : a.mtd = .rescaleOrigin → a.vminReq = b.vminReq) :
    (sclCall d m dist a).2 = (sclCall d m dist b).2 ∧
      ((sclCall d m dist a).2 = .ok () → SameState (sclCall d m dist a).1 (sclCall d m dist b).1) := by
  have key : ∀ s, SameState { a with scl := s } { b with scl := s } := by
    intro s
    unK
    refine ⟨?_, fun _ => rfl, fun h => ?_, fun h _ => hv h⟩
    · rcases a with ⟨⟩; rcases b with ⟨⟩; simp_all
    · rw [show a.useScl = true from hs] at h; cases h
  unfold sclCall
  rcases newScl d.x.mat none true m (some dist) with ⟨s, r⟩
  cases r with
  | error e => exact ⟨rfl, fun h => by cases h⟩
  | ok u =>
    dsimp only
    cases stdGradScl s d with
    | error e => exact ⟨rfl, fun h => by cases h⟩
    | ok sg => exact ⟨rfl, fun _ => key _⟩

theorem sim_scale (d : DataIn) : Sim (rel K10) SameState (scaleCall d) := by
  intro a b h
  have hs : a.useScl = b.useScl := by unK; simp_all
  have hm : a.mtd = b.mtd := by unK; simp_all
  have hst : a.st = b.st := by unK; simp_all
  unfold scaleCall
  rcases Bool.eq_false_or_eq_true b.useScl with hu | hu
  rotate_left
  · have ha : ¬ (a.useScl = true) := by rw [hs, hu]; decide
    rw [if_neg ha, if_neg (by rw [hu]; decide)]
    unfold gcompute
    cases calcRtensor d.x.mat d.x.mat with
    | error e => exact ⟨rfl, fun h => by cases h⟩
    | ok R =>
      refine ⟨rfl, fun _ => ⟨?_, fun h => ?_, fun _ => rfl, fun _ h => ?_⟩⟩
      · unK; rcases a with ⟨⟩; rcases b with ⟨⟩; simp_all
      · rw [show a.useScl = false from hs.trans hu] at h; cases h
      · rw [show a.useScl = false from hs.trans hu] at h; cases h
  · rw [if_pos (hs.trans hu), if_pos hu]
    have e : scaleArgs a d.fval.size = scaleArgs b d.fval.size := by unfold scaleArgs; rw [hm, hst]
    rw [e]
    cases scaleArgs b d.fval.size with
    | error e => exact ⟨rfl, fun h => by cases h⟩
    | ok x =>
      dsimp only
      apply sim_sclCall
      · by_cases h1 : b.mtd = .rescaleOrigin
        · rw [if_pos h1, if_pos (hm.trans h1)]; exact h
        · rw [if_neg h1, if_neg (fun h2 => h1 (hm.symm.trans h2))]; exact h
      · by_cases h1 : b.mtd = .rescaleOrigin
        · rw [if_pos (hm.trans h1)]; exact hs.trans hu
        · rw [if_neg (fun h2 => h1 (hm.symm.trans h2))]; exact hs.trans hu
      · by_cases h1 : b.mtd = .rescaleOrigin
        · rw [if_pos h1, if_pos (hm.trans h1)]; exact fun _ => rfl
        · rw [if_neg h1, if_neg (fun h2 => h1 (hm.symm.trans h2))]
          exact fun h2 => absurd (hm.symm.trans h2) h1

theorem sim_setData (d : DataIn) : Sim (rel K0) SameState (setData d) := by
  intro a b h
  have hst : a.st.useGrad = b.st.useGrad := by unK; simp_all
  unfold setData
  rw [hst]
  cases countGrads b.st.useGrad d with
  | error e => exact ⟨rfl, fun h => by cases h⟩
  | ok ng =>
    exact ((sim_counts d ng).andThen ((sim_ndim d).andThen ((sim_stdFval d).andThen ((sim_grad d).andThen ((sim_store d).andThen
      ((sim_fval d).andThen ((sim_fgrad d).andThen (sim_noisy.andThen (sim_nugget.andThen ((sim_vmin d).andThen
      (sim_hpIdx.andThen (sim_scale d)))))))))))) a b h

theorem SameState.useScl {a b : GpObj} (h : SameState a b) : a.useScl = b.useScl :=
  (congrArg GpObj.useScl h.rest : GpObj.useScl { a with scl := none, rInit := none, vminReq := none } = GpObj.useScl { b with scl := none, rInit := none, vminReq := none })

/-- What the rest of the library sees of the object is the same. -/
theorem SameState.view {a b : GpObj} (h : SameState a b) : a.view = b.view := by
  have h0 : a.view0 = b.view0 := by
    exact (congrArg GpObj.view0 h.rest : GpObj.view0 { a with scl := none, rInit := none, vminReq := none } = GpObj.view0 { b with scl := none, rInit := none, vminReq := none })
  have hu : a.useScl = b.useScl := h.useScl
  unfold GpObj.view
  rw [h0]
  cases hb : b.useScl with
  | false => rw [hu, hb]; rfl
  | true => rw [hu, hb, h.scl (hu.trans hb)]

/-- **C86.** `set_data` on two objects with the same options and the same conditioning method, whatever they were used for before,
raises the same exception or none, and if it succeeds the two objects are the same in everything later calls read. -/
theorem C86_set_data (d : DataIn) {a b : GpObj} (h1 : a.st = b.st) (h2 : a.mtd = b.mtd) (h3 : a.etaConst = b.etaConst)
    (h4 : a.useCstr = b.useCstr) (h5 : a.useScl = b.useScl) :
    (setData d a).2 = (setData d b).2 ∧
    ((setData d a).2 = .ok () → SameState (setData d a).1 (setData d b).1 ∧ (setData d a).1.view = (setData d b).1.view) := by
  obtain ⟨h, h'⟩ := sim_setData d a b (by show cfg a = cfg b; simp [cfg, h1, h2, h3, h4, h5])
  exact ⟨h, fun hk => ⟨h' hk, (h' hk).view⟩⟩

/-- **C86**, programs: after any two programs of calls, whether they raised or not, that leave the same conditioning method and the
same choice of a constant nugget, `set_data` does the same. -/
theorem C86_programs {st : GpStatic} {m1 m2 : Option String} {s1 s2 : Session} (h1 : newSession st m1 = .ok s1)
    (h2 : newSession st m2 = .ok s2) (l1 l2 : List SOp) (hm : (runOps l1 s1).obj.mtd = (runOps l2 s2).obj.mtd)
    (he : (runOps l1 s1).obj.etaConst = (runOps l2 s2).obj.etaConst) (d : DataIn) :
    (setData d (runOps l1 s1).obj).2 = (setData d (runOps l2 s2).obj).2 ∧
    ((setData d (runOps l1 s1).obj).2 = .ok () → SameState (setData d (runOps l1 s1).obj).1 (setData d (runOps l2 s2).obj).1 ∧
      (setData d (runOps l1 s1).obj).1.view = (setData d (runOps l2 s2).obj).1.view) := by
  have c1 := runOps_cfgOk l1 (new_cfgOk h1)
  have c2 := runOps_cfgOk l2 (new_cfgOk h2)
  exact C86_set_data d (c1.eq.trans c2.eq.symm) hm he (by rw [c1.cstr, c2.cstr, hm]) (by rw [c1.scl, c2.scl, hm])

/-- **C86**, recovery: a rejected (or accepted) data set leaves no trace once another one is accepted. -/
theorem C86_recovers (d0 d : DataIn) (o : GpObj) :
    (setData d (setData d0 o).1).2 = (setData d o).2 ∧
    ((setData d o).2 = .ok () → SameState (setData d (setData d0 o).1).1 (setData d o).1 ∧
      (setData d (setData d0 o).1).1.view = (setData d o).1.view) := by
  have h := setData_frame d0 o
  simp only [cfg, Prod.mk.injEq] at h
  obtain ⟨h1, h2, h3, h4, h5⟩ := h
  obtain ⟨k, k'⟩ := C86_set_data d h1 h2 h3 h4 h5
  exact ⟨k, fun hk => k' (k.trans hk)⟩

/-- **C86**, discrepancy: a rejected `set_data` is not undone. If the counts of the rejected data differ from those of the data in
use, the object keeps the old data with the new counts, so that it is inconsistent until data are accepted again. -/
theorem C86_rejected_damages {o : GpObj} {g : Gp} (hg : o.view0 = .ok g) (hok : GpOk g) {d : DataIn} {ng : ℕ}
    (hc : countGrads o.st.useGrad d = .ok ng) (hx : d.x.ndim ≠ 2) (hn : d.fval.size ≠ o.nEval) :
    ∃ o' g', setData d o = (o', .error .assertion) ∧ o'.nEval = d.fval.size ∧ o'.xIn = o.xIn ∧ o'.fvalIn = o.fvalIn ∧
      o'.view0 = .ok g' ∧ ¬ GpOk g' := by
  have hr := hok.x_r
  obtain ⟨x, f, hx0, hf0, rfl⟩ : ∃ x f, o.xIn = some x ∧ o.fvalIn = some f ∧ g = o.gp x f := by
    unfold GpObj.view0 at hg
    cases hx1 : o.xIn with
    | none => rw [hx1] at hg; cases hg
    | some x =>
      cases hf1 : o.fvalIn with
      | none => rw [hx1, hf1] at hg; cases hg
      | some f => rw [hx1, hf1] at hg; cases hg; exact ⟨x, f, rfl, rfl, rfl⟩
  let o' : GpObj := { o with nEval := d.fval.size, nGrad := ng, nData := d.fval.size + ng * o.st.dim }
  refine ⟨o', o'.gp x f, ?_, rfl, rfl, rfl, ?_, fun hb => ?_⟩
  · unfold setData
    rw [hc]
    have : pyAssert (d.x.ndim = 2) = .error .assertion := by unfold pyAssert; rw [if_neg hx]
    simp only [GCall.andThen, gset, gcompute, this]
    rfl
  · unfold GpObj.view0
    rw [show o'.xIn = some x from hx0, show o'.fvalIn = some f from hf0]
    rfl
  · exact hn (hb.x_r.symm.trans hr)

theorem setupWith_inv {calcCond : Bool} {h : HpF} {s t : Session} (hk : Session.setupWith calcCond h s = (t, .ok ())) :
    ∃ hp g e, h.nums = some hp ∧ s.obj.view = .ok g ∧ setupEvalModel g hp calcCond = .ok e ∧ t = { s with ev := some ⟨g.nData, e⟩ } := by
  unfold Session.setupWith at hk
  cases hn : h.nums with
  | none => rw [hn] at hk; cases hk
  | some hp =>
    rw [hn] at hk
    cases hw : s.obj.view with
    | error e => rw [hw] at hk; cases hk
    | ok g =>
      rw [hw] at hk
      dsimp only at hk
      cases he : setupEvalModel g hp calcCond with
      | error e => rw [he] at hk; cases hk
      | ok e => rw [he] at hk; cases hk; exact ⟨hp, g, e, rfl, rfl, he, rfl⟩

/-- **C86**, predictions: two objects used in any way before, with the same options and conditioning method. After the same data
and the same hyperparameters given to `set_hpara`, the predictions are the same (the same numbers or the same exception). -/
theorem C86_predictions {st : GpStatic} {m1 m2 : Option String} {s1 s2 : Session} (h1 : newSession st m1 = .ok s1)
    (h2 : newSession st m2 = .ok s2) (l1 l2 : List SOp) (hm : (runOps l1 s1).obj.mtd = (runOps l2 s2).obj.mtd)
    (he : (runOps l1 s1).obj.etaConst = (runOps l2 s2).obj.etaConst) (d : DataIn) (h : HpF) (c c' : OptzCfg) (q q' : Oracle)
    (i i' : ℤ) (cc : Bool) {t1 u1 : Session} (hd : (SOp.data d).run (runOps l1 s1) = (t1, .ok ()))
    (hh : (SOp.hpara c q "set" i (some h) cc).run t1 = (u1, .ok ())) :
    ∃ t2 u2, (SOp.data d).run (runOps l2 s2) = (t2, .ok ()) ∧ (SOp.hpara c' q' "set" i' (some h) cc).run t2 = (u2, .ok ()) ∧
      ∀ X calcGrad calcHess, u1.predict X calcGrad calcHess = u2.predict X calcGrad calcHess := by
  obtain ⟨k, k'⟩ := C86_programs h1 h2 l1 l2 hm he d
  have hrun : ∀ s : Session, (SOp.data d).run s = ({ s with obj := (setData d s.obj).1 }, (setData d s.obj).2) := fun s => rfl
  rw [hrun] at hd
  have hk0 : (setData d (runOps l1 s1).obj).2 = .ok () := congrArg Prod.snd hd
  obtain ⟨hS, hV⟩ := k' hk0
  cases congrArg Prod.fst hd
  obtain ⟨hp, g, e, hn, hg, he', hu⟩ := setupWith_inv (s := { runOps l1 s1 with obj := (setData d (runOps l1 s1).obj).1, hp := some h, setupHp := some h }) hh
  subst hu
  refine ⟨_, { runOps l2 s2 with obj := (setData d (runOps l2 s2).obj).1, hp := some h, setupHp := some h, ev := some ⟨g.nData, e⟩ },
    Prod.ext rfl (k.symm.trans hk0), ?_, fun X a b => ?_⟩
  · show Session.setupWith cc h _ = _
    unfold Session.setupWith
    rw [hn]
    dsimp only at hg ⊢
    rw [show (SOp.run (runOps l2 s2) (SOp.data d)).1.obj.view = .ok g from hV.symm.trans hg]
    dsimp only
    rw [he']
    rfl
  · unfold Session.predict
    dsimp only
    rw [if_pos rfl, if_pos rfl, hn]
    dsimp only
    dsimp only at hg
    rw [← hV, hg]
    have hus : (setData d (runOps l1 s1).obj).1.useScl = (setData d (runOps l2 s2).obj).1.useScl := hS.useScl
    have : ∀ (g : Gp) (e : EvalState g.nData), (setData d (runOps l1 s1).obj).1.evalWith g e hp X a b =
        (setData d (runOps l2 s2).obj).1.evalWith g e hp X a b := by
      intro g e
      unfold GpObj.evalWith
      rcases Bool.eq_false_or_eq_true (setData d (runOps l1 s1).obj).1.useScl with hb | hb
      · rw [if_pos hb, if_pos (hus.symm.trans hb), hS.scl hb]
      · rw [if_neg (by rw [hb]; decide), if_neg (by rw [← hus, hb]; decide)]
    simp only [this]

/-- C86: data accepted; then data with four values and points in one array, which are rejected and leave the object inconsistent;
then the first data again, after which the object is as it was. -/
example {m : String} (hm : m ∈ wcAvail) : ∃ o o' g d o'', newGp exStatic (some m) = .ok o ∧ setData exData o = (o', .ok ()) ∧
    o'.view = .ok g ∧ GpOk g ∧ setData d o' = (o'', .error .assertion) ∧ o''.nEval = 4 ∧ o''.xIn = o'.xIn ∧
    (setData exData o'').2 = .ok () ∧ (setData exData o'').1.view = .ok g := by
  obtain ⟨o, o', g, h1, h2, h3, h4, -⟩ := exData_accepted hm
  have hst : o'.st = exStatic := ((setData_loaded h2).1.st).trans (reach_cfgOk (.new h1)).eq
  let d : DataIn := { x := Nd.of1 4 fun _ => 0, fval := Nd.of1 4 fun _ => 0 }
  obtain ⟨k1, k2⟩ := C86_recovers d exData o'
  obtain ⟨r1, r2⟩ := C86_recovers exData exData o
  rw [h2] at r1 r2
  obtain ⟨-, r3⟩ := r2 rfl
  refine ⟨o, o', g, d, (setData d o').1, h1, h2, h3, h4.ok, ?_, ?_, ?_, k1.trans r1, ((k2 r1).2.trans r3).trans h3⟩
  all_goals
    unfold setData
    rw [show countGrads o'.st.useGrad d = .ok 4 by rw [hst]; rfl]
    simp only [GCall.andThen, gset, gcompute, show pyAssert (d.x.ndim = 2) = .error .assertion by unfold pyAssert; rw [if_neg (by decide)]]
  rfl

end Props
