import Verif.Props.OptzHp
import Verif.Props.LkdAll

/-! The hyperparameter protocol: what each way of setting the hyperparameters leaves. C66, C71. -/

open Np GP Spec

noncomputable section

namespace Props

/-! ### Rejected calls -/

/-- **C66, rejected calls.** Each of these calls raises and leaves the whole object as it was: an unknown method, `'set'` without
hyperparameters, `'current'` at an iteration that is not positive or before any hyperparameters were set, `'stored'` at a negative
iteration, and `'stored'` before the history was initialised. -/
theorem C66_rejects (c : OptzCfg) (q : Oracle) (i : ℤ) (hp : Option HpF) (cc : Bool) (s : Session) :
    (∀ m, m ≠ "stored" → m ≠ "optz" → m ≠ "current" → m ≠ "set" → setHpara c q m i hp cc s = (s, .error .raised)) ∧
    setHpara c q "set" i none cc s = (s, .error .assertion) ∧
    (i ≤ 0 → setHpara c q "current" i hp cc s = (s, .error .assertion)) ∧
    (s.hp = none → ∃ e, setHpara c q "current" i hp cc s = (s, .error e)) ∧
    (i < 0 → setHpara c q "stored" i hp cc s = (s, .error .assertion)) ∧
    (s.h = none → ∃ e, setHpara c q "stored" i hp cc s = (s, .error e)) := by
  refine ⟨fun m h1 h2 h3 h4 => ?_, ?_, fun h => ?_, fun h => ?_, fun h => ?_, fun h => ?_⟩
  · simp [setHpara, selectHp, h1, h2, h3, h4, Session.andSetup]
  · simp [setHpara, selectHp, Session.andSetup]
  · simp [setHpara, selectHp, Session.andSetup, not_lt.mpr h]
  · by_cases h0 : 0 < i
    · exact ⟨.attribute, by simp [setHpara, selectHp, Session.andSetup, h0, h]⟩
    · exact ⟨.assertion, by simp [setHpara, selectHp, Session.andSetup, h0]⟩
  · simp [setHpara, selectHp, Session.andSetup, not_le.mpr h]
  · by_cases h0 : 0 ≤ i
    · refine ⟨.attribute, ?_⟩
      have : setHpFromIdx i s.surr = (s.surr, .error .attribute) := by
        unfold setHpFromIdx
        rw [show s.surr.h = none from h]
      simp only [setHpara, selectHp, Session.andSetup, if_pos rfl, h0, if_true, this]
      rfl
    · exact ⟨.assertion, by simp [setHpara, selectHp, Session.andSetup, h0]⟩

/-! ### Set, current, stored -/

/-- **C66, `'set'`.** The current hyperparameters are then exactly the given ones, also if setting up the prediction model raises;
data, configuration and history are unchanged. If the call succeeds, the prediction model belongs to these hyperparameters and the
current data. -/
theorem C66_set (c : OptzCfg) (q : Oracle) (i : ℤ) (h : HpF) (cc : Bool) (s : Session) :
    (∃ e p, (setHpara c q "set" i (some h) cc s).1 = { s with hp := some h, ev := e, setupHp := p }) ∧
      ∀ s', setHpara c q "set" i (some h) cc s = (s', .ok ()) → UpToDate cc s' := by
  refine ⟨?_, fun s' h' => (setHpara_ok h').1⟩
  obtain ⟨e, pe, he⟩ := setHpara_fst c q "set" i (some h) cc s
  exact ⟨e, pe, by rw [he]; simp [selectHp]⟩

/-- **C66, `'current'`.** At a positive iteration the hyperparameters stay as they are, with everything else except the prediction
model, which belongs to them and to the current data if the call succeeds. -/
theorem C66_current (c : OptzCfg) (q : Oracle) (i : ℤ) (hp : Option HpF) (cc : Bool) (s : Session) :
    (∃ e p, (setHpara c q "current" i hp cc s).1 = { s with ev := e, setupHp := p }) ∧
      ∀ s', setHpara c q "current" i hp cc s = (s', .ok ()) → 0 < i ∧ (∃ h, s.hp = some h) ∧ UpToDate cc s' := by
  constructor
  · obtain ⟨e, pe, he⟩ := setHpara_fst c q "current" i hp cc s
    refine ⟨e, pe, ?_⟩
    rw [he]
    have : (selectHp c q "current" i hp s).1 = s := by
      simp only [selectHp]
      rw [if_neg (by decide), if_neg (by decide), if_pos trivial]
      split
      · split <;> rfl
      · rfl
    rw [this]
  · intro s' h
    obtain ⟨h1, t, e, pe, h2, -⟩ := setHpara_ok h
    simp only [selectHp] at h2
    rw [if_neg (by decide), if_neg (by decide), if_pos trivial] at h2
    split at h2
    · rename_i hi
      split at h2
      · rename_i hs
        exact ⟨hi, Option.isSome_iff_exists.mp hs, h1⟩
      · cases h2
    · cases h2

theorem select_row {o : SurrObj} {n : ℕ} {h : Surr} (hh : o.h = some h) (hs : Sized o.dim o.nBeta n h) {hp : HpF} {k : ℕ}
    (hk : k < n) (hf : HpFits o.dim o.nBeta hp) (H : HpRow hp h k) :
    ∃ r, setHpFromIdx k o = ({ o with hpVals := some r, knownFval := hp.varFval.join.isNone, knownFgrad := hp.varFgrad.join.isNone }, .ok ()) ∧
      Restored hp r := by
  have hi : pyIdx (k : ℤ) n = .ok k := pyIdx_denotes.mpr ⟨hk, Or.inl rfl⟩
  obtain ⟨b, hb, hbn⟩ := hf.beta
  obtain ⟨t, ht, htn⟩ := hf.theta
  unfold setHpFromIdx
  split
  · rename_i h0; rw [hh] at h0; cases h0
  · rename_i h' h0
    rw [hh] at h0; cases h0
    rw [hs.one, hi]
    dsimp only
    rw [H.varFval, H.varFgrad]
    have e1 : ∀ v : Fl, (stdFromHist v).1 = v.isNone := by rintro (_ | _) <;> rfl
    refine ⟨_, by rw [e1, e1], ⟨?_, ?_, ?_, ?_, ?_, ?_⟩⟩
    · exact ⟨b, _, hb, rfl, by rw [hs.beta, hbn], fun d hd => H.beta b hb d hd⟩
    · exact ⟨t, _, ht, rfl, by rw [hs.theta, htn], fun d hd => H.theta t ht d hd⟩
    · rw [H.kernel]
    · rw [H.varK]
    · cases hp.varFval.join <;> rfl
    · cases hp.varFgrad.join <;> rfl

/-- **C66, `'stored'`.** If row `i` of the history holds the hyperparameters `hp`, the call makes them the current ones (also if
setting up the prediction model raises) and adjusts the two flags that say whether the noise levels are known; data, configuration
and history are unchanged. A row from the end of the history on is an `IndexError` that changes nothing. -/
theorem C66_stored (c : OptzCfg) (q : Oracle) (hp0 : Option HpF) (cc : Bool) {s : Session} {n : ℕ} {h : Surr} (hh : s.h = some h)
    (hs : Sized s.obj.st.dim nBetaCoeff n h) :
    (∀ k hp, k < n → HpFits s.obj.st.dim nBetaCoeff hp → HpRow hp h k →
      (∃ e p r, (setHpara c q "stored" k hp0 cc s).1 =
        { s with hp := some r, ev := e, setupHp := p, obj := { s.obj with knownFval := hp.varFval.join.isNone, knownFgrad := hp.varFgrad.join.isNone } } ∧
        Restored hp r) ∧
      ∀ s', setHpara c q "stored" k hp0 cc s = (s', .ok ()) → UpToDate cc s') ∧
    ∀ k : ℕ, n ≤ k → setHpara c q "stored" k hp0 cc s = (s, .error .index) := by
  refine ⟨fun k hp hk hf H => ⟨?_, fun s' h' => (setHpara_ok h').1⟩, fun k hk => ?_⟩
  · obtain ⟨e, pe, he⟩ := setHpara_fst c q "stored" k hp0 cc s
    obtain ⟨r, hr, hR⟩ := select_row (o := s.surr) hh hs hk hf H
    refine ⟨e, pe, r, ?_, hR⟩
    rw [he]
    simp only [selectHp]
    rw [if_pos trivial, if_pos (Int.natCast_nonneg k), hr]
    rfl
  · have : setHpFromIdx k s.surr = (s.surr, .error .index) := by
      unfold setHpFromIdx
      rw [show s.surr.h = some h from hh]
      dsimp only
      rw [hs.one, pyIdx_out]
      intro j hj
      unfold Denotes at hj
      omega
    simp only [setHpara, selectHp]
    rw [if_pos trivial, if_pos (Int.natCast_nonneg k), this]
    rfl

/-! ### The prior variance is not checked by `'set'` -/

theorem calcAllK_normlz {g : Gp} {R : Arr3} {hp : HpVals} {v w : ℝ} (hv : hp.varK = some v) (noise : Option Arr1) (cf cc : Bool) :
    calcAllK g R { hp with varK := some w } noise cf cc none true = calcAllK g R hp noise cf cc none true := by
  unfold calcAllK
  simp only [hv]
  rfl

theorem setup_unchecked {g : Gp} {hp : HpVals} {v : ℝ} (hv : hp.varK = some v) (w : ℝ) {cc : Bool} {e : EvalState g.nData}
    (h : setupEvalModel g hp cc = .ok e) : ∃ e', setupEvalModel g { hp with varK := some w } cc = .ok e' := by
  unfold setupEvalModel at h ⊢
  dsimp only at h ⊢
  cases h1 : calcRtensor g.x g.x with
  | error e => rw [h1] at h; cases h
  | ok R =>
    rw [h1, ok_bind] at h
    rw [ok_bind]
    cases h2 : need hp.beta with
    | error e => rw [h2] at h; cases h
    | ok b =>
      rw [h2, ok_bind] at h
      rw [ok_bind]
      cases h3 : evalMeanFun g.dim nBetaCoeff g.x b g.bvec g.useGrad false with
      | error e => rw [h3] at h; cases h
      | ok mf =>
        rw [h3, ok_bind] at h
        rw [ok_bind, calcAllK_normlz hv]
        cases h4 : calcAllK g R hp none true cc none true with
        | error e => rw [h4] at h; cases h
        | ok out =>
          rw [h4, ok_bind] at h
          rw [ok_bind]
          split at h
          · rename_i hc
            rw [if_pos hc]
            exact ⟨_, rfl⟩
          · cases h

theorem nums_varK {h : HpF} {hp : HpVals} (hn : h.nums = some hp) (w : ℝ) :
    ({ h with varK := some (some w) } : HpF).nums = some { hp with varK := some w } := by
  unfold HpF.nums at hn ⊢
  cases h1 : optNums h.beta with
  | none => rw [h1] at hn; cases hn
  | some b =>
    cases h2 : optNums h.theta with
    | none => rw [h1, h2] at hn; cases hn
    | some t =>
      cases h3 : optNum h.varK with
      | none => rw [h1, h2, h3] at hn; cases hn
      | some v =>
        cases h4 : optNum h.varFval with
        | none => rw [h1, h2, h3, h4] at hn; cases hn
        | some f =>
          cases h5 : optNum h.varFgrad with
          | none => rw [h1, h2, h3, h4, h5] at hn; cases hn
          | some g =>
            rw [h1, h2, h3, h4, h5] at hn
            cases hn
            simp only [h1, h2, h4, h5]
            rfl

/-- **C66, discrepancy.** `set_hpara('set')` does not check the prior variance: if it accepts hyperparameters with a prior variance,
it accepts them with any other number, negative ones included, and that is then the current prior variance. (`set_custom_hp` rejects
numbers that are not positive.) -/
theorem C66_set_unchecked (c : OptzCfg) (q : Oracle) (i : ℤ) {h : HpF} {v : ℝ} (hv : h.varK = some (some v)) (cc : Bool) {s s' : Session}
    (hs : setHpara c q "set" i (some h) cc s = (s', .ok ())) (w : ℝ) :
    (∃ t, setHpara c q "set" i (some { h with varK := some (some w) }) cc s = (t, .ok ()) ∧
      ∃ r, t.hp = some r ∧ r.varK = some (some w)) ∧
    (w ≤ 0 → setCustomHp { h with varK := some (some w) } s = (s, .error .assertion)) := by
  constructor
  · obtain ⟨⟨h', hp, g, e, e1, e2, e3, e4, -⟩, t, e', pe, h1, h2⟩ := setHpara_ok hs
    have ht : t = { s with hp := some h } := by simp [selectHp] at h1; exact h1.symm
    subst h2
    subst ht
    cases e1
    have hpv : hp.varK = some v := by
      unfold HpF.nums at e2
      rw [hv] at e2
      cases h1 : optNums h.beta with
      | none => rw [h1] at e2; cases e2
      | some b =>
        cases h2 : optNums h.theta with
        | none => rw [h1, h2] at e2; cases e2
        | some t =>
          cases h4 : optNum h.varFval with
          | none => rw [h1, h2, h4] at e2; cases e2
          | some f =>
            cases h5 : optNum h.varFgrad with
            | none => rw [h1, h2, h4, h5] at e2; cases e2
            | some g => rw [h1, h2, h4, h5] at e2; cases e2; rfl
    obtain ⟨e'', he⟩ := setup_unchecked hpv w e4
    refine ⟨{ s with hp := some { h with varK := some (some w) }, setupHp := some { h with varK := some (some w) }, ev := some ⟨g.nData, e''⟩ }, ?_, _, rfl, rfl⟩
    have e3' : s.obj.view = .ok g := e3
    have hse : selectHp c q "set" i (some { h with varK := some (some w) }) s =
        ({ s with hp := some { h with varK := some (some w) } }, .ok ()) := by simp [selectHp]
    unfold setHpara
    rw [hse]
    simp only [Session.andSetup, Session.setup, Session.setupWith, nums_varK e2 w, e3', he]
  · intro hw
    simp [setCustomHp, not_lt.mpr hw]

/-! ### Optimised hyperparameters -/

theorem decode_theta {gp : Gp} {lo : LogOpts} {dim : ℕ} {k v f g : Bool} {x : Arr1} {hp : HpVals}
    (h : hpVec2Dataclass gp (hpInfoOf lo dim true k v f g) x = .ok hp) :
    x.n = (hpInfoOf lo dim true k v f g).nHp ∧ (v = true → gp.noisy = true) ∧ (f = true → gp.knownFval = false) ∧
      (g = true → gp.useGrad = true ∧ gp.knownFgrad = false) := by
  have hsc : ∀ {has ok : Bool} {w : Arr1} {i : ℕ} {r : Option ℝ}, takeScalar has ok w i = .ok r → has = true → ok = true := by
    intro has ok w i r h hh
    unfold takeScalar at h
    rw [hh, if_pos rfl] at h
    cases ok with
    | true => rfl
    | false => rw [pyAssert_false (by simp)] at h; cases h
  unfold hpVec2Dataclass at h
  cases h1 : powMasked x (hpInfoOf lo dim true k v f g).logOptz with
  | error e => rw [h1] at h; cases h
  | ok w =>
    rw [h1, ok_bind] at h
    cases h2 : takeTheta (hpInfoOf lo dim true k v f g) w with
    | error e => rw [h2] at h; cases h
    | ok th =>
      rw [h2, ok_bind] at h
      cases h3 : takeScalar (hpInfoOf lo dim true k v f g).hasKernel true w (hpInfoOf lo dim true k v f g).idxKernel with
      | error e => rw [h3] at h; cases h
      | ok a3 =>
        rw [h3, ok_bind] at h
        cases h4 : takeScalar (hpInfoOf lo dim true k v f g).hasVarK gp.noisy w (hpInfoOf lo dim true k v f g).idxVarK with
        | error e => rw [h4] at h; cases h
        | ok a4 =>
          rw [h4, ok_bind] at h
          cases h5 : takeScalar (hpInfoOf lo dim true k v f g).hasVarFval (!gp.knownFval) w (hpInfoOf lo dim true k v f g).idxVarFval with
          | error e => rw [h5] at h; cases h
          | ok a5 =>
            rw [h5, ok_bind] at h
            cases h6 : takeScalar (hpInfoOf lo dim true k v f g).hasVarFgrad (gp.useGrad && !gp.knownFgrad) w
                (hpInfoOf lo dim true k v f g).idxVarFgrad with
            | error e => rw [h6] at h; cases h
            | ok a6 =>
              refine ⟨?_, hsc h4, fun hf => by simpa using hsc h5 hf, fun hg => by simpa using hsc h6 hg⟩
              unfold powMasked at h1
              split at h1
              · rename_i hl
                rw [← hl, ← hpSlots_log, List.length_map, hpSlots_length]
                rfl
              · cases h1

theorem decodeSol_ok {st : GpStatic} {c : OptzCfg} {q : Oracle} {o : GpObj} {info : HpInfo} (hinfo : o.info = some info)
    (hi : ∃ k v f g, info = hpInfoOf st.log st.dim true k v f g) {x : Arr1} {hp : HpVals} (h : decodeSol c q o info x = .ok hp) :
    Solved c q st o hp := by
  obtain ⟨k, v, f, g, rfl⟩ := hi
  unfold decodeSol at h
  cases h1 : o.view with
  | error e => rw [h1] at h; cases h
  | ok gp =>
    rw [h1, ok_bind] at h
    cases h2 : hpVec2Dataclass (o.decGp gp) (hpInfoOf st.log st.dim true k v f g) x with
    | error e => rw [h2] at h; cases h
    | ok hp0 =>
      rw [h2, ok_bind] at h
      obtain ⟨d1, d2, d3, d4⟩ := decode_theta h2
      obtain ⟨hp1, e1, e2, e3, e4, e5⟩ := hpVec2Dataclass_ok (o.decGp gp) st.log st.dim (t := true) (k := k) d2 d3 d4 x
        (d1.trans (hpSlots_length ..).symm)
      rw [h2] at e1
      cases e1
      unfold closedForm at h
      cases h3 : calcLkdAll gp (o.env c q (hpInfoOf st.log st.dim true k v f g)) hp0 false false with
      | error e => rw [h3] at h; cases h
      | ok r =>
        rw [h3, ok_bind] at h
        dsimp only at h
        refine ⟨_, k, v, f, g, gp, x, hp0, r, hinfo,
          ⟨true, false, false, setHpOptzInfo_ok st.log st.dim (fun _ => rfl) (fun _ => rfl) (fun _ => rfl)⟩, h1, d1.trans (hpSlots_length ..).symm, e4, e5, e3 rfl, h3, ?_⟩
        cases hn : gp.noisy with
        | true =>
          rw [hn, if_pos rfl] at h
          cases h
          refine ⟨rfl, ?_, ?_, rfl⟩
          · cases r.1.beta <;> simp
          · intro β hβ
            rw [hβ]
            exact ⟨_, rfl, rfl, fun j => by simp⟩
        | false =>
          rw [hn, if_neg (by simp)] at h
          cases h
          refine ⟨rfl, ?_, ?_, rfl⟩
          · cases r.1.beta <;> simp
          · intro β hβ
            rw [hβ]
            exact ⟨_, rfl, rfl, fun j => by simp⟩

/-- What an optimisation leaves, before the prediction model is set up: everything but the rows of the history, the current
hyperparameters and the scaling is unchanged. -/
structure OptzOutcome (c : OptzCfg) (q : Oracle) (i : ℤ) (s t : Session) (hv : HpVals) : Prop where
  hp : t.hp = some (HpF.ofVals hv)
  frame : ∃ sc h', t = { s with obj := { s.obj with scl := sc }, h := h', hp := some (HpF.ofVals hv) }
  few : s.obj.nEval ≤ s.obj.st.constN → ∃ g, s.obj.view = .ok g ∧ hv = getInitHp s.obj.st g
  many : s.obj.st.constN < s.obj.nEval → Solved c q s.obj.st t.obj hv
  /-- the row of the history -/
  store : ∃ (sc : Option Scl) (a : StoreArgs), a.hp = HpF.ofVals hv ∧ Session.store i a { s with obj := { s.obj with scl := sc } } = (t, .ok ())

theorem store_frame {i : ℤ} {a : StoreArgs} {s t : Session} (h : s.store i a = (t, .ok ())) :
    ∃ h', t = { s with h := h', hp := some a.hp } := by
  unfold Session.store storeSurr at h
  dsimp only at h
  split at h
  · split at h
    · cases h
    · split at h
      · cases h
      · exact ⟨_, (Prod.mk.inj h).1.symm⟩
  · cases h; exact ⟨_, rfl⟩

theorem optz_outcome {c : OptzCfg} {q : Oracle} {i : ℤ} {s t : Session} (hI : InfoOk s.obj) (h : optzHp c q i s = (t, .ok ())) :
    ∃ hv, OptzOutcome c q i s t hv := by
  unfold optzHp at h
  split at h
  · cases h
  · rename_i g hg
    split at h
    · rename_i hn
      split at h
      · cases h
      · rename_i a ha
        have hap : a.hp = HpF.ofVals (getInitHp s.obj.st g) := by
          unfold initArgs at ha
          dsimp only at ha
          cases h1 : calcRtensor g.x g.x with
          | error e => rw [h1] at ha; cases ha
          | ok R =>
            rw [h1, ok_bind] at ha
            cases h2 : calcAllK g R (getInitHp s.obj.st g) none false true none false with
            | error e => rw [h2] at ha; cases ha
            | ok out => rw [h2, ok_bind] at ha; cases ha; rfl
        obtain ⟨h', ht⟩ := store_frame h
        rw [hap] at ht
        exact ⟨_, by rw [ht], ⟨s.obj.scl, h', ht⟩, fun _ => ⟨g, hg, rfl⟩, fun h0 => absurd hn (not_le.mpr h0),
          s.obj.scl, a, hap, h⟩
    · rename_i hn
      unfold optzNum at h
      split at h
      · cases h
      · rename_i info hinfo
        split at h
        · cases h
        · rename_i p hp
          obtain ⟨sc, hsc⟩ := optzVec_obj c q s.obj g info p.x0
          split at h
          · cases h
          · rename_i o r hq
            rw [hq] at hsc
            dsimp only at hsc
            subst hsc
            unfold finishOptz at h
            split at h
            · cases h
            · rename_i hv hd
              obtain ⟨h', ht⟩ := store_frame h
              refine ⟨hv, by rw [ht], ⟨sc, h', ht⟩, fun h0 => absurd h0 hn, fun _ => ?_, sc, _, rfl, h⟩
              have := decodeSol_ok (st := s.obj.st) (o := { s.obj with scl := sc }) hinfo (hI info hinfo) hd
              rw [ht]
              exact this

/-- **C66, `'optz'`.** After a successful call (any optimiser, sampler and likelihood) the current hyperparameters are the initial
ones while there are few points, and otherwise the decoded solution of the optimiser, with the coefficients of the mean (and for
noise-free data the prior variance) that the likelihood code reports for it. Nothing else changes except the history and the scaling,
and the prediction model belongs to these hyperparameters and the current data. -/
theorem C66_optz {c : OptzCfg} {q : Oracle} {i : ℤ} {hp : Option HpF} {cc : Bool} {st : GpStatic} {s t : Session} (hs : SInv st s)
    (h : setHpara c q "optz" i hp cc s = (t, .ok ())) :
    UpToDate cc t ∧ ∃ hv, t.hp = some (HpF.ofVals hv) ∧
      (∃ sc h' e p, t = { s with obj := { s.obj with scl := sc }, h := h', hp := some (HpF.ofVals hv), ev := e, setupHp := p }) ∧
      (s.obj.nEval ≤ st.constN → ∃ g, s.obj.view = .ok g ∧ hv = getInitHp st g) ∧
      (st.constN < s.obj.nEval → Solved c q st t.obj hv) := by
  obtain ⟨h1, t', e, pe, h2, h3⟩ := setHpara_ok h
  simp only [selectHp] at h2
  rw [if_neg (by decide), if_pos trivial] at h2
  obtain ⟨hv, H⟩ := optz_outcome hs.info h2
  have hf := H.few
  have hm := H.many
  obtain ⟨sc, h', ht⟩ := H.frame
  rw [hs.st] at hf hm
  refine ⟨h1, hv, by rw [h3]; exact H.hp, ⟨sc, h', e, pe, by rw [h3, ht]⟩, hf, ?_⟩
  intro h0
  rw [h3]
  exact hm h0

/-! ### What was optimised can be restored -/

theorem asg_run_row {dim nBeta n : ℕ} {h h' : Surr} (hs : Sized dim nBeta n h) {i : ℤ} {a : Asg} (hr : a.run i h = .ok h') :
    ∃ k, Denotes n i k ∧ h' = a.write h k := by
  cases a with
  | one f v =>
    unfold Asg.run at hr
    dsimp only at hr
    rw [hs.one] at hr
    cases hk : pyIdx i n with
    | error e => rw [hk] at hr; cases hr
    | ok k => rw [hk] at hr; cases hr; exact ⟨k, pyIdx_denotes.mp hk, rfl⟩
  | two f v =>
    unfold Asg.run at hr
    dsimp only at hr
    rw [hs.two_r] at hr
    cases hk : pyIdx i n with
    | error e => rw [hk] at hr; cases hr
    | ok k =>
      rw [hk, ok_bind] at hr
      refine ⟨k, pyIdx_denotes.mp hk, ?_⟩
      cases v with
      | none => cases hr; rfl
      | some w =>
        dsimp only at hr
        split at hr
        · cases hr; rfl
        · cases hr
  | atMax b =>
    unfold Asg.run at hr
    dsimp only at hr
    rw [hs.atMax] at hr
    cases hk : pyIdx i n with
    | error e => rw [hk] at hr; cases hr
    | ok k => rw [hk] at hr; cases hr; exact ⟨k, pyIdx_denotes.mp hk, rfl⟩
  | fail e => cases hr

/-- Assignments to row `i`, raising or not, keep the sizes and the other rows. -/
theorem runAsgs_keeps {dim nBeta n : ℕ} {i : ℤ} : ∀ (l : List Asg) {h : Surr}, Sized dim nBeta n h →
    Sized dim nBeta n (runAsgs i l h).1 ∧ ∀ j, ¬ Denotes n i j → SameRow h (runAsgs i l h).1 j
  | [], h, hs => ⟨hs, fun _ _ => ⟨fun _ => rfl, fun _ _ _ => rfl, rfl⟩⟩
  | a :: l, h, hs => by
    unfold runAsgs
    cases hr : a.run i h with
    | error e => exact ⟨hs, fun _ _ => ⟨fun _ => rfl, fun _ _ _ => rfl, rfl⟩⟩
    | ok h' =>
      obtain ⟨k, hk, rfl⟩ := asg_run_row hs hr
      have hs' := sized_write hs k a
      obtain ⟨h1, h2⟩ := runAsgs_keeps l hs'
      refine ⟨h1, fun j hj => ?_⟩
      refine sameRow_trans (fun f => ?_) (write_other (k := k) (j := j) (fun e => hj (by rw [e]; exact hk)) h a) (h2 j hj)
      rw [fld2Cols_eq hs' f, fld2Cols_eq hs f]

/-- All of the assignments succeeded: they were all to the same row. -/
theorem runAsgs_fold {dim nBeta n : ℕ} {i : ℤ} : ∀ (l : List Asg) {h h' : Surr}, Sized dim nBeta n h → runAsgs i l h = (h', .ok ()) →
    ∀ k, Denotes n i k → h' = l.foldl (fun h a => a.write h k) h
  | [], h, h', _, hr, k, _ => by cases hr; rfl
  | a :: l, h, h', hs, hr, k, hk => by
    unfold runAsgs at hr
    cases ha : a.run i h with
    | error e => rw [ha] at hr; cases hr
    | ok h1 =>
      rw [ha] at hr
      obtain ⟨k', hk', rfl⟩ := asg_run_row hs ha
      have := denotes_unique hk hk'
      subst this
      exact runAsgs_fold l (sized_write hs k a) hr k hk

theorem runAsgs_nofail {i : ℤ} {e : Err} : ∀ (l : List Asg) {h h' : Surr}, Asg.fail e ∈ l → runAsgs i l h ≠ (h', .ok ())
  | a :: l, h, h', hm, hr => by
    unfold runAsgs at hr
    rcases List.mem_cons.mp hm with rfl | hm
    · cases hr
    · cases ha : a.run i h with
      | error e => rw [ha] at hr; cases hr
      | ok h1 => rw [ha] at hr; exact runAsgs_nofail l hm hr

theorem runAsgs_idx {dim nBeta n : ℕ} {i : ℤ} {a : Asg} {l : List Asg} {h h' : Surr} (hs : Sized dim nBeta n h)
    (hr : runAsgs i (a :: l) h = (h', .ok ())) : ∃ k, Denotes n i k := by
  unfold runAsgs at hr
  cases ha : a.run i h with
  | error e => rw [ha] at hr; cases hr
  | ok h1 => exact (asg_run_row hs ha).imp fun _ h => h.1

theorem storeAsgs_hp {o : SurrObj} {n : ℕ} {h : Surr} (hs : Sized o.dim o.nBeta n h) {d : DataAttrs} (hd : o.data = some d) {s : StoreArgs}
    (hf : HpFits o.dim o.nBeta s.hp) (k : ℕ) :
    HpRow s.hp ((storeAsgs o s).foldl (fun h a => a.write h k) h) k := by
  obtain ⟨b, hb, hbn⟩ := hf.beta
  obtain ⟨t, ht, htn⟩ := hf.theta
  have one : ∀ f v, lastOne f (storeAsgs o s) = some v →
      (((storeAsgs o s).foldl (fun h a => a.write h k) h).one f).get k = v := by
    intro f v e
    rw [fold_one, e]; rfl
  have two : ∀ f v d, lastTwo f (storeAsgs o s) = some (some v) → v.n = (h.two f).c →
      (((storeAsgs o s).foldl (fun h a => a.write h k) h).two f).get k d = v.get d := by
    intro f v d e en
    rw [fold_two, e]
    show v.get (bidx v.n (h.two f).c d) = _
    rw [en]; simp [bidx]
  have hscl : ∀ f, f ≠ .xvec → lastTwo f (sclAsgs o) = none := by
    intro f hne
    unfold sclAsgs
    cases o.useScl with
    | false => simp [lastTwo]
    | true =>
      cases o.xScale with
      | none => simp [lastTwo, asgTwo]
      | some v => simp [lastTwo, asgTwo, hne.symm]
  have hscl1 : ∀ f, lastOne f (sclAsgs o) = none := by
    intro f
    unfold sclAsgs
    cases o.useScl with
    | false => simp [lastOne]
    | true => cases o.xScale <;> simp [lastOne, asgOne]
  refine ⟨?_, ?_, ?_, ?_, ?_, ?_⟩
  · intro b' hb' d' _
    rw [hb] at hb'
    have hb' : b = b' := by injection hb'
    subst hb'
    refine two .beta b d' ?_ (by rw [hbn, hs.beta])
    cases hi : s.info <;>
      simp [storeAsgs, hd, hi, hb, lastTwo_append, lastTwo_opt, lastTwo, asgTwo, hscl]
  · intro t' ht' d' _
    rw [ht] at ht'
    have ht' : t = t' := by injection ht'
    subst ht'
    refine two .theta t d' ?_ (by rw [htn, hs.theta])
    cases hi : s.info <;>
      simp [storeAsgs, hd, hi, ht, lastTwo_append, lastTwo_opt, lastTwo, asgTwo, hscl]
  iterate 4
    · refine one _ _ ?_
      cases hi : s.info <;>
        simp [storeAsgs, hd, hi, lastOne_append, lastOne_opt, lastOne, asgOne, hscl1]

/-- The ratio stored last keeps the sizes, the other rows and the hyperparameters. -/
theorem storeRatio_keeps {dim nBeta n : ℕ} {h : Surr} (hs : Sized dim nBeta n h) (i : ℤ) :
    Sized dim nBeta n (storeRatio i h).1 ∧ (∀ j, ¬ Denotes n i j → SameRow h (storeRatio i h).1 j) ∧
      ∀ hp k, HpRow hp h k → HpRow hp (storeRatio i h).1 k := by
  by_cases hi : ∃ k, Denotes n i k
  · obtain ⟨k, hk⟩ := hi
    obtain ⟨h', e, h1, h2, h3, h4, -⟩ := storeRatio_ok hs hk
    rw [e]
    refine ⟨h1, fun j hj => h2 j (fun e => hj (e ▸ hk)), fun hp k H => ?_⟩
    obtain ⟨a1, a2, a3, a4, a5, a6⟩ := H
    dsimp only
    refine ⟨by rw [h4]; exact a1, by rw [h4]; exact a2, ?_, ?_, ?_, ?_⟩ <;> rw [h3 _ (by decide)] <;> assumption
  · have : storeRatio i h = (h, .error .index) := by
      unfold storeRatio
      rw [hs.one, pyIdx_out (fun k hk => hi ⟨k, hk⟩)]
    rw [this]
    exact ⟨hs, fun _ _ => ⟨fun _ => rfl, fun _ _ _ => rfl, rfl⟩, fun _ _ h => h⟩

/-- A history of `n` rows in use. -/
structure Hist (n : ℕ) (s : Session) (h : Surr) : Prop where
  eq : s.h = some h
  sized : Sized s.obj.st.dim nBetaCoeff n h
  save : s.save = true

/-- A store, raising or not, keeps the sizes and the other rows. -/
theorem store_keeps {n : ℕ} {s : Session} {h : Surr} (H : Hist n s h) (i : ℤ) (a : StoreArgs) :
    ∃ h', Hist n (s.store i a).1 h' ∧ (∀ j, ¬ Denotes n i j → SameRow h h' j) ∧
      ((s.store i a).2 = .ok () → HpFits s.obj.st.dim nBetaCoeff a.hp → ∃ k, Denotes n i k ∧ HpRow a.hp h' k) := by
  have hS : ({ s.surr with hpVals := some a.hp } : SurrObj).save = true := H.save
  have hH : ({ s.surr with hpVals := some a.hp } : SurrObj).h = some h := H.eq
  unfold Session.store storeSurr
  dsimp only at hS hH ⊢
  rw [if_pos hS]
  split
  · rename_i h0; exact absurd (H.eq.symm.trans (show s.h = none from h0)) (by simp)
  · rename_i h0 hh0
    rw [hh0] at hH
    cases hH
    have k1 := runAsgs_keeps (i := i) (storeAsgs { s.surr with hpVals := some a.hp } a) H.sized
    split
    · rename_i h1 e hr
      erw [hr] at k1
      exact ⟨h1, ⟨rfl, k1.1, H.save⟩, k1.2, (fun e => by cases e)⟩
    · rename_i h1 hr
      erw [hr] at k1
      obtain ⟨r1, r2, r3⟩ := storeRatio_keeps k1.1 i
      refine ⟨(storeRatio i h1).1, ⟨rfl, r1, H.save⟩, fun j hj => ?_, fun he hf => ?_⟩
      · refine sameRow_trans (fun f => ?_) (k1.2 j hj) (r2 j hj)
        rw [fld2Cols_eq k1.1 f, fld2Cols_eq H.sized f]
      · obtain ⟨k, hk⟩ := runAsgs_idx H.sized (a := .one .timeOptz a.timeOptz) hr
        refine ⟨k, hk, r3 _ _ ?_⟩
        rw [runAsgs_fold _ H.sized hr k hk]
        rcases Option.eq_none_or_eq_some s.surr.data with hd | ⟨d, hd⟩
        · exfalso
          refine runAsgs_nofail (e := .attribute) _ ?_ hr
          simp [storeAsgs, hd]
        · exact storeAsgs_hp (o := { s.surr with hpVals := some a.hp }) H.sized hd hf k

theorem store_st (i : ℤ) (a : StoreArgs) (s : Session) : (s.store i a).1.obj.st = s.obj.st := rfl

theorem denotes_nat {n j k : ℕ} (h : Denotes n (j : ℤ) k) : k = j := by
  unfold Denotes at h
  omega

theorem sameRow_refl (h : Surr) (k : ℕ) : SameRow h h k := ⟨fun _ => rfl, fun _ _ _ => rfl, rfl⟩

theorem optzHp_keeps {n : ℕ} {s : Session} {h : Surr} (H : Hist n s h) (c : OptzCfg) (q : Oracle) (i : ℤ) :
    (∃ h', Hist n (optzHp c q i s).1 h' ∧ ∀ j, ¬ Denotes n i j → SameRow h h' j) ∧ (optzHp c q i s).1.obj.st = s.obj.st := by
  have same : (∃ h', Hist n s h' ∧ ∀ j, ¬ Denotes n i j → SameRow h h' j) := ⟨h, H, fun j _ => sameRow_refl h j⟩
  have stores : ∀ (t : Session) (_ : Hist n t h) (a : StoreArgs), (∃ h', Hist n (t.store i a).1 h' ∧ ∀ j, ¬ Denotes n i j → SameRow h h' j) := by
    intro t Ht a
    obtain ⟨h', h1, h2, -⟩ := store_keeps Ht i a
    exact ⟨h', h1, h2⟩
  unfold optzHp
  split
  · exact ⟨same, rfl⟩
  · rename_i g hg
    split
    · split
      · exact ⟨same, rfl⟩
      · rename_i a ha
        exact ⟨stores s H a, rfl⟩
    · unfold optzNum
      split
      · exact ⟨same, rfl⟩
      · rename_i info hinfo
        split
        · exact ⟨same, rfl⟩
        · rename_i p hp
          obtain ⟨sc, hsc⟩ := optzVec_obj c q s.obj g info p.x0
          have H' : Hist n { s with obj := { s.obj with scl := sc } } h := ⟨H.eq, H.sized, H.save⟩
          split
          · rename_i o e hq
            rw [hq] at hsc
            dsimp only at hsc
            subst hsc
            exact ⟨⟨h, H', fun j _ => sameRow_refl h j⟩, rfl⟩
          · rename_i o r hq
            rw [hq] at hsc
            dsimp only at hsc
            subst hsc
            unfold finishOptz
            split
            · exact ⟨⟨h, H', fun j _ => sameRow_refl h j⟩, rfl⟩
            · rename_i hp hd
              exact ⟨stores _ H' _, rfl⟩

theorem selectHp_keeps {n : ℕ} {s : Session} {h : Surr} (H : Hist n s h) (c : OptzCfg) (q : Oracle) (m : String) (i : ℤ) (hp : Option HpF) :
    (∃ h', Hist n (selectHp c q m i hp s).1 h' ∧ ∀ j : ℕ, ¬ (m = "optz" ∧ Denotes n i j) → SameRow h h' j) ∧
      (selectHp c q m i hp s).1.obj.st = s.obj.st := by
  have same : ∀ t : Session, t.h = s.h → t.obj.st = s.obj.st → t.save = s.save →
      (∃ h', Hist n t h' ∧ ∀ j : ℕ, ¬ (m = "optz" ∧ Denotes n i j) → SameRow h h' j) ∧ t.obj.st = s.obj.st :=
    fun t e1 e2 e3 => ⟨⟨h, ⟨e1.trans H.eq, by rw [e2]; exact H.sized, e3.trans H.save⟩, fun j _ => sameRow_refl h j⟩, e2⟩
  unfold selectHp
  split
  · split
    · unfold setHpFromIdx
      dsimp only
      split
      · exact same _ rfl rfl rfl
      · split
        · exact same _ rfl rfl rfl
        · exact same _ rfl rfl rfl
    · exact same _ rfl rfl rfl
  · split
    · rename_i hm
      obtain ⟨⟨h', h1, h2⟩, h3⟩ := optzHp_keeps H c q i
      exact ⟨⟨h', h1, fun j hj => h2 j fun e => hj ⟨hm, e⟩⟩, h3⟩
    · split
      · split
        · split <;> exact same _ rfl rfl rfl
        · exact same _ rfl rfl rfl
      · split
        · split <;> exact same _ rfl rfl rfl
        · exact same _ rfl rfl rfl

theorem store_none {s : Session} (hs : s.h = none) (i : ℤ) (a : StoreArgs) : (s.store i a).1.h = none := by
  unfold Session.store storeSurr
  dsimp only
  split
  · split
    · exact hs
    · rename_i h0 hh
      exact absurd (hs.symm.trans hh) (by simp)
  · exact hs

theorem optzHp_none {s : Session} (hs : s.h = none) (c : OptzCfg) (q : Oracle) (i : ℤ) : (optzHp c q i s).1.h = none := by
  unfold optzHp
  split
  · exact hs
  · rename_i g hg
    split
    · split
      · exact hs
      · exact store_none hs _ _
    · unfold optzNum
      split
      · exact hs
      · split
        · exact hs
        · split
          · exact hs
          · unfold finishOptz
            split
            · exact hs
            · refine store_none ?_ _ _
              exact hs

theorem selectHp_none {s : Session} (hs : s.h = none) (c : OptzCfg) (q : Oracle) (m : String) (i : ℤ) (hp : Option HpF) :
    (selectHp c q m i hp s).1.h = none := by
  unfold selectHp
  split
  · split
    · unfold setHpFromIdx
      dsimp only
      split
      · exact hs
      · split <;> exact hs
    · exact hs
  · split
    · exact optzHp_none hs c q _
    · split
      · split
        · split <;> exact hs
        · exact hs
      · split
        · split <;> exact hs
        · exact hs

/-- Cutting the history. -/
theorem finish_hist {n : ℕ} {s : Session} {h : Surr} (H : Hist n s h) (m : ℤ) :
    ∃ h', Hist (sliceLen m n) (s.put (finishSurr m s.surr).1) h' ∧ ∀ k, SameRow h h' k := by
  unfold finishSurr
  rw [if_pos (show s.surr.save = true from H.save), show s.surr.h = some h from H.eq]
  refine ⟨_, ⟨rfl, ⟨fun f => ?_, fun f => ?_, H.sized.beta, H.sized.theta, H.sized.xvec, ?_⟩, H.save⟩,
    fun k => ⟨fun _ => rfl, fun _ _ _ => rfl, rfl⟩⟩
  · show sliceLen m (h.one f).n = _; rw [H.sized.one]
  · show sliceLen m (h.two f).r = _; rw [H.sized.two_r]
  · show sliceLen m h.atMax.n = _; rw [H.sized.atMax]

/-- Loading, raising or not, keeps the size of the history and the rows that the data do not reach. -/
theorem load_hist {n : ℕ} {s : Session} {h : Surr} (H : Hist n s h) (d : Option Exported) :
    ∃ h', Hist n (s.put (loadSurr d s.surr).1) h' ∧
      ∀ k : ℕ, (∀ e, d = some e → (e.h.two .beta).r * (e.h.two .beta).c ≤ k) → SameRow h h' k := by
  have same : ∃ h', Hist n (s.put s.surr) h' ∧
      ∀ k : ℕ, (∀ e, d = some e → (e.h.two .beta).r * (e.h.two .beta).c ≤ k) → SameRow h h' k :=
    ⟨h, ⟨H.eq, H.sized, H.save⟩, fun k _ => sameRow_refl h k⟩
  unfold loadSurr
  rw [if_pos (show s.surr.save = true from H.save)]
  split
  · exact same
  · rename_i e
    split
    · split
      · exact same
      · rename_i h0 hh
        have : h0 = h := by
          have := H.eq.symm.trans (show s.h = some h0 from hh)
          exact (Option.some.inj this).symm
        subst this
        obtain ⟨a1, a2⟩ := runLoads_any (n := (e.h.two .beta).r * (e.h.two .beta).c) (src := e.h) loadAsgs H.sized
        exact ⟨(runLoads ((e.h.two .beta).r * (e.h.two .beta).c) e.h loadAsgs h0).1, ⟨rfl, a1, H.save⟩,
          fun k hk => a2 k (hk e rfl)⟩
    · exact same

theorem finish_none {s : Session} (hs : s.h = none) (m : ℤ) : (s.put (finishSurr m s.surr).1).h = none := by
  unfold finishSurr
  rw [show s.surr.h = none from hs]
  split <;> exact hs

theorem load_none {s : Session} (hs : s.h = none) (d : Option Exported) : (s.put (loadSurr d s.surr).1).h = none := by
  unfold loadSurr
  rw [show s.surr.h = none from hs]
  split
  · split
    · exact hs
    · split <;> exact hs
  · exact hs

theorem run_keeps {n : ℕ} {s : Session} {h : Surr} (H : Hist n s h) {k : ℕ} {a : SOp} (ha : a.keeps k) :
    (∃ n' h', Hist n' (a.run s).1 h' ∧ SameRow h h' k ∧ (k < n → k < n')) ∧ (a.run s).1.obj.st = s.obj.st := by
  have same : ∀ t : Session, t.h = s.h → t.obj.st = s.obj.st → t.save = s.save →
      (∃ n' h', Hist n' t h' ∧ SameRow h h' k ∧ (k < n → k < n')) ∧ t.obj.st = s.obj.st :=
    fun t e1 e2 e3 => ⟨⟨n, h, ⟨e1.trans H.eq, by rw [e2]; exact H.sized, e3.trans H.save⟩, sameRow_refl h k, id⟩, e2⟩
  cases a with
  | wellcond m => exact same _ rfl (setWellcond_keeps m s.obj).1 rfl
  | data d => exact same _ rfl (congrArg Prod.fst (setData_frame d s.obj)) rfl
  | init n => exact ha.elim
  | hpara c q m i hp cc =>
    obtain ⟨e, pe, he⟩ := setHpara_fst c q m i hp cc s
    obtain ⟨⟨h', h1, h2⟩, h3⟩ := selectHp_keeps H c q m i hp
    show (∃ n' h', Hist n' (setHpara c q m i hp cc s).1 h' ∧ _) ∧ (setHpara c q m i hp cc s).1.obj.st = _
    rw [he]
    refine ⟨⟨n, h', ⟨h1.eq, h1.sized, h1.save⟩, h2 k ?_, id⟩, h3⟩
    rintro ⟨hm, hd⟩
    obtain ⟨i0, i1⟩ := ha hm
    obtain ⟨hk, hd | hd⟩ := hd
    · exact i1 hd
    · omega
  | custom hp =>
    show (∃ n' h', Hist n' (setCustomHp hp s).1 h' ∧ _) ∧ (setCustomHp hp s).1.obj.st = _
    unfold setCustomHp
    split
    · exact same _ rfl rfl rfl
    · split <;> exact same _ rfl rfl rfl
    · exact same _ rfl rfl rfl
  | finish m =>
    have hm : (k : ℤ) < m := ha
    obtain ⟨h', H', S'⟩ := finish_hist H m
    obtain ⟨x, hx⟩ := finish_frame m s.surr
    refine ⟨⟨_, h', H', S' k, fun hk => ?_⟩, ?_⟩
    · unfold sliceLen
      rw [if_neg (by omega)]
      omega
    · show (s.put (finishSurr m s.surr).1).obj.st = _
      rw [hx, put_hist]
  | load d =>
    obtain ⟨h', H', S'⟩ := load_hist H d
    obtain ⟨x, hx⟩ := load_frame d s.surr
    refine ⟨⟨n, h', H', S' k fun e he => ?_, id⟩, ?_⟩
    · subst he
      exact Int.ofNat_le.mp ha
    · show (s.put (loadSurr d s.surr).1).obj.st = _
      rw [hx, put_hist]

theorem runOps_keeps {k : ℕ} : ∀ (l : List SOp) {n : ℕ} {s : Session} {h : Surr}, Hist n s h → (∀ a ∈ l, a.keeps k) →
    (∃ n' h', Hist n' (runOps l s) h' ∧ SameRow h h' k ∧ (k < n → k < n')) ∧ (runOps l s).obj.st = s.obj.st
  | [], n, s, h, H, _ => ⟨⟨n, h, H, sameRow_refl h k, id⟩, rfl⟩
  | a :: l, n, s, h, H, hl => by
    obtain ⟨⟨n1, h1, H1, S1, k1⟩, e1⟩ := run_keeps H (hl a (List.mem_cons_self ..))
    obtain ⟨⟨n2, h2, H2, S2, k2⟩, e2⟩ := runOps_keeps l H1 (fun b hb => hl b (List.mem_cons_of_mem _ hb))
    refine ⟨⟨n2, h2, H2, sameRow_trans (fun f => ?_) S1 S2, fun hk => k2 (k1 hk)⟩, e2.trans e1⟩
    rw [fld2Cols_eq H1.sized f, fld2Cols_eq H.sized f, e1]

/-- In every program a history that exists has as many rows (as it was initialised with, or cut to). -/
theorem runOps_hist : ∀ (l : List SOp) {s : Session}, (∀ h, s.h = some h → ∃ n, Hist n s h) →
    ∀ h, (runOps l s).h = some h → ∃ n, Hist n (runOps l s) h
  | [], _, hs => hs
  | a :: l, s, hs => by
    refine runOps_hist l fun h hh => ?_
    by_cases hi : ∃ n, a = .init n
    · obtain ⟨n, rfl⟩ := hi
      obtain ⟨h', e1, e2, e3, -⟩ := init_sized n s.surr
      have : (s.init n).h = some h' := e1
      rw [show (SOp.run s (.init n)).1.h = (s.init n).h from rfl, this] at hh
      cases hh
      exact ⟨n, e1, e2, e3⟩
    · cases hsh : s.h with
      | none =>
        exfalso
        have key : (a.run s).1.h = none := by
          cases a with
          | wellcond m => exact hsh
          | data d => exact hsh
          | init n => exact (hi ⟨n, rfl⟩).elim
          | hpara c q m i hp cc =>
            obtain ⟨e, pe, he⟩ := setHpara_fst c q m i hp cc s
            show (setHpara c q m i hp cc s).1.h = none
            rw [he]
            exact selectHp_none hsh c q m i hp
          | custom hp =>
            show (setCustomHp hp s).1.h = none
            unfold setCustomHp
            split
            · exact hsh
            · split <;> exact hsh
            · exact hsh
          | finish m => exact finish_none hsh m
          | load d => exact load_none hsh d
        rw [key] at hh; cases hh
      | some h0 =>
        obtain ⟨n, H⟩ := hs h0 hsh
        have key : ∃ n' h', Hist n' (a.run s).1 h' := by
          have other : ∀ k : ℕ, a.keeps k → ∃ n' h', Hist n' (a.run s).1 h' := fun k hk => by
            obtain ⟨⟨n', h', H', -⟩, -⟩ := run_keeps H hk
            exact ⟨n', h', H'⟩
          cases a with
          | init n => exact (hi ⟨n, rfl⟩).elim
          | hpara c q m i hp cc =>
            obtain ⟨e, pe, he⟩ := setHpara_fst c q m i hp cc s
            obtain ⟨⟨h', h1, -⟩, -⟩ := selectHp_keeps H c q m i hp
            refine ⟨n, h', ?_⟩
            show Hist n (setHpara c q m i hp cc s).1 h'
            rw [he]
            exact ⟨h1.eq, h1.sized, h1.save⟩
          | wellcond m => exact other 0 trivial
          | data d => exact other 0 trivial
          | custom hp => exact other 0 trivial
          | finish m =>
            obtain ⟨h', H', -⟩ := finish_hist H m
            exact ⟨_, h', H'⟩
          | load d =>
            obtain ⟨h', H', -⟩ := load_hist H d
            exact ⟨_, h', H'⟩
        obtain ⟨n', h', H'⟩ := key
        rw [H'.eq] at hh; cases hh
        exact ⟨n', H'⟩

theorem upToDate_beta {cc : Bool} {t : Session} (h : UpToDate cc t) {hp : HpF} (hp1 : t.hp = some hp) : hp.beta ≠ none := by
  obtain ⟨h', v, g, e, e1, e2, e3, e4, -⟩ := h
  rw [hp1] at e1
  cases e1
  intro hb
  unfold HpF.nums at e2
  rw [hb] at e2
  have hv : v.beta = none := by
    cases h2 : optNums hp.theta with
    | none => rw [h2] at e2; cases e2
    | some t =>
      cases h3 : optNum hp.varK with
      | none => rw [h2, h3] at e2; cases e2
      | some k =>
        cases h4 : optNum hp.varFval with
        | none => rw [h2, h3, h4] at e2; cases e2
        | some f =>
          cases h5 : optNum hp.varFgrad with
          | none => rw [h2, h3, h4, h5] at e2; cases e2
          | some g => rw [h2, h3, h4, h5] at e2; cases e2; rfl
  unfold setupEvalModel at e4
  cases h1 : calcRtensor g.x g.x with
  | error e => rw [h1] at e4; cases e4
  | ok R => rw [h1, ok_bind, hv] at e4; cases e4

theorem ofVals_fits {dim : ℕ} {hv : HpVals} (ht : ∃ th, hv.theta = some th ∧ th.n = dim) (hb : ∃ b, hv.beta = some b ∧ b.n = nBetaCoeff) :
    HpFits dim nBetaCoeff (HpF.ofVals hv) := by
  obtain ⟨th, h1, h2⟩ := ht
  obtain ⟨b, h3, h4⟩ := hb
  exact ⟨⟨FVec.ofArr b, by simp [HpF.ofVals, h3], h4⟩, ⟨FVec.ofArr th, by simp [HpF.ofVals, h1], h2⟩⟩

theorem optz_fits {c : OptzCfg} {q : Oracle} {i : ℤ} {hp : Option HpF} {cc : Bool} {st : GpStatic} {s t : Session} (hs : SInv st s)
    (h : setHpara c q "optz" i hp cc s = (t, .ok ())) :
    ∃ hv, t.hp = some (HpF.ofVals hv) ∧ HpFits st.dim nBetaCoeff (HpF.ofVals hv) := by
  obtain ⟨h1, hv, h2, -, h3, h4⟩ := C66_optz hs h
  refine ⟨hv, h2, ?_⟩
  rcases Nat.lt_or_ge st.constN s.obj.nEval with hc | hc
  · obtain ⟨info, k, v, f, g, gp, x, hp0, r, -, -, -, -, -, -, ⟨th, e1, e2⟩, -, e3, e4, e5, -⟩ := (h4 hc).ex
    refine ofVals_fits ⟨th, by rw [e3]; exact e1, e2⟩ ?_
    cases hb : r.1.beta with
    | none =>
      exact absurd (by rw [show (HpF.ofVals hv).beta = hv.beta.map FVec.ofArr from rfl, e4.mpr hb]; rfl) (upToDate_beta h1 h2)
    | some β =>
      obtain ⟨b, e6, e7, -⟩ := e5 β hb
      exact ⟨b, e6, e7⟩
  · obtain ⟨g, -, rfl⟩ := h3 hc
    exact ofVals_fits ⟨_, rfl, rfl⟩ ⟨_, rfl, rfl⟩

theorem hpRow_same {dim n : ℕ} {hp : HpF} (hf : HpFits dim nBetaCoeff hp) {h h' : Surr} (hs : Sized dim nBetaCoeff n h) {k : ℕ}
    (H : HpRow hp h k) (S : SameRow h h' k) : HpRow hp h' k := by
  obtain ⟨b, hb, hbn⟩ := hf.beta
  obtain ⟨t, ht, htn⟩ := hf.theta
  obtain ⟨S1, S2, -⟩ := S
  obtain ⟨a1, a2, a3, a4, a5, a6⟩ := H
  refine ⟨fun b' e d hd => ?_, fun t' e d hd => ?_, (S1 _).trans a3, (S1 _).trans a4, (S1 _).trans a5, (S1 _).trans a6⟩
  · rw [hb] at e; cases e
    rw [S2 .beta d (by rw [hs.beta, ← hbn]; exact hd)]
    exact a1 b hb d hd
  · rw [ht] at e; cases e
    rw [S2 .theta d (by rw [hs.theta, ← htn]; exact hd)]
    exact a2 t ht d hd

/-- **C71.** Take any program on a new object that initialises the history, then a successful optimisation at iteration `i`, which
stands for the row `k` of the history (`k` is `i`, or counts from the end of the history if `i` is negative), then any
further calls except a new initialisation of the history and another optimisation at iteration `k` or at a negative one: other
optimisations, successful or not, new data, other conditioning methods, other hyperparameters, `finish_optz_surr` with more than `k`
iterations, and loading of exported data that do not reach iteration `k`, successful or not. Then `set_hpara('stored', k)` makes the
optimised hyperparameters the current ones again. (That a prediction model can then be set up depends on the data.) -/
theorem C71_optimised_restored {st : GpStatic} (hlo : st.log.var = true) (hi : 0 < st.varKInit) {m : Option String} {s0 : Session}
    (h0 : newSession st m = .ok s0) (l0 : List SOp) (hl0 : ∀ a ∈ l0, a.posSet) {h : Surr} (hh : (runOps l0 s0).h = some h)
    {c : OptzCfg} {q : Oracle} {i : ℤ} {hp : Option HpF} {cc : Bool} {t : Session}
    (ht : setHpara c q "optz" i hp cc (runOps l0 s0) = (t, .ok ())) :
    ∃ hp1 k, t.hp = some hp1 ∧ Denotes (h.two .theta).r i k ∧ ∀ (l : List SOp) (_ : ∀ a ∈ l, a.keeps k), ∀ c' q' hp' cc',
      ∃ r, (setHpara c' q' "stored" k hp' cc' (runOps l t)).1.hp = some r ∧ Restored hp1 r := by
  have hinv := runOps_inv hlo hi l0 (new_inv h0) hl0
  have hn0 : ∀ h, s0.h = some h → ∃ n, Hist n s0 h := by
    intro h hh
    unfold newSession at h0
    cases ho : newGp st m with
    | error e => rw [ho] at h0; cases h0
    | ok o => rw [ho, ok_bind] at h0; cases h0; cases hh
  obtain ⟨n, H⟩ := runOps_hist l0 hn0 h hh
  obtain ⟨hv, e1, hf⟩ := optz_fits hinv ht
  obtain ⟨-, t', e, pe, h2, h3⟩ := setHpara_ok ht
  simp only [selectHp] at h2
  rw [if_neg (by decide), if_pos trivial] at h2
  obtain ⟨hv', O⟩ := optz_outcome hinv.info h2
  obtain ⟨sc, a, ha, hst⟩ := O.store
  have hhv : HpF.ofVals hv' = HpF.ofVals hv := by
    have := O.hp
    rw [h3] at e1
    rw [show t'.hp = some (HpF.ofVals hv) from e1] at this
    exact (Option.some.inj this).symm
  have H' : Hist n { (runOps l0 s0) with obj := { (runOps l0 s0).obj with scl := sc } } h := ⟨H.eq, H.sized, H.save⟩
  obtain ⟨h1, H1, -, row⟩ := store_keeps H' i a
  rw [hst] at H1 row
  have hst' : (runOps l0 s0).obj.st = st := hinv.st
  obtain ⟨k, hd, hrow⟩ := row rfl (by rw [ha, hhv]; rw [hst']; exact hf)
  rw [ha, hhv] at hrow
  refine ⟨_, k, e1, by rw [H.sized.two_r]; exact hd, fun l hl c' q' hp' cc' => ?_⟩
  have hts : t'.obj.st = st := by
    obtain ⟨sc', h', e⟩ := O.frame
    rw [e]; exact hst'
  have H2 : Hist n t h1 := by rw [h3]; exact ⟨H1.eq, H1.sized, H1.save⟩
  have hts' : t.obj.st = st := by rw [h3]; exact hts
  obtain ⟨⟨n4, h4, H4, S4, k4⟩, e4⟩ := runOps_keeps l H2 hl
  have hsz : Sized st.dim nBetaCoeff n h1 := by rw [← hts]; exact H1.sized
  have hrow' := hpRow_same hf hsz hrow S4
  obtain ⟨⟨e, pp, r, e5, e6⟩, -⟩ := (C66_stored c' q' hp' cc' H4.eq H4.sized).1 k (HpF.ofVals hv) (k4 hd.1)
    (by rw [e4, hts']; exact hf) hrow'
  exact ⟨r, by rw [e5], e6⟩

/-! ### Calls that succeed -/

theorem ofVals_nums (hv : HpVals) : (HpF.ofVals hv).nums = some hv := by
  have h1 : ∀ v : Option Arr1, optNums (v.map FVec.ofArr) = some v := by
    rintro (_ | v)
    · rfl
    · simp [optNums, FVec.nums, FVec.ofArr]
  have h2 : ∀ v : Option ℝ, optNum (v.map some) = some v := by rintro (_ | v) <;> rfl
  have h3 : ∀ v : Option ℝ, (v.map some).join = v := by rintro (_ | v) <;> rfl
  unfold HpF.nums HpF.ofVals
  simp only [h1, h2, h3]
  rfl

theorem setup_total {s : Session} {h : HpF} {hp : HpVals} {g : Gp} {v β : ℝ} (h1 : s.hp = some h) (h2 : h.nums = some hp)
    (h3 : s.obj.view = .ok g) (hr : Ready g hp v β) (cc : Bool) : ∃ e p, s.setup cc = ({ s with ev := e, setupHp := p }, .ok ()) := by
  obtain ⟨b, hb, hbn, rfl⟩ := hr.beta
  obtain ⟨N, K, st', h4, -⟩ := GP.setup_ok hr.ok hr.adm hr.noise hr.precon hr.ne hr.vpos hr.varK hb hbn cc
  exact ⟨_, _, by simp only [Session.setup, Session.setupWith, h1, h2, h3, h4]; rfl⟩

/-- **C66, `'set'` accepts admissible hyperparameters.** If the data are ready for prediction with the hyperparameters, the call
succeeds. -/
theorem C66_set_total (c : OptzCfg) (q : Oracle) (i : ℤ) {s : Session} {g : Gp} (hg : s.obj.view = .ok g) {h : HpF} {hp : HpVals}
    (hn : h.nums = some hp) {v β : ℝ} (hr : Ready g hp v β) (cc : Bool) :
    ∃ t, setHpara c q "set" i (some h) cc s = (t, .ok ()) ∧ t.hp = some h ∧ UpToDate cc t := by
  obtain ⟨e, pe, he⟩ := setup_total (s := { s with hp := some h }) rfl hn hg hr cc
  have : setHpara c q "set" i (some h) cc s = ({ s with hp := some h, ev := e, setupHp := pe }, .ok ()) := by
    have hse : selectHp c q "set" i (some h) s = ({ s with hp := some h }, .ok ()) := by simp [selectHp]
    unfold setHpara
    rw [hse]
    exact he
  exact ⟨_, this, rfl, (setHpara_ok this).1⟩

theorem few_points_cfg {st : GpStatic} {o o' : GpObj} (hcfg : CfgOk st o) (hi : InitOk st) (hst : NugOk st) {d : DataIn}
    (hX : PointsFit st.dim d) (hn : 0 < d.fval.size) (h : setData d o = (o', .ok ())) (hk : st.useGrad = true ∨ ∃ S, NoiseKnown d.stdFval S)
    (hm : st.kernel = .ratQuad → numGrads d = d.fval.size) (hc : d.fval.size ≤ st.constN) {s : Session} (hs : s.obj = o') {n : ℕ} {hh : Surr}
    (H : Hist n s hh) {i : ℤ} {k : ℕ} (hin : Denotes n i k) (c : OptzCfg) (q : Oracle) (hp : Option HpF) (cc : Bool) :
    ∃ t g, setHpara c q "optz" i hp cc s = (t, .ok ()) ∧ UpToDate cc t ∧ o'.view = .ok g ∧ t.hp = some (HpF.ofVals (getInitHp st g)) ∧
      t.obj = o' := by
  obtain ⟨hL, hC, -⟩ := setData_loaded h
  have hst' : o.st = st := hcfg.eq
  have hst2 : o'.st = st := hL.st.trans hst'
  obtain ⟨-, g, -, hg, -⟩ := loaded_view hL hC (by rw [hst']; exact hX) (by rw [hst']; exact cfg_scl_grad hcfg)
  have hR := initReady_cfg hcfg hi hst hX hn h hk hm hg
  have hgs : s.obj.view = .ok g := by rw [hs]; exact hg
  have hss : s.obj.st = st := by rw [hs]; exact hst2
  obtain ⟨R, hRt, -⟩ := calcRtensor_ok (X := g.x) (Y := g.x) rfl
  obtain ⟨Na, K, out, -, -, -, -, -, -, hout, -⟩ := calcAllK_ok hR.ok hR.adm hR.noise hR.precon hR.ne hRt false true none false
    (v := st.varKInit) hi.varK ⟨⟨st.varKInit, rfl, fun _ => rfl⟩, fun h => by cases h⟩
  have hia : ∃ a, initArgs s.obj.st g = .ok a ∧ a.hp = HpF.ofVals (getInitHp st g) := by
    rw [hss]
    unfold initArgs
    simp only [hRt, ok_bind, hout]
    exact ⟨_, rfl, rfl⟩
  obtain ⟨a, ha, hap⟩ := hia
  have hfit : HpFits st.dim nBetaCoeff a.hp := by rw [hap]; exact ofVals_fits ⟨_, rfl, rfl⟩ ⟨_, rfl, rfl⟩
  have hready : StoreReady s.surr := by
    constructor
    · obtain ⟨f, hf, -⟩ := hL.fval
      refine ⟨⟨f, some s.obj.etaKbase, s.obj.etaKgrad, s.obj.vminInit⟩, ?_⟩
      simp only [Session.surr, hs, hf, Option.map_some]
    · intro hu
      have hu' : o.useScl = true := by
        rw [← hL.useScl, ← hs]; exact hu
      obtain ⟨sc, h1, h2, h3, -⟩ := hL.scl hu'
      obtain ⟨X, hX1, hX2, -⟩ := hL.x
      refine ⟨sc.xScale, ?_, ?_⟩
      · simp only [Session.surr, hs, h1, Option.map_some]
      · rw [(reach_images h2).scale_n]
        rw [hX1] at h3
        cases h3
        have : d.x.shape = [d.fval.size, st.dim] := hX
        rw [this] at hX2
        simp only [List.cons.injEq, and_true] at hX2
        show sc.xInit.c = s.obj.st.dim
        rw [hss]; exact hX2.2.symm
  have hst3 : ∃ t, s.store i a = (t, .ok ()) := by
    obtain ⟨h', e1, -⟩ := store_ok (o := s.surr) H.save H.eq H.sized hready (s := a) (by
      show HpFits s.obj.st.dim nBetaCoeff a.hp; rw [hss]; exact hfit) (i := i) (k := k) hin
    unfold Session.store
    rw [e1]
    exact ⟨_, rfl⟩
  obtain ⟨t, ht⟩ := hst3
  have ho : optzHp c q i s = (t, .ok ()) := by
    unfold optzHp
    rw [hgs]
    dsimp only
    rw [if_pos (by rw [hss, hs, hL.nEval]; exact hc), ha]
    exact ht
  obtain ⟨h', e2⟩ := store_frame ht
  rw [hap] at e2
  obtain ⟨e, pe, he⟩ := setup_total (s := t) (h := HpF.ofVals (getInitHp st g)) (g := g) (by rw [e2]) (ofVals_nums _)
    (by rw [e2]; exact hgs) hR cc
  have hfin : setHpara c q "optz" i hp cc s = ({ t with ev := e, setupHp := pe }, .ok ()) := by
    have hse : selectHp c q "optz" i hp s = (t, .ok ()) := by
      simp only [selectHp]
      rw [if_neg (by decide), if_pos trivial]
      exact ho
    unfold setHpara
    rw [hse]
    exact he
  exact ⟨_, g, hfin, (setHpara_ok hfin).1, hg, by rw [e2], by rw [e2]; exact hs⟩

/-- **C72.** With at most `hp_const_n_eval` points, `set_hpara('optz')` succeeds at every iteration of the initialised history (a negative
one counts from its end), for every data set that was accepted (points of the right shape; the noise in the values known unless gradients are used; no point left out by the mask
with the rational quadratic kernel), whatever the optimiser: it is not called, and the hyperparameters are the initial ones. -/
theorem C72_few_points {st : GpStatic} {o o' : GpObj} (hr : GpReach st o) (hi : InitOk st) (hst : NugOk st) {d : DataIn}
    (hX : PointsFit st.dim d) (hn : 0 < d.fval.size) (h : setData d o = (o', .ok ())) (hk : st.useGrad = true ∨ ∃ S, NoiseKnown d.stdFval S)
    (hm : st.kernel = .ratQuad → numGrads d = d.fval.size) (hc : d.fval.size ≤ st.constN) {s : Session} (hs : s.obj = o') {n : ℕ} {hh : Surr}
    (H : Hist n s hh) {i : ℤ} {k : ℕ} (hin : Denotes n i k) (c : OptzCfg) (q : Oracle) (hp : Option HpF) (cc : Bool) :
    ∃ t g, setHpara c q "optz" i hp cc s = (t, .ok ()) ∧ UpToDate cc t ∧ o'.view = .ok g ∧ t.hp = some (HpF.ofVals (getInitHp st g)) ∧
      t.obj = o' :=
  few_points_cfg (reach_cfgOk hr) hi hst hX hn h hk hm hc hs H hin c q hp cc

/-! ### Negative iterations -/

theorem asg_run_same {dim nBeta n k : ℕ} {h : Surr} (hs : Sized dim nBeta n h) {i : ℤ} (hd : Denotes n i k) (a : Asg) :
    a.run i h = a.run k h := by
  have e1 : pyIdx i n = .ok k := pyIdx_denotes.mpr hd
  have e2 : pyIdx (k : ℤ) n = .ok k := pyIdx_denotes.mpr ⟨hd.1, .inl rfl⟩
  cases a with
  | one f v => unfold Asg.run; dsimp only; rw [hs.one, e1, e2]
  | two f v => unfold Asg.run; dsimp only; rw [hs.two_r, e1, e2]
  | atMax b => unfold Asg.run; dsimp only; rw [hs.atMax, e1, e2]
  | fail e => rfl

theorem runAsgs_same {dim nBeta n k : ℕ} {i : ℤ} (hd : Denotes n i k) : ∀ (l : List Asg) {h : Surr}, Sized dim nBeta n h →
    runAsgs i l h = runAsgs k l h
  | [], _, _ => rfl
  | a :: l, h, hs => by
    unfold runAsgs
    rw [asg_run_same hs hd a]
    cases hr : a.run (k : ℤ) h with
    | error e => rfl
    | ok h' =>
      obtain ⟨k', hk', rfl⟩ := asg_run_row hs hr
      have := (runAsgs_keeps (i := (k : ℤ)) [a] hs).1
      unfold runAsgs at this
      rw [hr] at this
      exact runAsgs_same hd l this

theorem storeRatio_same {dim nBeta n k : ℕ} {h : Surr} (hs : Sized dim nBeta n h) {i : ℤ} (hd : Denotes n i k) :
    storeRatio i h = storeRatio k h := by
  unfold storeRatio
  rw [hs.one, hs.one, pyIdx_denotes.mpr hd, pyIdx_denotes.mpr (⟨hd.1, .inl rfl⟩ : Denotes n (k : ℤ) k)]
  dsimp only
  split
  · split
    · exact runAsgs_same hd _ hs
    · rfl
  · rfl

theorem store_same {n k : ℕ} {s : Session} {h : Surr} (H : Hist n s h) {i : ℤ} (hd : Denotes n i k) (a : StoreArgs) :
    s.store i a = s.store k a := by
  unfold Session.store storeSurr
  dsimp only
  rw [if_pos (show s.surr.save = true from H.save), if_pos (show s.surr.save = true from H.save), show s.surr.h = some h from H.eq]
  dsimp only
  rw [runAsgs_same hd _ H.sized]
  have k1 := (runAsgs_keeps (i := (k : ℤ)) (storeAsgs { s.surr with hpVals := some a.hp } a) H.sized).1
  cases hr : runAsgs (k : ℤ) (storeAsgs { s.surr with hpVals := some a.hp } a) h with
  | mk h1 r =>
    erw [hr] at k1
    cases r with
    | error e => erw [hr]
    | ok u =>
      erw [hr]
      dsimp only
      rw [storeRatio_same k1 hd]

/-- **C66, negative iterations.** In a history of `n` rows, optimisation at iteration `-j` (`j` at most `n`) does what optimisation at
iteration `n - j` does, except that the starting points come from the medians of all rows before it (and not only of the last
`hp_median_n_idx`). -/
theorem C66_negative_iteration (c : OptzCfg) (q : Oracle) (hp : Option HpF) (cc : Bool) {n k : ℕ} {s : Session} {h : Surr}
    (H : Hist n s h) {i : ℤ} (hi : i < 0) (hk : i + n = k) :
    setHpara c q "optz" i hp cc s = setHpara { c with x0 := { c.x0 with medianN := n } } q "optz" k hp cc s := by
  have hd : Denotes n i k := ⟨by omega, .inr hk⟩
  have key : optzHp c q i s = optzHp { c with x0 := { c.x0 with medianN := n } } q k s := by
    unfold optzHp
    split
    · rfl
    · rename_i g hg
      split
      · split
        · rfl
        · exact store_same H hd _
      · unfold optzNum
        split
        · rfl
        · rename_i info hinfo
          have hp : startPts c q i s g info = startPts { c with x0 := { c.x0 with medianN := n } } q k s g info := by
            unfold startPts
            rw [H.eq]
            dsimp only
            rw [H.sized.two_r]
            simp only [histCount, histStop, Int.natCast_nonneg, if_true, Int.toNat_natCast, if_neg (not_le.mpr hi)]
            rw [show ((n : ℤ) + i).toNat = k by omega]
            rfl
          rw [hp]
          generalize hr : startPts { c with x0 := { c.x0 with medianN := n } } q k s g info = res
          cases res with
          | error e => rfl
          | ok p =>
            dsimp only
            have ho : optzVec { c with x0 := { c.x0 with medianN := n } } q s.obj g info p.x0 = optzVec c q s.obj g info p.x0 := rfl
            rw [ho]
            obtain ⟨sc, hsc⟩ := optzVec_obj c q s.obj g info p.x0
            generalize hq : optzVec c q s.obj g info p.x0 = y at hsc
            obtain ⟨o, r⟩ := y
            dsimp only at hsc
            subst hsc
            cases r with
            | error e => rfl
            | ok r =>
              have H' : Hist n { s with obj := { s.obj with scl := sc } } h := ⟨H.eq, H.sized, H.save⟩
              dsimp only
              unfold finishOptz
              have hdd : decodeSol { c with x0 := { c.x0 with medianN := n } } q { s.obj with scl := sc } info r.1 =
                decodeSol c q { s.obj with scl := sc } info r.1 := rfl
              rw [hdd]
              generalize decodeSol c q { s.obj with scl := sc } info r.1 = z
              cases z with
              | error e => rfl
              | ok hv => exact store_same H' hd _
  unfold setHpara
  simp only [selectHp]
  rw [if_neg (by decide), if_pos trivial, if_neg (by decide), if_pos trivial, key]

/-! ### A concrete program -/

/-- One point with its gradient, noise-free gradient, unknown noise in the value. -/
def exOne : DataIn where
  x := Nd.of2 1 2 fun _ j => j
  fval := Nd.of1 1 fun _ => 5
  stdFval := some (Nd.of1 1 fun _ => none)
  grad := some (Nd.of2 1 2 fun _ j => j)
  stdGrad := some (Nd.of2 1 2 fun _ _ => some 0)

theorem exOne_consistent : Consistent 2 true exOne := by
  refine ⟨rfl, (fun b h => by cases h), rfl, fun G hG => ?_, fun S hS => ?_, fun _ S hS => ?_⟩
  · cases hG; rfl
  · have := hS.1; cases this; rfl
  · have := hS.1; cases this; rfl

/-- A program that meets the hypotheses of C66, C71 and C72: a new object with any conditioning method, data with one point, a history
of three rows, optimisation at iteration 0 or at iteration -3 (which is the same row; it succeeds for every optimiser and sampler);
then a failing call, other hyperparameters with a negative prior variance, new data, the history cut to two rows and a failing load;
then iteration 0 is restored, with the mean 5. -/
example {m : String} (hm : m ∈ wcAvail) (c : OptzCfg) (q : Oracle) {i : ℤ} (hi : i = 0 ∨ i = -3) : ∃ s0 t, newSession exStatic (some m) = .ok s0 ∧
    setHpara c q "optz" i none true (runOps [.data exOne, .init 3] s0) = (t, .ok ()) ∧ UpToDate true t ∧
    ∃ hp1, t.hp = some hp1 ∧ hp1.varK = some (some 1) ∧
      ∀ h : HpF, ∃ r, (setHpara c q "stored" 0 none true (runOps [.hpara c q "set" 1 none true, .hpara c q "set" 1 (some ({ h with varK := some (some (-1)) } : HpF)) true,
        .data exData, .finish 2, .load none] t)).1.hp = some r ∧ Restored hp1 r ∧ r.varK = some (some 1) := by
  have hi3 : Denotes 3 i 0 := by
    unfold Denotes
    omega
  obtain ⟨o, ho⟩ := newGp_total exStatic hm
  have hr : GpReach exStatic o := .new ho
  obtain ⟨o', g, h1, -, -, h2, -⟩ := C62_accepts hr exStatic_ok.1 exOne_consistent rfl (by decide)
    (fun _ S hS => by decide) (fun _ S hS => by cases hS; rfl)
  have hs0 : newSession exStatic (some m) = .ok { obj := o } := by unfold newSession; rw [ho]; rfl
  set s0 : Session := { obj := o } with hs0d
  have hst' : o'.st = exStatic := ((setData_loaded h1).1.st).trans (reach_cfgOk hr).eq
  have hrun : runOps [.data exOne, .init 3] s0 = ({ s0 with obj := o' } : Session).init 3 := by
    simp only [runOps, SOp.run, Session.lift, hs0d, h1]
  obtain ⟨hh, i1, i2, i3, -⟩ := init_sized 3 ({ s0 with obj := o' } : Session).surr
  have H : Hist 3 (runOps [.data exOne, .init 3] s0) hh := by
    rw [hrun]; exact ⟨i1, i2, i3⟩
  obtain ⟨t, g', h3, h4, h5, h6, -⟩ := C72_few_points hr exStatic_ok.2 exStatic_ok.1 (d := exOne) rfl (by decide) h1 (Or.inl rfl)
    (fun _ => rfl) (by decide) (s := runOps [.data exOne, .init 3] s0) (by rw [hrun]; rfl) H (i := i) hi3 c q none true
  refine ⟨s0, t, hs0, h3, h4, _, h6, rfl, fun h => ?_⟩
  obtain ⟨hp1, k, e1, hk, e2⟩ := C71_optimised_restored (st := exStatic) rfl exStatic_ok.2.varK hs0 [.data exOne, .init 3]
    (by simp [SOp.posSet]) H.eq h3
  have hk0 : k = 0 := by
    rw [H.sized.two_r] at hk
    unfold Denotes at hk
    omega
  subst hk0
  rw [h6] at e1
  cases e1
  obtain ⟨r, e3, e4⟩ := e2 [.hpara c q "set" 1 none true, .hpara c q "set" 1 (some ({ h with varK := some (some (-1)) } : HpF)) true,
        .data exData, .finish 2, .load none] (by simp [SOp.keeps]) c q none true
  exact ⟨r, e3, e4, e4.varK⟩

end Props
