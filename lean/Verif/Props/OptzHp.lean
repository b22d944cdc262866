import Verif.Spec.Session
import Verif.Props.InitHp
import Verif.Props.Hist
import Verif.Props.Lkd

/-! The hyperparameter protocol: C66. -/

open Np GP Spec

noncomputable section

namespace Props

/-! ### Outcome of `set_hpara` -/

theorem setup_ok {cc : Bool} {s s' : Session} (h : s.setup cc = (s', .ok ())) :
    UpToDate cc s' ∧ ∃ e p, s' = { s with ev := e, setupHp := p } := by
  unfold Session.setup at h
  split at h
  · cases h
  · rename_i hf h1
    unfold Session.setupWith at h
    split at h
    · cases h
    · rename_i hp h2
      split at h
      · cases h
      · rename_i g h3
        split at h
        · cases h
        · rename_i e h4
          cases h
          exact ⟨⟨hf, hp, g, e, h1, h2, h3, h4, rfl, rfl⟩, _, _, rfl⟩

theorem setup_keeps (cc : Bool) (s : Session) : ∃ e p, (s.setup cc).1 = { s with ev := e, setupHp := p } := by
  unfold Session.setup
  split
  · exact ⟨s.ev, s.setupHp, rfl⟩
  · unfold Session.setupWith
    split
    · exact ⟨_, _, rfl⟩
    · split
      · exact ⟨_, _, rfl⟩
      · split
        · exact ⟨_, _, rfl⟩
        · exact ⟨_, _, rfl⟩

theorem setHpara_ok {c : OptzCfg} {q : Oracle} {m : String} {i : ℤ} {hp : Option HpF} {cc : Bool} {s s' : Session}
    (h : setHpara c q m i hp cc s = (s', .ok ())) :
    UpToDate cc s' ∧ ∃ t e p, selectHp c q m i hp s = (t, .ok ()) ∧ s' = { t with ev := e, setupHp := p } := by
  unfold setHpara Session.andSetup at h
  rcases hq : selectHp c q m i hp s with ⟨t, e | ⟨⟩⟩
  · rw [hq] at h; cases h
  · rw [hq] at h
    obtain ⟨h1, e, p, h2⟩ := setup_ok h
    exact ⟨h1, t, e, p, rfl, h2⟩

theorem setHpara_fst (c : OptzCfg) (q : Oracle) (m : String) (i : ℤ) (hp : Option HpF) (cc : Bool) (s : Session) :
    ∃ e p, (setHpara c q m i hp cc s).1 = { (selectHp c q m i hp s).1 with ev := e, setupHp := p } := by
  unfold setHpara Session.andSetup
  rcases hq : selectHp c q m i hp s with ⟨t, e | ⟨⟩⟩
  · exact ⟨t.ev, t.setupHp, rfl⟩
  · exact setup_keeps cc t

/-! ### Positive prior variance -/

theorem infoOf_ok {lo : LogOpts} {dim : ℕ} {kh kf kg t k v f g : Bool} {info : HpInfo}
    (h : setHpOptzInfo lo dim kh kf kg t k v f g = .ok info) : info = hpInfoOf lo dim t k v f g := by
  by_cases hb : (k = true ∧ kh = false) ∨ (f = true ∧ kf = true) ∨ (g = true ∧ kg = true)
  · rw [C54_rejects lo dim hb] at h; cases h
  · push Not at hb
    rw [setHpOptzInfo_ok lo dim (fun e => by simpa using hb.1 e) (fun e => by simpa using hb.2.1 e) (fun e => by simpa using hb.2.2 e)] at h
    cases h; rfl

/-- A decoded prior variance that is optimised through its logarithm is positive. -/
theorem decode_varK_pos {gp : Gp} {lo : LogOpts} (hlo : lo.var = true) {dim : ℕ} {t k v f g : Bool} {vec : Arr1} {hp : HpVals}
    (h : hpVec2Dataclass gp (hpInfoOf lo dim t k v f g) vec = .ok hp) {x : ℝ} (hx : hp.varK = some x) : 0 < x := by
  unfold hpVec2Dataclass powMasked at h
  split at h
  · rename_i hlen
    rw [ok_bind] at h
    set w : Arr1 := ⟨vec.n, fun i => if (hpInfoOf lo dim t k v f g).logOptz.getD i false then (10 : ℝ) ^ vec.get i else vec.get i⟩ with hw
    cases h1 : takeTheta (hpInfoOf lo dim t k v f g) w with
    | error e => rw [h1] at h; cases h
    | ok th =>
      rw [h1, ok_bind] at h
      cases h2 : takeScalar (hpInfoOf lo dim t k v f g).hasKernel true w (hpInfoOf lo dim t k v f g).idxKernel with
      | error e => rw [h2] at h; cases h
      | ok kk =>
        rw [h2, ok_bind] at h
        cases h3 : takeScalar (hpInfoOf lo dim t k v f g).hasVarK gp.noisy w (hpInfoOf lo dim t k v f g).idxVarK with
        | error e => rw [h3] at h; cases h
        | ok vk =>
          rw [h3, ok_bind] at h
          have hvk : vk = some x := by
            cases h4 : takeScalar (hpInfoOf lo dim t k v f g).hasVarFval (!gp.knownFval) w (hpInfoOf lo dim t k v f g).idxVarFval with
            | error e => rw [h4] at h; cases h
            | ok a =>
              rw [h4, ok_bind] at h
              cases h5 : takeScalar (hpInfoOf lo dim t k v f g).hasVarFgrad (gp.useGrad && !gp.knownFgrad) w
                  (hpInfoOf lo dim t k v f g).idxVarFgrad with
              | error e => rw [h5] at h; cases h
              | ok b =>
                rw [h5, ok_bind] at h
                cases h
                exact hx
          subst hvk
          unfold takeScalar at h3
          cases hv : v with
          | false =>
            rw [hv] at h3
            simp [hpInfoOf] at h3
          | true =>
            subst hv
            rw [if_pos (show (hpInfoOf lo dim t k true f g).hasVarK = true from rfl)] at h3
            cases ha : pyAssert (gp.noisy = true) with
            | error e => rw [ha] at h3; cases h3
            | ok u =>
              rw [ha, ok_bind] at h3
              unfold Arr1.at' at h3
              split at h3
              · rw [ok_bind] at h3
                cases h3
                have hp := (slotPos_iff lo dim t k true f g .varK (hpInfoOf lo dim t k true f g).idxVarK).mp rfl
                rw [hw]
                dsimp only
                rw [logOptz_at lo dim hp]
                simp only [slotLog, hlo, if_true]
                positivity
              · cases h3
  · cases h

theorem lkdWoNoise_varK {n b m : ℕ} {o : LkdOpts} {fval : Arr1} {y : Vec n} {V : Mat n b} {F : ChoFac n}
    {dK : Option (Fin m → Mat n n)} {c a : Bool} {r : LkdInfo b m} (h : lkdWoNoise o fval y V F dK c a = .ok r) {x : ℝ}
    (hx : r.varK = some x) : 0 < x := by
  have hm : ∀ z, 0 < max varKMin z := fun z => lt_max_of_lt_left varKMin_pos
  unfold lkdWoNoise at h
  cases a with
  | true =>
    rw [if_pos rfl] at h
    cases h1 : calcModelMaxLkd (m := m) F V y none with
    | error e => rw [h1] at h; cases h
    | ok fit =>
      rw [h1, ok_bind] at h
      cases h
      cases hx
      unfold lkdAdjoint
      dsimp only
      split
      · split <;> exact hm _
      · exact hm _
  | false =>
    rw [if_neg (by simp)] at h
    cases h1 : calcModelMaxLkd F V y dK with
    | error e => rw [h1] at h; cases h
    | ok fit =>
      rw [h1, ok_bind] at h
      have hv : 0 < (optVarK y fit.val F fit.gradHp dK).1 := by
        unfold optVarK
        dsimp only
        split <;> exact hm _
      dsimp only at h
      split at h
      · cases h; cases hx; exact hv
      · cases h; cases hx; exact hv

theorem setCond_varK {env : LkdEnv} {o : CondOpts} {n b m : ℕ} {li li' : LkdInfo b m} {K : Mat n n} {F : Option (ChoFac n)}
    {dK : Option (Fin m → Mat n n)} {ck : Option ℝ} {cc cg : Bool} (h : setCond env o li K F dK ck cc cg = .ok li') :
    li'.varK = li.varK ∧ li'.beta = li.beta := by
  unfold setCond at h
  split at h
  · cases h1 : condWGrad env.eig o K F dK with
    | error e => rw [h1] at h; cases h
    | ok c => rw [h1, ok_bind] at h; cases h; exact ⟨rfl, rfl⟩
  · cases h; exact ⟨rfl, rfl⟩

/-- The prior variance from the likelihood code is positive. -/
theorem calcLkdAll_varK {g : Gp} {env : LkdEnv} {hp : HpVals} {cc cg : Bool} {r : LkdInfo nBetaCoeff env.info.nHp × Bool}
    (hn : g.noisy = false) (h : calcLkdAll g env hp cc cg = .ok r) {x : ℝ} (hx : r.1.varK = some x) : 0 < x := by
  unfold calcLkdAll at h
  cases h1 : calcRtensor g.x g.x with
  | error e => rw [h1] at h; cases h
  | ok R =>
    rw [h1, ok_bind] at h
    cases h2 : lkdCov g hp R cc with
    | error e => rw [h2] at h; cases h
    | ok out =>
      rw [h2, ok_bind] at h
      cases h3 : kcovGradIf g env hp out.Kern R cg with
      | error e => rw [h3] at h; cases h
      | ok dK =>
        rw [h3, ok_bind] at h
        split at h
        · cases h4 : condL2WGrad env.eig g.o.precon out.Kcov dK with
          | error e => rw [h4] at h; cases h
          | ok c =>
            rw [h4, ok_bind, hn] at h
            cases h
            cases hx
        · rename_i F hF
          cases h4 : lkdData g with
          | error e => rw [h4] at h; cases h
          | ok d =>
            rw [h4, ok_bind] at h
            cases h5 : lkdBody g env d.1 d.2 F dK with
            | error e => rw [h5] at h; cases h
            | ok li =>
              rw [h5, ok_bind] at h
              cases h6 : setCond env g.o li out.Kcov (some F) dK out.condK cc cg with
              | error e => rw [h6] at h; cases h
              | ok li' =>
                rw [h6, ok_bind] at h
                cases h
                rw [(setCond_varK h6).1] at hx
                unfold lkdBody at h5
                rw [hn] at h5
                exact lkdWoNoise_varK h5 hx

theorem decodeSol_pos {st : GpStatic} (hlo : st.log.var = true) {c : OptzCfg} {q : Oracle} {o : GpObj} {info : HpInfo}
    (hi : ∃ k v f g, info = hpInfoOf st.log st.dim true k v f g) {v : Arr1} {hp : HpVals} (h : decodeSol c q o info v = .ok hp) {x : ℝ}
    (hx : hp.varK = some x) : 0 < x := by
  unfold decodeSol at h
  cases h1 : o.view with
  | error e => rw [h1] at h; cases h
  | ok g =>
    rw [h1, ok_bind] at h
    cases h2 : hpVec2Dataclass (o.decGp g) info v with
    | error e => rw [h2] at h; cases h
    | ok hp0 =>
      rw [h2, ok_bind] at h
      unfold closedForm at h
      cases h3 : calcLkdAll g (o.env c q info) hp0 false false with
      | error e => rw [h3] at h; cases h
      | ok r =>
        rw [h3, ok_bind] at h
        dsimp only at h
        cases hn : g.noisy with
        | true =>
          rw [hn, if_pos rfl] at h
          cases h
          obtain ⟨k, v', f, g', rfl⟩ := hi
          exact decode_varK_pos hlo h2 hx
        | false =>
          rw [hn, if_neg (by simp)] at h
          cases h
          exact calcLkdAll_varK hn h3 hx

/-! #### The history -/

/-- Every prior variance in the history is positive. -/
def PosHist (h : Surr) : Prop := ∀ k x, (h.one .varK).get k = some x → 0 < x

/-- An assignment does not store a prior variance that is not positive. -/
def PosAsg : Asg → Prop
  | .one .varK v => ∀ x, v = some x → 0 < x
  | _ => True

theorem posHist_write {h : Surr} (hh : PosHist h) {a : Asg} (ha : PosAsg a) (k : ℕ) : PosHist (a.write h k) := by
  cases a with
  | one f v =>
    by_cases hf : f = .varK
    · subst hf
      intro j x hx
      simp only [Asg.write, Function.update_self] at hx
      by_cases hj : j = k
      · subst hj; rw [Function.update_self] at hx; exact ha x hx
      · rw [Function.update_of_ne hj] at hx; exact hh j x hx
    · intro j x hx
      simp only [Asg.write] at hx
      rw [Function.update_of_ne (Ne.symm hf)] at hx
      exact hh j x hx
  | two f v => exact hh
  | atMax b => exact hh
  | fail e => exact hh

theorem asg_run_write {i : ℤ} {h h' : Surr} {a : Asg} (hr : a.run i h = .ok h') : ∃ k, h' = a.write h k := by
  cases a with
  | one f v =>
    unfold Asg.run at hr
    cases hk : pyIdx i (h.one f).n with
    | error e => simp only [hk] at hr; cases hr
    | ok k => simp only [hk, ok_bind] at hr; cases hr; exact ⟨k, rfl⟩
  | two f v =>
    unfold Asg.run at hr
    cases hk : pyIdx i (h.two f).r with
    | error e => simp only [hk] at hr; cases hr
    | ok k =>
      simp only [hk, ok_bind] at hr
      cases v with
      | none => cases hr; exact ⟨k, rfl⟩
      | some w =>
        dsimp only at hr
        split at hr
        · cases hr; exact ⟨k, rfl⟩
        · cases hr
  | atMax b =>
    unfold Asg.run at hr
    cases hk : pyIdx i h.atMax.n with
    | error e => simp only [hk] at hr; cases hr
    | ok k => simp only [hk, ok_bind] at hr; cases hr; exact ⟨k, rfl⟩
  | fail e => cases hr

theorem runAsgs_pos {i : ℤ} : ∀ {l : List Asg} {h : Surr}, (∀ a ∈ l, PosAsg a) → PosHist h → PosHist (runAsgs i l h).1
  | [], h, _, hh => hh
  | a :: l, h, hl, hh => by
    unfold runAsgs
    cases hr : a.run i h with
    | error e => exact hh
    | ok h' =>
      obtain ⟨k, rfl⟩ := asg_run_write hr
      exact runAsgs_pos (fun b hb => hl b (List.mem_cons_of_mem _ hb)) (posHist_write hh (hl a (List.mem_cons_self ..)) k)

theorem storeRatio_pos {i : ℤ} {h : Surr} (hh : PosHist h) : PosHist (storeRatio i h).1 := by
  unfold storeRatio
  split
  · split
    · split
      · refine runAsgs_pos ?_ hh
        intro a ha
        rw [List.mem_singleton] at ha
        subst ha
        trivial
      · exact hh
    · exact hh
  · exact hh
  · exact hh

theorem storeAsgs_pos {o : SurrObj} {a : StoreArgs} (ha : PosVar a.hp) : ∀ b ∈ storeAsgs o a, PosAsg b := by
  have hopt : ∀ (f : Fld1) (v : Option Fl), f ≠ .varK → ∀ b ∈ optAsg f v, PosAsg b := by
    intro f v hf b hb
    cases v with
    | none => simp [optAsg] at hb
    | some w =>
      simp only [optAsg, List.mem_singleton] at hb
      subst hb
      cases f <;> first | trivial | exact absurd rfl hf
  have hscl : ∀ b ∈ sclAsgs o, PosAsg b := by
    intro b hb
    unfold sclAsgs at hb
    split at hb
    · split at hb <;> (rw [List.mem_singleton] at hb; subst hb; trivial)
    · simp at hb
  intro b hb
  unfold storeAsgs at hb
  rw [List.mem_append] at hb
  rcases hb with hb | hb
  · simp only [List.mem_cons, List.not_mem_nil, or_false] at hb
    rcases hb with rfl | rfl | rfl | rfl | rfl | rfl | rfl | rfl | rfl <;> try trivial
    intro x hx
    cases hv : a.hp.varK with
    | none => rw [hv] at hx; cases hx
    | some w => rw [hv] at hx; exact ha x (by rw [hv]; exact congrArg some hx)
  · split at hb
    · rw [List.mem_singleton] at hb; subst hb; trivial
    · simp only [List.mem_append, List.mem_cons, List.not_mem_nil, or_false] at hb
      rcases hb with ((hb | hb) | hb) | hb
      · rcases hb with rfl | rfl | rfl | rfl | rfl | rfl | rfl <;> trivial
      · exact hscl b hb
      · split at hb
        · simp at hb
        · simp only [List.mem_append, List.mem_cons, List.not_mem_nil, or_false] at hb
          rcases hb with (((hb | hb) | hb) | hb) | hb
          · exact hopt _ _ (by decide) b hb
          · exact hopt _ _ (by decide) b hb
          · exact hopt _ _ (by decide) b hb
          · exact hopt _ _ (by decide) b hb
          · rcases hb with rfl | rfl | rfl <;> trivial
      · subst hb; trivial

/-! #### All programs -/

/-- The layout of the optimised hyperparameters is the one of some choice of them, with the options of the class. -/
def InfoOk (o : GpObj) : Prop := ∀ info, o.info = some info → ∃ k v f g, info = hpInfoOf o.st.log o.st.dim true k v f g

theorem info_then {a b : GCall} (ha : ∀ s, InfoOk s → InfoOk (a s).1) (hb : ∀ s, InfoOk s → InfoOk (b s).1) :
    ∀ s, InfoOk s → InfoOk (a.andThen b s).1 := by
  intro s hs
  unfold GCall.andThen
  have h1 := ha s hs
  rcases hq : a s with ⟨t, e | ⟨⟩⟩
  · rw [hq] at h1; exact h1
  · rw [hq] at h1; exact hb t h1

theorem info_gset {f : GpObj → GpObj} (hf : ∀ s, (f s).info = s.info ∧ (f s).st = s.st) : ∀ s, InfoOk s → InfoOk (gset f s).1 := by
  intro s hs info hi
  have := hs info ((hf s).1 ▸ hi)
  rw [show (gset f s).1.st = s.st from (hf s).2]
  exact this

theorem info_gcompute {α : Type} {f : GpObj → Py α} {put : GpObj → α → GpObj} (hf : ∀ s a, (put s a).info = s.info ∧ (put s a).st = s.st) :
    ∀ s, InfoOk s → InfoOk (gcompute f put s).1 := by
  intro s hs
  unfold gcompute
  cases f s with
  | error e => exact hs
  | ok a =>
    intro info hi
    have := hs info ((hf s a).1 ▸ hi)
    dsimp only
    rw [(hf s a).2]
    exact this

theorem setData_info (d : DataIn) : ∀ o, InfoOk o → InfoOk (setData d o).1 := by
  intro o ho
  unfold setData
  cases hc : countGrads o.st.useGrad d with
  | error e => exact ho
  | ok ng =>
    refine info_then ?_ (info_then ?_ (info_then ?_ (info_then ?_ (info_then ?_ (info_then ?_ (info_then ?_ (info_then ?_ (info_then ?_
      (info_then ?_ (info_then ?_ ?_)))))))))) o ho
    · exact info_gset fun _ => ⟨rfl, rfl⟩
    · exact info_gcompute fun _ _ => ⟨rfl, rfl⟩
    · intro s hs; unfold checkStdFval; split <;> exact hs
    · intro s hs; unfold checkGrad; split
      · split <;> exact hs
      · split
        · dsimp only; split
          · split <;> exact hs
          · exact hs
        · exact hs
    · exact info_gset fun _ => ⟨rfl, rfl⟩
    · intro s hs; unfold classifyFval; split
      · dsimp only; split <;> exact hs
      · exact hs
    · intro s hs; unfold classifyFgrad; split
      · split
        · dsimp only; split <;> exact hs
        · exact hs
      · exact hs
    · exact info_gset fun _ => ⟨rfl, rfl⟩
    · exact info_gcompute fun _ _ => ⟨rfl, rfl⟩
    · exact info_gcompute fun _ _ => ⟨rfl, rfl⟩
    · intro s hs
      unfold hpIdxCall gcompute
      split
      · rename_i a ha
        intro info hi
        cases hi
        exact ⟨_, _, _, _, infoOf_ok ha⟩
      · exact hs
    · intro s hs
      unfold scaleCall
      split
      · split
        · exact hs
        · rename_i a _
          have : ∀ (t : GpObj) m r, InfoOk t → InfoOk (sclCall d m r t).1 := by
            intro t m r ht
            unfold sclCall
            split
            · exact ht
            · split
              · exact ht
              · exact ht
          exact this _ _ _ (by split <;> exact hs)
      · exact info_gcompute (put := fun o R => { o with rInit := some R }) (fun _ _ => ⟨rfl, rfl⟩) s hs

/-- The invariant. -/
structure SInv (st : GpStatic) (s : Session) : Prop where
  st : s.obj.st = st
  info : InfoOk s.obj
  hist : ∀ h, s.h = some h → PosHist h
  hp : ∀ h, s.hp = some h → PosVar h

theorem setWellcond_keeps (m : Option String) (o : GpObj) : (setWellcond m o).1.st = o.st ∧ (setWellcond m o).1.info = o.info := by
  unfold setWellcond
  split
  · exact ⟨rfl, rfl⟩
  · exact ⟨rfl, rfl⟩

theorem store_inv {st : GpStatic} {s : Session} (hs : SInv st s) {i : ℤ} {a : StoreArgs} (ha : PosVar a.hp) : SInv st (s.store i a).1 := by
  unfold Session.store storeSurr
  have hput : ∀ (o : SurrObj), (∀ h, o.h = some h → PosHist h) → (∀ h, o.hpVals = some h → PosVar h) → SInv st (s.put o) :=
    fun o h1 h2 => ⟨hs.st, hs.info, h1, h2⟩
  have hh : ∀ h, some a.hp = some h → PosVar h := by rintro h ⟨⟩; exact ha
  dsimp only
  split
  · split
    · exact hput _ (fun h e => hs.hist h e) hh
    · rename_i h0 hn
      have h1 := runAsgs_pos (i := i) (storeAsgs_pos (o := { s.surr with hpVals := some a.hp }) ha) (hs.hist h0 hn)
      split
      · rename_i hr
        erw [hr] at h1
        exact hput _ (fun h e => by cases e; exact h1) hh
      · rename_i h2 hr
        erw [hr] at h1
        have h3 := storeRatio_pos (i := i) h1
        exact hput _ (fun h e => by cases e; exact h3) hh
  · exact hput _ (fun h e => hs.hist h e) hh

theorem ofVals_pos {h : HpVals} (hv : ∀ x, h.varK = some x → 0 < x) : PosVar (HpF.ofVals h) := by
  intro v hx
  unfold HpF.ofVals at hx
  dsimp only at hx
  cases hk : h.varK with
  | none => rw [hk] at hx; cases hx
  | some w => rw [hk] at hx; cases hx; exact hv _ hk

theorem optzVec_obj (c : OptzCfg) (q : Oracle) (o : GpObj) (g : Gp) (info : HpInfo) (x0 : FMat) :
    ∃ s, (optzVec c q o g info x0).1 = { o with scl := s } := by
  unfold optzVec
  split
  · split
    · exact ⟨o.scl, rfl⟩
    · split <;> exact ⟨_, rfl⟩
  · exact ⟨o.scl, rfl⟩

theorem optzHp_inv {st : GpStatic} (hlo : st.log.var = true) (hi : 0 < st.varKInit) {s : Session} (hs : SInv st s) (c : OptzCfg) (q : Oracle)
    (i : ℤ) : SInv st (optzHp c q i s).1 := by
  unfold optzHp
  split
  · exact hs
  · rename_i g hg
    split
    · split
      · exact hs
      · rename_i a ha
        refine store_inv hs ?_
        unfold initArgs at ha
        dsimp only at ha
        cases h1 : calcRtensor g.x g.x with
        | error e => rw [h1] at ha; cases ha
        | ok R =>
          rw [h1, ok_bind] at ha
          cases h2 : calcAllK g R (getInitHp s.obj.st g) none false true none false with
          | error e => rw [h2] at ha; cases ha
          | ok out =>
            rw [h2, ok_bind] at ha
            cases ha
            refine ofVals_pos fun x hx => ?_
            cases hx
            rw [hs.st]; exact hi
    · unfold optzNum
      split
      · exact hs
      · rename_i info hinfo
        split
        · exact hs
        · rename_i p hp
          obtain ⟨sc, hsc⟩ := optzVec_obj c q s.obj g info p.x0
          have hs' : SInv st { s with obj := { s.obj with scl := sc } } := ⟨hs.st, hs.info, hs.hist, hs.hp⟩
          split
          · rename_i o e hq
            rw [hq] at hsc
            dsimp only at hsc
            subst hsc
            exact hs'
          · rename_i o r hq
            rw [hq] at hsc
            dsimp only at hsc
            subst hsc
            unfold finishOptz
            split
            · exact hs'
            · rename_i hp hd
              refine store_inv hs' (ofVals_pos fun x hx => ?_)
              have h1 := hs.info info hinfo
              rw [hs.st] at h1
              exact decodeSol_pos hlo h1 hd hx

theorem selectHp_inv {st : GpStatic} (hlo : st.log.var = true) (hi : 0 < st.varKInit) {s : Session} (hs : SInv st s) (c : OptzCfg) (q : Oracle)
    (m : String) (i : ℤ) {hp : Option HpF} (hp0 : ∀ h, hp = some h → PosVar h) : SInv st (selectHp c q m i hp s).1 := by
  unfold selectHp
  split
  · split
    · unfold setHpFromIdx
      dsimp only
      split
      · exact ⟨hs.st, hs.info, hs.hist, hs.hp⟩
      · rename_i h0 hn
        split
        · exact ⟨hs.st, hs.info, hs.hist, hs.hp⟩
        · rename_i k hk
          refine ⟨hs.st, hs.info, hs.hist, ?_⟩
          rintro h ⟨⟩ v hv
          exact hs.hist h0 hn k v (Option.some.inj hv)
    · exact hs
  · split
    · exact optzHp_inv hlo hi hs c q _
    · split
      · split
        · split <;> exact hs
        · exact hs
      · split
        · split
          · rename_i h _
            exact ⟨hs.st, hs.info, hs.hist, fun h' e => by cases e; exact hp0 _ rfl⟩
          · exact hs
        · exact hs

theorem finish_frame (n : ℤ) (o : SurrObj) : ∃ x, (finishSurr n o).1 = { o with h := x } := by
  unfold finishSurr
  split
  · split
    · exact ⟨o.h, rfl⟩
    · exact ⟨_, rfl⟩
  · exact ⟨o.h, rfl⟩

theorem load_frame (d : Option Exported) (o : SurrObj) : ∃ x, (loadSurr d o).1 = { o with h := x } := by
  unfold loadSurr
  split
  · split
    · exact ⟨o.h, rfl⟩
    · split
      · split
        · exact ⟨o.h, rfl⟩
        · exact ⟨_, rfl⟩
      · exact ⟨o.h, rfl⟩
  · exact ⟨o.h, rfl⟩

/-- Only the history of the object changes. -/
theorem put_hist (s : Session) (x : Option Surr) : s.put { s.surr with h := x } = { s with h := x } := rfl

theorem load_one {n : ℕ} {src h h' : Surr} {a : LoadAsg} (e : a.run n src h = .ok h') {dim nBeta m : ℕ} (hs : Sized dim nBeta m h) :
    Sized dim nBeta m h' ∧ (∀ k, n ≤ k → SameRow h h' k) := by
  have cr : ∀ m len k, n ≤ k → copyRow (min n m) len k = none := by
    intro m len k hk; unfold copyRow; rw [if_neg (by omega)]
  cases a with
  | one f =>
    simp only [LoadAsg.run] at e
    split at e
    · cases e
      refine ⟨⟨fun g => ?_, hs.two_r, hs.beta, hs.theta, hs.xvec, hs.atMax⟩, fun k hk => ⟨fun g => ?_, fun _ _ _ => rfl, rfl⟩⟩
      · by_cases e : g = f
        · subst e; simp [hs.one]
        · simp [Function.update_of_ne e, hs.one]
      · by_cases e : g = f
        · subst e; simp [cr _ _ k hk]
        · simp [Function.update_of_ne e]
    · cases e
  | two f =>
    simp only [LoadAsg.run] at e
    split at e
    · cases e
      refine ⟨⟨hs.one, fun g => ?_, ?_, ?_, ?_, hs.atMax⟩, fun k hk => ⟨fun _ => rfl, fun g d _ => ?_, rfl⟩⟩
      · by_cases e : g = f
        · subst e; simp [hs.two_r]
        · simp [Function.update_of_ne e, hs.two_r]
      iterate 3
        · cases f <;> simp [Function.update, hs.beta, hs.theta, hs.xvec]
      · by_cases e : g = f
        · subst e; simp [cr _ _ k hk]
        · simp [Function.update_of_ne e]
    · cases e
  | atMax =>
    simp only [LoadAsg.run] at e
    split at e
    · cases e
      exact ⟨⟨hs.one, hs.two_r, hs.beta, hs.theta, hs.xvec, hs.atMax⟩, fun k hk => ⟨fun _ => rfl, fun _ _ _ => rfl, by simp [cr _ _ k hk]⟩⟩
    · cases e

theorem runLoads_any {n : ℕ} {src : Surr} : ∀ (l : List LoadAsg) {h : Surr} {dim nBeta m : ℕ}, Sized dim nBeta m h →
    Sized dim nBeta m (runLoads n src l h).1 ∧ ∀ k, n ≤ k → SameRow h (runLoads n src l h).1 k
  | [], h, _, _, _, hs => ⟨hs, fun _ _ => ⟨fun _ => rfl, fun _ _ _ => rfl, rfl⟩⟩
  | a :: l, h, dim, nBeta, m, hs => by
    rw [runLoads]
    cases ha : a.run n src h with
    | error e => exact ⟨hs, fun _ _ => ⟨fun _ => rfl, fun _ _ _ => rfl, rfl⟩⟩
    | ok h1 =>
      obtain ⟨s1, r1⟩ := load_one ha hs
      obtain ⟨s2, r2⟩ := runLoads_any l s1
      exact ⟨s2, fun k hk => sameRow_trans (fun f => by rw [fld2Cols_eq s1, fld2Cols_eq hs]) (r1 k hk) (r2 k hk)⟩

theorem load_pos {n : ℕ} {src h h' : Surr} {a : LoadAsg} (e : a.run n src h = .ok h') (p : PosHist src) (q : PosHist h) : PosHist h' := by
  cases a with
  | one f =>
    simp only [LoadAsg.run] at e
    split at e
    · cases e
      intro k x hx
      by_cases e : Fld1.varK = f
      · subst e
        simp only [Function.update_self] at hx
        split at hx
        · exact p _ _ hx
        · exact q _ _ hx
      · simp only [Function.update_of_ne e] at hx
        exact q _ _ hx
    · cases e
  | two f =>
    simp only [LoadAsg.run] at e
    split at e
    · cases e; exact q
    · cases e
  | atMax =>
    simp only [LoadAsg.run] at e
    split at e
    · cases e; exact q
    · cases e

theorem runLoads_pos {n : ℕ} {src : Surr} (p : PosHist src) : ∀ (l : List LoadAsg) {h : Surr}, PosHist h → PosHist (runLoads n src l h).1
  | [], h, q => q
  | a :: l, h, q => by
    rw [runLoads]
    cases ha : a.run n src h with
    | error e => exact q
    | ok h1 => exact runLoads_pos p l (load_pos ha p q)

theorem run_inv {st : GpStatic} (hlo : st.log.var = true) (hi : 0 < st.varKInit) {s : Session} (hs : SInv st s) {a : SOp} (ha : a.posSet) :
    SInv st (a.run s).1 := by
  cases a with
  | wellcond m =>
    have := setWellcond_keeps m s.obj
    refine ⟨this.1.trans hs.st, fun info h => ?_, hs.hist, hs.hp⟩
    rw [show (SOp.run s (.wellcond m)).1.obj.st = s.obj.st from this.1]
    exact hs.info info (this.2 ▸ h)
  | data d =>
    refine ⟨?_, setData_info d s.obj hs.info, hs.hist, hs.hp⟩
    exact (congrArg Prod.fst (setData_frame d s.obj)).trans hs.st
  | init n =>
    refine ⟨hs.st, hs.info, ?_, hs.hp⟩
    rintro h ⟨⟩ k x hx
    cases hx
  | hpara c q m i hp cc =>
    obtain ⟨e, pe, he⟩ := setHpara_fst c q m i hp cc s
    have h1 := selectHp_inv hlo hi hs c q m i (hp := hp) (by
      rintro h rfl; exact ha)
    show SInv st (setHpara c q m i hp cc s).1
    rw [he]
    exact ⟨h1.st, h1.info, h1.hist, h1.hp⟩
  | custom h =>
    show SInv st (setCustomHp h s).1
    unfold setCustomHp
    split
    · rename_i hv
      refine ⟨hs.st, hs.info, hs.hist, ?_⟩
      rintro h' ⟨⟩ v hv'
      rw [hv] at hv'; cases hv'
    · rename_i v hv
      split
      · rename_i h0
        refine ⟨hs.st, hs.info, hs.hist, ?_⟩
        rintro h' ⟨⟩ w hw
        rw [hv] at hw; cases hw; exact h0
      · exact hs
    · exact hs
  | finish n =>
    show SInv st (s.put (finishSurr n s.surr).1)
    unfold finishSurr
    split
    · split
      · exact hs
      · rename_i h0 hh
        refine ⟨hs.st, hs.info, ?_, hs.hp⟩
        rintro h ⟨⟩ k x hx
        exact hs.hist h0 hh k x hx
    · exact hs
  | load d =>
    show SInv st (s.put (loadSurr d s.surr).1)
    unfold loadSurr
    split
    · split
      · exact hs
      · rename_i d
        split
        · split
          · exact hs
          · rename_i h0 hh
            refine ⟨hs.st, hs.info, ?_, hs.hp⟩
            intro h e
            have := Option.some.inj (show some (runLoads ((d.h.two .beta).r * (d.h.two .beta).c) d.h loadAsgs h0).1 = some h from e)
            rw [← this]
            exact runLoads_pos ha _ (hs.hist h0 hh)
        · exact hs
    · exact hs

theorem new_inv {st : GpStatic} {m : Option String} {s : Session} (h : newSession st m = .ok s) : SInv st s := by
  unfold newSession at h
  cases ho : newGp st m with
  | error e => rw [ho] at h; cases h
  | ok o =>
    rw [ho, ok_bind] at h
    cases h
    have h1 := (reach_cfgOk (.new ho)).eq
    refine ⟨h1, ?_, (fun h e => by cases e), (fun h e => by cases e)⟩
    intro info hi
    unfold newGp setWellcond at ho
    cases hm : m.bind WcMtd.parse with
    | none => rw [hm] at ho; cases ho
    | some w => rw [hm] at ho; cases ho; cases hi

theorem runOps_inv {st : GpStatic} (hlo : st.log.var = true) (hi : 0 < st.varKInit) : ∀ (l : List SOp) {s : Session}, SInv st s →
    (∀ a ∈ l, a.posSet) → SInv st (runOps l s)
  | [], _, hs, _ => hs
  | a :: l, _, hs, hl =>
    runOps_inv hlo hi l (run_inv hlo hi hs (hl a (List.mem_cons_self ..))) (fun b hb => hl b (List.mem_cons_of_mem _ hb))

/-- **C66, positive prior variance (partial).** Along every program (any calls, with any data, optimiser, sampler, exceptions) whose
direct assignments through `set_hpara('set')` have a positive prior variance, the prior variance of the current hyperparameters is
positive whenever it is a number. `set_custom_hp` needs no assumption. (Missing: `set_hpara('set')` does not check; `C66_set_unchecked`.) -/
theorem C66_positive_variance_partial {st : GpStatic} (hlo : st.log.var = true) (hi : 0 < st.varKInit) {m : Option String} {s : Session}
    (h : newSession st m = .ok s) (l : List SOp) (hl : ∀ a ∈ l, a.posSet) {hp : HpF} (hhp : (runOps l s).hp = some hp) {v : ℝ}
    (hv : hp.varK = some (some v)) : 0 < v :=
  (runOps_inv hlo hi l (new_inv h) hl).hp hp hhp v hv

end Props
