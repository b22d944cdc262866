import Verif.Spec.OptzRowSpec
import Verif.Proofs.CondRec
import Verif.Props.Protocol
import Verif.Props.HpX0
import Verif.Props.Predict
import Verif.Props.ScaledData
import Verif.Props.Rescale

/-! **C77** What an optimisation records. -/

open Np GP Spec Matrix

noncomputable section

namespace Props

theorem mapM_out {α β : Type} [Inhabited β] {f : α → Py β} {l : List α} {r : List β} (h : l.mapM f = .ok r) :
    ∃ out : α → β, ∀ a ∈ l, f a = .ok (out a) := by
  classical
  have : ∀ (l : List α) (r : List β), l.mapM f = .ok r → ∀ a ∈ l, ∃ b, f a = .ok b := by
    intro l
    induction l with
    | nil => intro _ _ a ha; cases ha
    | cons b l ih =>
      intro r h a ha
      rw [List.mapM_cons] at h
      cases h1 : f b with
      | error e => rw [h1] at h; cases h
      | ok c =>
        rw [h1, ok_bind] at h
        cases h2 : l.mapM f with
        | error e => rw [h2] at h; cases h
        | ok r' =>
          rcases List.mem_cons.mp ha with rfl | ha
          · exact ⟨c, h1⟩
          · exact ih r' h2 a ha
  refine ⟨fun a => if h : ∃ b, f a = .ok b then h.choose else default, fun a ha => ?_⟩
  have hx := this l r h a ha
  dsimp only
  rw [dif_pos hx]
  exact hx.choose_spec

instance : Inhabited Run := ⟨⟨⟨0, fun _ => none⟩, none, none⟩⟩

theorem runOptz_best {o : GpObj} {q : Oracle} {k : ℕ} {x0 : FMat} {x : Arr1} (h : runOptz o q k x0 = .ok x) :
    ∃ r, BestRun (q.opt k) o.useCstr o.st.condMax x0 r ∧ r.sol.nums = some x := by
  unfold runOptz at h
  cases h1 : optzMaxLkd o.useCstr o.st.condMax (q.opt k) x0 with
  | error e => rw [h1] at h; cases h
  | ok sol =>
    rw [h1, ok_bind] at h
    have h1' := h1
    unfold optzMaxLkd at h1'
    cases h2 : (List.range x0.r).mapM (fun j => q.opt k (x0.row j)) with
    | error e => rw [h2] at h1'; cases h1'
    | ok runs =>
      obtain ⟨out, hout⟩ := mapM_out h2
      have hout' : ∀ j < x0.r, q.opt k (x0.row j) = .ok (out j) := fun j hj => hout j (List.mem_range.mpr hj)
      obtain ⟨j, hj, e1, e2, e3⟩ := C58_optimised hout' h1
      refine ⟨out j, ⟨out, hout', j, hj, rfl, e2, e3⟩, ?_⟩
      rw [← e1]
      unfold numsOr at h
      split at h
      · rename_i a ha
        cases h
        exact ha
      · cases h

/-- What is stored, and where it comes from. -/
structure OptzArgs (c : OptzCfg) (q : Oracle) (i : ℤ) (s t : Session) (g : Gp) (hv : HpVals) (a : StoreArgs) : Prop where
  hp : a.hp = HpF.ofVals hv
  store : ∃ sc, Session.store i a { s with obj := { s.obj with scl := sc } } = (t, .ok ()) ∧ (s.obj.scl.isSome = true → sc.isSome = true) ∧
    (s.obj.nEval ≤ s.obj.st.constN ∨ s.obj.mtd.rescales = false ∨ c.maxIter ≤ 1 → sc = s.obj.scl)
  few : s.obj.nEval ≤ s.obj.st.constN → hv = getInitHp s.obj.st g ∧ ∃ R out, calcRtensor g.x g.x = .ok R ∧
    calcAllK g R hv none false true none false = .ok out ∧ a.cond = out.condK
  many : s.obj.st.constN < s.obj.nEval → s.obj.mtd.rescales = false ∨ c.maxIter ≤ 1 →
    ∃ info p x hp0 r, s.obj.info = some info ∧ startPts c q i s g info = .ok p ∧ runOptz s.obj q 0 p.x0 = .ok x ∧
      hpVec2Dataclass (s.obj.decGp g) info x = .ok hp0 ∧ finalCond g hp0 = .ok a.cond ∧
      calcLkdAll g (s.obj.env c q info) hp0 false false = .ok r ∧ hv = { hp0 with beta := hv.beta, varK := hv.varK } ∧
      (g.noisy = true → hv.varK = hp0.varK)

theorem closedForm_inv {g : Gp} {env : LkdEnv} {hp hv : HpVals} (h : closedForm g env hp = .ok hv) :
    ∃ r, calcLkdAll g env hp false false = .ok r ∧ hv = { hp with beta := hv.beta, varK := hv.varK } ∧ (g.noisy = true → hv.varK = hp.varK) := by
  unfold closedForm at h
  cases h3 : calcLkdAll g env hp false false with
  | error e => rw [h3] at h; cases h
  | ok r =>
    rw [h3, ok_bind] at h
    dsimp only at h
    cases hn : g.noisy with
    | true => rw [hn, if_pos rfl] at h; cases h; exact ⟨r, rfl, rfl, fun _ => rfl⟩
    | false => rw [hn, if_neg (by simp)] at h; cases h; exact ⟨r, rfl, rfl, fun h => by cases h⟩

theorem optzVec_some (c : OptzCfg) (q : Oracle) (o : GpObj) (g : Gp) (info : HpInfo) (x0 : FMat) :
    o.scl.isSome = true → (optzVec c q o g info x0).1.scl.isSome = true := by
  intro h
  unfold optzVec
  split
  · split
    · rename_i hs; rw [hs] at h; cases h
    · split <;> rfl
  · exact h

theorem optz_args {c : OptzCfg} {q : Oracle} {i : ℤ} {s t : Session} (h : optzHp c q i s = (t, .ok ())) :
    ∃ g hv a, s.obj.view = .ok g ∧ OptzArgs c q i s t g hv a := by
  unfold optzHp at h
  split at h
  · cases h
  · rename_i g hg
    split at h
    · rename_i hn
      split at h
      · cases h
      · rename_i a ha
        unfold initArgs at ha
        dsimp only at ha
        cases h1 : calcRtensor g.x g.x with
        | error e => rw [h1] at ha; cases ha
        | ok R =>
          rw [h1, ok_bind] at ha
          cases h2 : calcAllK g R (getInitHp s.obj.st g) none false true none false with
          | error e => rw [h2] at ha; cases ha
          | ok out =>
            rw [h2, ok_bind] at ha; cases ha
            exact ⟨g, getInitHp s.obj.st g, _, hg, rfl, ⟨s.obj.scl, h, fun h => h, fun _ => rfl⟩, fun _ => ⟨rfl, R, out, h1, h2, rfl⟩,
              fun h0 => absurd hn (not_le.mpr h0)⟩
    · rename_i hn
      unfold optzNum at h
      split at h
      · cases h
      · rename_i info hinfo
        split at h
        · cases h
        · rename_i p hp
          obtain ⟨sc, hsc⟩ := optzVec_obj c q s.obj g info p.x0
          split at h
          · cases h
          · rename_i o r hq
            rw [hq] at hsc
            dsimp only at hsc
            subst hsc
            unfold finishOptz at h
            split at h
            · cases h
            · rename_i hv hd
              have hsm := optzVec_some c q s.obj g info p.x0
              rw [hq] at hsm
              have hq' := hq
              have hsame : s.obj.mtd.rescales = false ∨ c.maxIter ≤ 1 → sc = s.obj.scl := by
                intro hr
                unfold optzVec at hq'
                rw [if_neg (by rcases hr with hr | hr <;> simp [hr])] at hq'
                obtain ⟨ho, -⟩ := Prod.mk.inj hq'
                rw [ho]
              refine ⟨g, hv, _, hg, rfl, ⟨sc, h, hsm, fun hr => hsame (hr.resolve_left hn)⟩, fun h0 => absurd h0 hn, fun _ hr => ?_⟩
              unfold optzVec at hq
              rw [if_neg (by rcases hr with hr | hr <;> simp [hr])] at hq
              obtain ⟨ho, hq⟩ := Prod.mk.inj hq
              have hsc : s.obj = { s.obj with scl := sc } := ho
              rw [← hsc] at hd
              cases h1 : runOptz s.obj q 0 p.x0 with
              | error e => rw [h1] at hq; cases hq
              | ok x =>
                rw [h1, ok_bind] at hq
                cases h2 : hpVec2Dataclass (s.obj.decGp g) info x with
                | error e => rw [h2] at hq; cases hq
                | ok hp0 =>
                  rw [h2, ok_bind] at hq
                  cases h3 : finalCond g hp0 with
                  | error e => rw [h3] at hq; cases hq
                  | ok κ =>
                    rw [h3, ok_bind] at hq
                    cases hq
                    unfold decodeSol at hd
                    rw [hg, ok_bind, h2, ok_bind] at hd
                    obtain ⟨r, r1, r2, r3⟩ := closedForm_inv hd
                    exact ⟨info, p, x, hp0, r, hinfo, hp, h1, h2, h3, r1, r2, r3⟩


/-- Noise-free data: all noise variances are zero. -/
theorem isNoise_free {g : Gp} (hg : GpOk g) (hn : g.noisy = false) {hp : HpVals} {N : Vec g.nData} (hN : IsNoise g hp N) : N = fun _ => 0 := by
  obtain ⟨Na, h1, h2⟩ := hN
  have hz : (g.fvalZero && g.fgradZero) = true := by
    have := hg.noisy; rw [hn] at this; simpa using this.symm
  funext i
  rw [h2]
  rcases lt_or_ge (i : ℕ) g.nEval with hi | hi
  · rw [h1.val i hi, valVar, if_pos hz]
  · obtain ⟨j, hj⟩ := Nat.exists_eq_add_of_le hi
    have hlt : j < g.nGrad * g.dim := by have := i.2; have := hg.nData; omega
    have hG : 0 < g.nGrad := Nat.pos_of_mul_pos_right (Nat.zero_lt_of_lt hlt)
    have := h1.grad (j / g.nGrad) (Nat.div_lt_of_lt_mul hlt) (j % g.nGrad) (Nat.mod_lt _ hG)
    rw [show g.nEval + j / g.nGrad * g.nGrad + j % g.nGrad = i by
      rw [hj, Nat.add_assoc, Nat.div_add_mod']] at this
    rw [this, gradVar, if_pos hz]

theorem optz_cond {c : OptzCfg} {q : Oracle} {i : ℤ} {s t : Session} {g : Gp} {hv : HpVals} {a : StoreArgs} (H : OptzArgs c q i s t g hv a)
    (hr : s.obj.nEval ≤ s.obj.st.constN ∨ s.obj.mtd.rescales = false ∨ c.maxIter ≤ 1) {v β : ℝ} (R : Ready g hv v β)
    (hη : if g.o.etaConst then 0 < g.o.etaK else 1 < g.o.condMaxTarget) :
    ∃ κ η, a.cond = some κ ∧ 0 < η ∧ ∀ K N, IsKern g hv K → IsNoise g hv N →
      IsNugget g.o v K N η ∧ IsCondNum g.o.fro (condMat g.o.precon v K N η) κ := by
  rcases le_or_gt s.obj.nEval s.obj.st.constN with hn | hn
  · obtain ⟨-, T, out, h1, h2, h3⟩ := H.few hn
    obtain ⟨κ, η, k1, k2, k3⟩ := condK_ok R.ok R.adm R.noise R.precon R.ne hη h1 (w := v) R.vpos (by simpa using R.varK) h2
    exact ⟨κ, η, by rw [h3, k1], k2, k3⟩
  · obtain ⟨info, p, x, hp0, r, -, -, -, -, h3, -, h4, h5⟩ := H.many hn (hr.resolve_left (not_le.mpr hn))
    have hth : hp0.theta = hv.theta := by rw [h4]
    have hke : hp0.kernel = hv.kernel := by rw [h4]
    have hvf : hp0.varFval = hv.varFval := by rw [h4]
    have hvg : hp0.varFgrad = hv.varFgrad := by rw [h4]
    have hadm : HpAdm g hp0 := ⟨by rw [hth]; exact R.adm.theta, by rw [hke]; exact R.adm.kernel, by rw [hvf]; exact R.adm.vf_none,
      by rw [hvf]; exact R.adm.vf_some, by rw [hvg]; exact R.adm.vg_none, by rw [hvg]; exact R.adm.vg_some⟩
    have hK : ∀ K, IsKern g hv K → IsKern g hp0 K := by
      intro K hK
      have : gpKern g hp0 = gpKern g hv := by unfold gpKern; rw [hth, hke]
      unfold IsKern; rw [this]; exact hK
    have hN : ∀ N, IsNoise g hv N → IsNoise g hp0 N := by
      rintro N ⟨Na, n1, n2⟩
      refine ⟨Na, ⟨n1.n, fun a ha => ?_, fun i hi a ha => ?_⟩, n2⟩
      · rw [n1.val a ha]; unfold valVar; rw [hvf]
      · rw [n1.grad i hi a ha]; unfold gradVar; rw [hvg]
    unfold finalCond at h3
    cases h1 : calcRtensor g.x g.x with
    | error e => rw [h1] at h3; cases h3
    | ok T =>
      rw [h1, ok_bind] at h3
      cases hns : g.noisy with
      | true =>
        rw [hns, if_pos rfl] at h3
        cases h2 : calcAllK g T hp0 none false true none false with
        | error e => rw [h2] at h3; cases h3
        | ok out =>
          rw [h2, ok_bind] at h3
          have h3 : out.condK = a.cond := Except.ok.inj h3
          obtain ⟨κ, η, k1, k2, k3⟩ := condK_ok R.ok hadm R.noise R.precon R.ne hη h1 (w := v) R.vpos
            (by rw [Option.none_or, ← h5 hns]; exact R.varK) h2
          exact ⟨κ, η, by rw [← h3, k1], k2, fun K N e1 e2 => k3 K N (hK K e1) (hN N e2)⟩
      | false =>
        rw [hns, if_neg (by simp)] at h3
        cases h2 : calcKernWChofac g T hp0 none false true with
        | error e => rw [h2] at h3; cases h3
        | ok out =>
          rw [h2, ok_bind] at h3
          have h3 : out.condK = a.cond := Except.ok.inj h3
          unfold calcKernWChofac at h2
          rw [pyAssert_true hns, ok_bind] at h2
          obtain ⟨κ, η, k1, k2, k3⟩ := condK_ok R.ok hadm R.noise R.precon R.ne hη h1 (w := 1) one_pos (by rfl) h2
          refine ⟨κ, η, by rw [← h3, k1], k2, fun K N e1 e2 => ?_⟩
          obtain ⟨m1, m2⟩ := k3 K N (hK K e1) (hN N e2)
          obtain rfl := isNoise_free R.ok hns e2
          obtain ⟨c, c0, hc⟩ := condMat_free (p := g.o.precon) R.vpos K η
          exact ⟨nugget_free R.vpos m1, by rw [hc]; exact isCondNum_smul c0 m2⟩


/-- Data are needed to get a view. -/
theorem view_data {o : GpObj} {g : Gp} (h : o.view = .ok g) : (∃ f, o.fvalIn = some f) ∧ (o.useScl = true → ∃ c, o.scl = some c) := by
  unfold GpObj.view GpObj.view0 at h
  rcases Option.eq_none_or_eq_some o.xIn with hx | ⟨x, hx⟩
  · rw [hx] at h; cases h
  rcases Option.eq_none_or_eq_some o.fvalIn with hf | ⟨f, hf⟩
  · rw [hx, hf] at h; cases h
  refine ⟨⟨f, hf⟩, fun hu => ?_⟩
  rw [hx, hf, hu] at h
  rcases Option.eq_none_or_eq_some o.scl with hs | ⟨c, hs⟩
  · rw [hs] at h; cases h
  · exact ⟨c, hs⟩

/-- A successful store writes the row. -/
theorem store_row {n : ℕ} {s t : Session} {h : Surr} (H : Hist n s h) (hg : ∃ f, s.obj.fvalIn = some f)
    (hx : s.obj.useScl = true → ∃ c, s.obj.scl = some c ∧ c.xScale.n = s.obj.st.dim) {i : ℤ} {a : StoreArgs}
    (hf : HpFits s.obj.st.dim nBetaCoeff a.hp) (ht : s.store i a = (t, .ok ())) :
    ∃ h' k, t.h = some h' ∧ Denotes n i k ∧ StoredRow t.surr a h' k := by
  obtain ⟨h1, -, -, row⟩ := store_keeps H i a
  obtain ⟨k, hk, -⟩ := row (by rw [ht]) hf
  obtain ⟨f, hfv⟩ := hg
  obtain ⟨h', e1, -, -, e4⟩ := store_ok (o := s.surr) (s := a) H.save H.eq H.sized
    ⟨⟨_, by simp only [Session.surr, hfv, Option.map_some]; rfl⟩, fun hu => by
      obtain ⟨c, c1, c2⟩ := hx hu
      exact ⟨c.xScale, by simp only [Session.surr, c1, Option.map_some], c2⟩⟩ hf hk
  unfold Session.store at ht
  rw [e1] at ht
  obtain rfl := (Prod.mk.inj ht).1
  exact ⟨h', k, rfl, hk, ⟨e4.beta, e4.theta, e4.kernel, e4.varK, e4.varFval, e4.varFgrad, e4.cond, e4.atMax, e4.times, e4.data, e4.vminReq,
    e4.scale, e4.info, e4.variance⟩, e4.ratio⟩

/-- **C77.** Take any program on a new object that initialises the history, then a successful optimisation at iteration `i`. Row `i`
of the history (counted from its end if `i` is negative) has the optimised hyperparameters, which are the current ones, the nuggets, distances and the scale of the object, and
the condition number with its comparison with the limit. With more than `hp_const_n_eval` points (and without the rescaling iterations)
the hyperparameters are decoded from the best of the runs of the optimiser, and the recorded condition number is that of the
covariance matrix of the data at the recorded hyperparameters (rescaled to unit diagonal with preconditioning). -/
theorem C77_optimised_row {st : GpStatic} (hlo : st.log.var = true) (hi : 0 < st.varKInit) {m : Option String} {s0 : Session}
    (h0 : newSession st m = .ok s0) (l0 : List SOp) (hl0 : ∀ a ∈ l0, a.posSet) {h : Surr} (hh : (runOps l0 s0).h = some h)
    {c : OptzCfg} {q : Oracle} {i : ℤ} {hp : Option HpF} {cc : Bool} {t : Session}
    (ht : setHpara c q "optz" i hp cc (runOps l0 s0) = (t, .ok ())) (hx : t.obj.useScl = true → ∀ d, t.obj.scl = some d → d.xScale.n = st.dim) :
    ∃ (k : ℕ) (h' : Surr) (hv : HpVals) (a : StoreArgs), Denotes (h.two .theta).r i k ∧ t.h = some h' ∧ t.hp = some (HpF.ofVals hv) ∧ a.hp = HpF.ofVals hv ∧
      StoredRow t.surr a h' k ∧
      (st.constN < t.obj.nEval → t.obj.mtd.rescales = false ∨ c.maxIter ≤ 1 →
        ∃ g info p r x, t.obj.view = .ok g ∧ t.obj.info = some info ∧ startPts c q i (runOps l0 s0) g info = .ok p ∧
          BestRun (q.opt 0) t.obj.useCstr st.condMax p.x0 r ∧ r.sol.nums = some x ∧ DecodedFrom st t.obj x hv) ∧
      (t.obj.nEval ≤ st.constN ∨ t.obj.mtd.rescales = false ∨ c.maxIter ≤ 1 → ∀ g, (runOps l0 s0).obj.view = .ok g → ∀ v β, Ready g hv v β →
        (if g.o.etaConst then 0 < g.o.etaK else 1 < g.o.condMaxTarget) →
        ∃ κ η, (h'.one .cond).get k = some κ ∧ 0 < η ∧ ∀ K N, IsKern g hv K → IsNoise g hv N →
          IsNugget g.o v K N η ∧ IsCondNum g.o.fro (condMat g.o.precon v K N η) κ) := by
  have hinv := runOps_inv hlo hi l0 (new_inv h0) hl0
  have hn0 : ∀ h, s0.h = some h → ∃ n, Hist n s0 h := by
    intro h hh
    unfold newSession at h0
    cases ho : newGp st m with
    | error e => rw [ho] at h0; cases h0
    | ok o => rw [ho, ok_bind] at h0; cases h0; cases hh
  obtain ⟨n, H⟩ := runOps_hist l0 hn0 h hh
  obtain ⟨hv', e1, hf⟩ := optz_fits hinv ht
  obtain ⟨-, t', e, pe, h2, h3⟩ := setHpara_ok ht
  simp only [selectHp] at h2
  rw [if_neg (by decide), if_pos trivial] at h2
  obtain ⟨g, hv, a, hg, A⟩ := optz_args h2
  obtain ⟨sc, hst, hsm, hsame⟩ := A.store
  obtain ⟨h1, hfr⟩ := store_frame hst
  have hhv : HpF.ofVals hv = HpF.ofVals hv' := by
    rw [h3] at e1
    have : t'.hp = some (HpF.ofVals hv') := e1
    rw [hfr, A.hp] at this
    exact Option.some.inj this
  rw [← hhv] at e1 hf
  have hst' : (runOps l0 s0).obj.st = st := hinv.st
  have hobj : t.obj = { (runOps l0 s0).obj with scl := sc } := by rw [h3, hfr]
  obtain ⟨hvf, hvs⟩ := view_data hg
  have H' : Hist n { (runOps l0 s0) with obj := { (runOps l0 s0).obj with scl := sc } } h := ⟨H.eq, H.sized, H.save⟩
  have hscl : (runOps l0 s0).obj.useScl = true → ∃ c, sc = some c ∧ c.xScale.n = st.dim := by
    intro hu
    obtain ⟨d, hd⟩ := hvs hu
    obtain ⟨d', hd'⟩ := Option.isSome_iff_exists.mp (hsm (by rw [hd]; rfl))
    exact ⟨d', hd', hx (by rw [hobj]; exact hu) d' (by rw [hobj]; exact hd')⟩
  obtain ⟨h', k, r1, r2, r3⟩ := store_row H' (i := i) hvf (fun hu => by rw [hst']; exact hscl hu) (by rw [A.hp]; rw [hst']; exact hf) hst
  have hfew := A.few
  have hmany := A.many
  rw [hst'] at hfew hmany
  have hnE : t.obj.nEval = (runOps l0 s0).obj.nEval := by rw [hobj]
  have hmt : t.obj.mtd = (runOps l0 s0).obj.mtd := by rw [hobj]
  refine ⟨k, h', hv, a, by rw [H.sized.two_r]; exact r2, by rw [h3]; exact r1, e1, A.hp, by rw [h3]; exact r3, ?_, ?_⟩
  · rw [hnE, hmt]
    intro hn hr
    obtain ⟨info, p, x, hp0, r, m1, m2, m3, m4, m5, m6, m7, m8⟩ := hmany hn hr
    have hob : t.obj = (runOps l0 s0).obj := by rw [hobj, hsame (.inr hr)]
    obtain ⟨run, b1, b2⟩ := runOptz_best m3
    rw [hob]
    refine ⟨g, info, p, run, x, hg, m1, m2, by rw [← hst']; exact b1, b2, ?_⟩
    obtain ⟨kk, vv, ff, gg, hii⟩ := hinv.info info m1
    rw [hst'] at hii
    rw [hii] at m4
    obtain ⟨d1, d2, d3, d4⟩ := decode_theta m4
    obtain ⟨hp1, f1, -, -, f4, -⟩ := hpVec2Dataclass_ok ((runOps l0 s0).obj.decGp g) st.log st.dim (t := true) (k := kk) d2 d3 d4 x
      (d1.trans (hpSlots_length ..).symm)
    rw [m4] at f1
    cases f1
    refine ⟨info, kk, vv, ff, gg, m1, ⟨true, false, false, by
      rw [hii]; exact setHpOptzInfo_ok st.log st.dim (fun _ => rfl) (fun _ => rfl) (fun _ => rfl)⟩, d1.trans (hpSlots_length ..).symm, ?_⟩
    intro p' s' hs'
    rw [← f4 p' s' hs', m7]
    have hmem := List.mem_of_getElem? hs'
    cases s' with
    | varK =>
      have hvv : vv = true := by
        simpa [hpSlots] using hmem
      exact m8 (d2 hvv)
    | _ => rfl
  · rw [hnE, hmt]
    intro hr g' hg' v β R hη
    rw [hg] at hg'
    cases hg'
    obtain ⟨κ, η, k1, k2⟩ := optz_cond A (by rw [hst']; exact hr) R hη
    exact ⟨κ, η, by rw [r3.cond]; exact k1, k2⟩


theorem runOps_append (l l' : List SOp) (s : Session) : runOps (l ++ l') s = runOps l' (runOps l s) := by
  induction l generalizing s with
  | nil => rfl
  | cons a l ih => exact ih _

/-- **C77, bound.** If the method is preconditioning, the condition number is measured in the spectral norm, and the data `d` were
accepted just before the optimisation, the recorded condition number is at most `cond_max_target`, whatever the optimiser returns (that
is admissible). -/
theorem C77_precon_bound {st : GpStatic} (hlo : st.log.var = true) (hi : 0 < st.varKInit) (hst : NugOk st) (hug : st.useGrad = true)
    (hfro : st.fro = false) {m : Option String} {s0 s1 : Session} (h0 : newSession st m = .ok s0) (l0 : List SOp) (hl0 : ∀ a ∈ l0, a.posSet)
    {d : DataIn} (hX : PointsFit st.dim d) (hn : 0 < d.fval.size) (hm : st.kernel = .ratQuad → numGrads d = d.fval.size)
    (hd : (SOp.data d).run (runOps l0 s0) = (s1, .ok ())) {h : Surr} (hh : s1.h = some h) (hpre : s1.obj.mtd = .precon)
    {c : OptzCfg} {q : Oracle} {k : ℕ} {hp : Option HpF} {cc : Bool} {t : Session} (ht : setHpara c q "optz" k hp cc s1 = (t, .ok ()))
    {hv : HpVals} (hv' : t.hp = some (HpF.ofVals hv)) {v β : ℝ} (hhv : HpFor st d hv v β) :
    ∃ h' κ, t.h = some h' ∧ (h'.one .cond).get k = some κ ∧ κ ≤ st.condMaxTarget := by
  have hcfg : CfgOk st (runOps l0 s0).obj := runOps_cfgOk l0 (new_cfgOk h0)
  have hd' := data_call hd
  obtain ⟨hL, hC, -⟩ := setData_loaded hd'
  have hst' : (runOps l0 s0).obj.st = st := hcfg.eq
  have hs1 : runOps (l0 ++ [.data d]) s0 = s1 := by rw [runOps_append, runOps, runOps, hd]
  have hus : (runOps l0 s0).obj.useScl = false := by
    rw [hcfg.scl, show (runOps l0 s0).obj.mtd = .precon from hL.mtd ▸ hpre]; rfl
  obtain ⟨k', h', hv1, a, e1, e2, e3, e4, e5, -, e6⟩ := C77_optimised_row hlo hi h0 (l0 ++ [.data d])
    (by
      intro a ha
      rcases List.mem_append.mp ha with ha | ha
      · exact hl0 a ha
      · rw [List.mem_singleton] at ha; rw [ha]; trivial)
    (by rw [hs1]; exact hh) (c := c) (q := q) (i := k) (hp := hp) (cc := cc) (t := t) (by rw [hs1]; exact ht) (by
      intro hu
      obtain ⟨-, hv2, -, ⟨sc, h1, e, p, hfr⟩, -⟩ := C66_optz (runOps_inv hlo hi (l0 ++ [.data d]) (new_inv h0) (by
        intro a ha
        rcases List.mem_append.mp ha with ha | ha
        · exact hl0 a ha
        · rw [List.mem_singleton] at ha; rw [ha]; trivial)) (by rw [hs1]; exact ht)
      rw [hfr, hs1] at hu
      have : s1.obj.useScl = true := hu
      rw [hL.useScl, hus] at this
      cases this)
  obtain rfl := denotes_nat e1
  have hvv : hv1 = hv := by
    rw [hv'] at e3
    have := ofVals_nums hv
    rw [Option.some.inj e3, ofVals_nums] at this
    exact Option.some.inj this
  subst hvv
  obtain ⟨g0, g, v1, v2, -, v4, -⟩ := loaded_view hL (by rw [hst']; rw [hst'] at hC; exact hC) (by rw [hst']; exact hX)
    (fun _ => by rw [hst']; exact hug)
  obtain ⟨hok, g1, g2, g3, g4, -, -, g7, -⟩ := loaded_fields hL (by rw [hst']; rw [hst'] at hC; exact hC) (by rw [hst']; exact hX)
    (fun _ => by rw [hst']; exact hug) v2
  rw [hst'] at g1 g2 g3
  obtain ⟨R, hη⟩ := data_ready hcfg hst hX hn hd' (.inl hug) hm (.inl v2) hhv
  have hmt : t.obj.mtd = .precon := by
    obtain ⟨-, hv2, -, ⟨sc, h1, e, p, hfr⟩, -⟩ := C66_optz (runOps_inv hlo hi (l0 ++ [.data d]) (new_inv h0) (by
      intro a ha
      rcases List.mem_append.mp ha with ha | ha
      · exact hl0 a ha
      · rw [List.mem_singleton] at ha; rw [ha]; trivial)) (by rw [hs1]; exact ht)
    rw [hfr, hs1]; exact hpre
  obtain ⟨κ, η, k1, k2, k3⟩ := e6 (.inr (.inl (by rw [hmt]; rfl))) g (by rw [hs1]; exact v2) v β R hη
  have hst1 : s1.obj.st = st := hL.st.trans hst'
  have hop : g.o.precon = true := by rw [g7]; simp [GpObj.condOpts, hpre]
  have hof : g.o.fro = false := by rw [g7]; show s1.obj.st.fro = false; rw [hst1]; exact hfro
  have hoc : g.o.condMaxTarget = st.condMaxTarget := by rw [g7]; show s1.obj.st.condMaxTarget = _; rw [hst1]
  have hgu : g.useGrad = true := g2.trans hug
  obtain ⟨T, hT, -⟩ := calcRtensor_ok (X := g.x) (Y := g.x) rfl
  obtain ⟨Na, K, out, n1, n2, n3, n4, n5, n6, n7, n8⟩ := calcAllK_ok R.ok R.adm R.noise R.precon R.ne hT false true none false R.vpos
    ⟨⟨v, by simpa using R.varK, fun _ => rfl⟩, fun h => by cases h⟩
  obtain ⟨m1, m2⟩ := k3 K (toVec g.nData Na) n3 ⟨Na, n2, fun _ => rfl⟩
  have hnd : 0 < g.nData := by rw [R.ok.nData]; have := R.ne; omega
  have hnug := cov_nugget R.vpos hnd n8
  have hηe := isNugget_unique m1 hnug
  have hcl : CondLe (unitDiag out.Kcov) g.o.condMaxTarget := by
    cases hec : g.o.etaConst with
    | true =>
      have hneq : calcNugget (preconNug g st.etaMtd st.etaDflt) g.nEval = .ok (s1.obj.etaKbase, some g.o.etaK) := by
        have := hL.eta
        have he := hL.etaK
        rw [hst', hug, if_pos rfl] at he
        rw [he] at this
        rw [g4, g7]
        show calcNugget _ _ = .ok (s1.obj.etaKbase, some s1.obj.etaK)
        rw [← this]
        unfold preconNug GpObj.nugOpts
        rw [g1, g2, g3, hoc, hst', show (runOps l0 s0).obj.mtd = .precon from hL.mtd ▸ hpre]
      obtain ⟨T', out', cc', c1, c2, c3, c4, c5⟩ := C20_precon_condition_bound R.ok R.adm hgu hop hec hof R.ne (by rw [g1]; exact hst.1)
        (by rw [hoc]; exact hst.2.1) (em := st.etaMtd) (by rcases hst.2.2 with h | h <;> rw [h] <;> decide) hneq R.vpos R.varK false
      rw [hT] at c1
      cases c1
      rw [n7] at c2
      cases c2
      exact c5
    | false =>
      obtain ⟨T', out', cc', c1, c2, c3, c4, c5⟩ := C22_varying_nugget_object R.ok R.adm R.precon hec hof R.ne (.inl hop)
        (by rw [hoc]; exact hst.2.1) R.vpos R.varK false
      rw [hT] at c1
      cases c1
      rw [n7] at c2
      cases c2
      rw [hop, if_pos rfl] at c5
      exact c5
  rw [hof, hop, hηe] at m2
  rw [cov_noisyCov R.vpos n8, hop, hoc] at hcl
  exact ⟨h', κ, e2, k1, isCondNum_le m2 hcl⟩


/-- Hyperparameters that are ready for the loaded object fit the data. -/
theorem ready_hpFor {st : GpStatic} {d : DataIn} {o o' : GpObj} (hst : o.st = st) (hL : Loaded d o o') (hC : Consistent o.st.dim o.st.useGrad d)
    (hX : PointsFit o.st.dim d) (hu : o.useScl = true → o.st.useGrad = true) {g : Gp} (hg : o'.view = .ok g) {hp : HpVals} {v β : ℝ}
    (R : Ready g hp v β) : HpFor st d hp v β := by
  obtain ⟨-, g1, g2, g3, -, g5, g6, -⟩ := loaded_fields hL hC hX hu hg
  subst hst
  have A := R.adm
  refine ⟨by rw [← g1]; exact A.theta, by rw [← g3]; exact A.kernel, R.varK, R.vpos, R.beta, fun S hS => ?_, fun hS => ?_, fun hug S hS => ?_,
    fun hug hS => ?_⟩
  · rcases hL.stdFval with ⟨h1, -⟩ | ⟨-, -, -, h2, -⟩
    · exact (noise_excl hS h1).elim
    · exact A.vf_none (g5.trans h2)
  · rcases hL.stdFval with ⟨-, h2, -⟩ | ⟨S, -, h1, -⟩
    · exact A.vf_some (g5.trans h2)
    · exact (noise_excl h1 hS).elim
  · rcases hL.stdGrad with ⟨h1 | h1, -⟩ | ⟨-, -, -, -, h2, -⟩
    · rw [hug] at h1; cases h1
    · exact (noise_excl hS h1).elim
    · exact A.vg_none (g2.trans hug) (g6.trans h2)
  · rcases hL.stdGrad with ⟨-, h2, -⟩ | ⟨S, -, -, h1, -⟩
    · exact A.vg_some (g2.trans hug) (g6.trans h2)
    · exact (noise_excl h1 hS).elim

/-! ### Concrete case -/

/-- Preconditioning, one point, an arbitrary optimiser: the optimisation succeeds, and a condition number that satisfies the bound is
recorded in row 2 of the history. -/
example (c : OptzCfg) (q : Oracle) : ∃ s0 t h' κ, newSession exStatic (some "precon") = .ok s0 ∧
    setHpara c q "optz" 2 none true (runOps [.init 3, .data exOne] s0) = (t, .ok ()) ∧ t.h = some h' ∧
    (h'.one .cond).get 2 = some κ ∧ κ ≤ exStatic.condMaxTarget := by
  obtain ⟨o, ho⟩ := newGp_total exStatic (s := "precon") (by decide)
  have hr : GpReach exStatic o := .new ho
  have hpre : o.mtd = .precon := by
    unfold newGp setWellcond at ho
    cases ho
    rfl
  obtain ⟨o', g, h1, -, -, h2, -⟩ := C62_accepts hr exStatic_ok.1 exOne_consistent rfl (by decide)
    (fun _ S hS => by decide) (fun _ S hS => by cases hS; rfl)
  obtain ⟨hL, hC, -⟩ := setData_loaded h1
  have hst : o.st = exStatic := (reach_cfgOk hr).eq
  have hs0 : newSession exStatic (some "precon") = .ok { obj := o } := by unfold newSession; rw [ho]; rfl
  set s0 : Session := { obj := o } with hs0d
  obtain ⟨hh, i1, i2, i3, -⟩ := init_sized 3 s0.surr
  have hobj : (s0.init 3).obj = o := rfl
  have hd : (SOp.data exOne).run (runOps [.init 3] s0) = ({ s0.init 3 with obj := o' }, .ok ()) := by
    show Session.lift (setData exOne) (s0.init 3) = _
    unfold Session.lift
    rw [hobj, h1]
  have H : Hist 3 ({ s0.init 3 with obj := o' } : Session) hh := ⟨i1, by
    show Sized o'.st.dim _ _ _
    rw [hL.st]; exact i2, i3⟩
  obtain ⟨t, g', h3, -, h5, h6, -⟩ := C72_few_points hr exStatic_ok.2 exStatic_ok.1 (d := exOne) rfl (by decide) h1 (Or.inl rfl)
    (fun _ => rfl) (by decide) (s := { s0.init 3 with obj := o' }) rfl H (i := 2) (k := 2) (by simp [Denotes]) c q none true
  have hR := C67_ready hr exStatic_ok.2 exStatic_ok.1 (d := exOne) rfl (by decide) h1 (.inl rfl) (fun _ => rfl) h5
  have hfor := ready_hpFor hst hL hC (by rw [hst]; rfl) (fun _ => by rw [hst]; rfl) h5 hR
  obtain ⟨h', κ, k1, k2, k3⟩ := C77_precon_bound (st := exStatic) rfl exStatic_ok.2.varK exStatic_ok.1 rfl rfl hs0 [.init 3]
    (by simp [SOp.posSet]) (d := exOne) rfl (by decide) (fun _ => rfl) hd H.eq (by rw [hL.mtd]; exact hpre) (k := 2) h3 h6 hfor
  have hrun : runOps [.init 3, .data exOne] s0 = { s0.init 3 with obj := o' } := by
    show ((SOp.data exOne).run (runOps [.init 3] s0)).1 = _
    rw [hd]
  exact ⟨s0, t, h', κ, hs0, by rw [hrun]; exact h3, k1, k2, k3⟩

end Props
