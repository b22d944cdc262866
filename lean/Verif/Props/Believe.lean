import Verif.Proofs.Believe
import Verif.Props.MoreData

/-! Claim theorems for C115 and C116: observations that change no prediction. -/

open Np GP Spec Matrix Filter Topology

noncomputable section

namespace Props

/-- **C115**, general form, for two models with the same nugget. -/
theorem C115_nugget {π τ : ℕ → ℕ} {g g' : Gp} {hp hp' : HpVals} (h : MoreObs π τ g hp g' hp') {v v' β : ℝ} (hr : Ready g hp v β)
    (hr' : Ready g' hp' v' β) (hpr : g'.o.precon = g.o.precon) {cc cc' : Bool} {st : EvalState g.nData} {st' : EvalState g'.nData}
    (hst : setupEvalModel g hp cc = .ok st) (hst' : setupEvalModel g' hp' cc' = .ok st') (hF : st.chofac ≠ none) (hF' : st'.chofac ≠ none)
    (hη : st'.etaK = st.etaK) {out₀ : EvalOut g'.x.r g.dim} {dmu₀ : Mat g'.x.r g.dim} (hout : evalModel g st hp g'.x true false = .ok out₀)
    (hd : out₀.dmu = some dmu₀) (hobs : Observed π τ g g' out₀.mu dmu₀) {X : Arr2} (hX : X.c = g.dim) (hXr : 0 < X.r) :
    ∃ (out : EvalOut X.r g.dim) (out' : EvalOut X.r g'.dim) (dmu : Mat X.r g.dim) (dmu' : Mat X.r g'.dim),
      evalModel g st hp X true false = .ok out ∧ evalModel g' st' hp' X true false = .ok out' ∧ out.dmu = some dmu ∧ out'.dmu = some dmu' ∧
      (∀ a, out'.mu a = out.mu a) ∧ ∀ a (i : Fin g.dim), dmu' a (i.cast h.more.dim.symm) = dmu a i := by
  obtain ⟨N, K, hs, -⟩ := ready_setup hr.toV hst
  obtain ⟨N', K', hs', -⟩ := ready_setup hr'.toV hst'
  have hM := ready_pd hs hF
  have hM' := ready_pd hs' hF'
  set ι := moreRow hr.ok hr'.ok h.more with hι
  have hsub := kernEta_sub hr.ok hr'.ok h.more h hr.adm hr'.adm hpr hs hs' hη
  set r := st.dataVec - priorMean g β with hrdef
  set r' := st'.dataVec - priorMean g' β with hrdef'
  have hrr : ∀ p, r' (ι p) = r p := fun p => by
    rw [hrdef, hrdef', Pi.sub_apply, Pi.sub_apply, data_sameRow hr.ok hr'.ok h.more h hs.data hs'.data, priorMean_sameRow]
  have hxr : g'.x.r = g'.nEval := hr'.ok.x_r
  have hxc : g'.x.c = g.dim := hr'.ok.x_c.trans h.more.dim
  rw [ready_eval hr hs hF hxc (by rw [hxr]; exact hr'.ne) true false noHess] at hout
  cases hout
  have hdd : dmu₀ = of fun (a : Fin g'.x.r) (i : Fin g.dim) => dmuF g hp (st.KernEta⁻¹ *ᵥ r) (g'.x.get a) i := by
    have := Option.some.inj hd
    exact this.symm
  have hnew : ∀ q, (∀ p, ι p ≠ q) → (fun p => st'.KernEta (ι p) q) ⬝ᵥ (st.KernEta⁻¹ *ᵥ r) = r' q := by
    intro q hq
    have hcol : (fun p => st'.KernEta (ι p) q) = fun p => kk g' hp' (ι p) q := by
      funext p
      rw [hs'.cov, Matrix.add_apply, diagonal_apply_ne _ (hq p), add_zero, isKern_entry hr'.ok hr'.adm hs'.isKern]
    rw [hcol, hrdef', Pi.sub_apply]
    obtain ⟨hsq, hqq⟩ := dIx_spec hr'.ok q
    cases hx : dIx g' q with
    | v p =>
      rw [hx] at hsq hqq
      have hpn : p < g'.nEval := hsq
      have hqp : (q : ℕ) = p := hqq.symm
      rw [kk_col_val hr.ok hr'.ok h.more (q := q) (by simp [dco, hx])]
      have hobs1 := hobs.val ⟨p, lt_of_lt_of_eq hpn hxr.symm⟩ (new_val hr.ok hr'.ok h.more hq hx)
      have hpt : dpt g' q = g'.x.get p := by simp [dpt, hx, Ix.pt]
      rw [hpt, hs'.data.val q (hqp.trans_lt hpn), priorMean, if_pos (hqp.trans_lt hpn), hqp, show g'.fval.get p = _ from hobs1]
      show _ = (β + kv g hp (g'.x.get p) ⬝ᵥ _) - β
      ring
    | g i b =>
      rw [hx] at hsq hqq
      have hqp : (q : ℕ) = g'.nEval + i * g'.nGrad + b := hqq.symm
      have hi : i < g.dim := lt_of_lt_of_eq hsq.1 h.more.dim
      have hug' : g'.useGrad = true := by
        by_contra hu
        have := hr'.ok.nGrad
        rw [if_neg hu] at this
        have := hsq.2
        omega
      obtain ⟨G', hG', -, -⟩ := hr'.ok.grad_some hug'
      rw [kk_col_grad hr.ok hr'.ok h.more (q := q) (i := i) (by simp [dco, hx])]
      have hlt : gSel g'.bvec b < g'.nEval := by
        have := dpt_lt hr'.ok q
        rw [hx] at this
        exact this
      have hobs1 := hobs.grad G' hG' b (new_grad hr.ok hr'.ok h.more hq hx) ⟨_, lt_of_lt_of_eq hlt hxr.symm⟩ rfl ⟨i, hi⟩
      rw [hs'.data.grad G' hG' q i hsq.1 b hsq.2 hqp, show G'.get b i = _ from hobs1, priorMean, if_neg (by omega), hdd]
      have hpt : dpt g' q = g'.x.get (gSel g'.bvec b) := by simp [dpt, hx, Ix.pt]
      rw [hpt, sub_zero]
      rfl
  have hw := inv_spread hM hM' hsub hrr hnew
  refine ⟨_, _, _, _, ready_eval hr hs hF hX hXr true false noHess, ready_eval hr' hs' hF' (hX.trans h.more.dim.symm) hXr true false noHess,
    rfl, rfl, fun a => ?_, fun a i => ?_⟩
  · show β + kv g' hp' (X.get a) ⬝ᵥ (st'.KernEta⁻¹ *ᵥ r') = β + kv g hp (X.get a) ⬝ᵥ (st.KernEta⁻¹ *ᵥ r)
    rw [hw, dotProduct_comm, spreadOut_dot, kv_moreRow, dotProduct_comm]
  · show kd g' hp' (X.get a) i ⬝ᵥ (st'.KernEta⁻¹ *ᵥ r') = kd g hp (X.get a) i ⬝ᵥ (st.KernEta⁻¹ *ᵥ r)
    rw [hw, dotProduct_comm, spreadOut_dot, kd_moreRow _ _ _ _ i.2, dotProduct_comm]

/-- **C115.** Let `g'` hold the observations of `g`, with the same noise, and further observations, with noise of any size, each of which equals what
the model of `g` predicts there: a value or a gradient. With a constant nugget and the same hyperparameters, the two models predict the
same values and gradients everywhere. -/
theorem C115_believer {π τ : ℕ → ℕ} {g g' : Gp} {hp hp' : HpVals} (h : MoreObs π τ g hp g' hp') {v v' β : ℝ} (hr : Ready g hp v β)
    (hr' : Ready g' hp' v' β) (hpr : g'.o.precon = g.o.precon) (he : g.o.etaConst = true) (he' : g'.o.etaConst = true)
    (hη : g'.o.etaK = g.o.etaK) {cc cc' : Bool} {st : EvalState g.nData} {st' : EvalState g'.nData}
    (hst : setupEvalModel g hp cc = .ok st) (hst' : setupEvalModel g' hp' cc' = .ok st') (hF : st.chofac ≠ none) (hF' : st'.chofac ≠ none)
    {out₀ : EvalOut g'.x.r g.dim} {dmu₀ : Mat g'.x.r g.dim} (hout : evalModel g st hp g'.x true false = .ok out₀)
    (hd : out₀.dmu = some dmu₀) (hobs : Observed π τ g g' out₀.mu dmu₀) {X : Arr2} (hX : X.c = g.dim) (hXr : 0 < X.r) :
    ∃ (out : EvalOut X.r g.dim) (out' : EvalOut X.r g'.dim) (dmu : Mat X.r g.dim) (dmu' : Mat X.r g'.dim),
      evalModel g st hp X true false = .ok out ∧ evalModel g' st' hp' X true false = .ok out' ∧ out.dmu = some dmu ∧ out'.dmu = some dmu' ∧
      (∀ a, out'.mu a = out.mu a) ∧ ∀ a (i : Fin g.dim), dmu' a (i.cast h.more.dim.symm) = dmu a i := by
  obtain ⟨N, K, hs, -⟩ := ready_setup hr.toV hst
  obtain ⟨N', K', hs', -⟩ := ready_setup hr'.toV hst'
  exact C115_nugget h hr hr' hpr hst hst' hF hF' (by rw [hs.etaConst he, hs'.etaConst he', hη]) hout hd hobs hX hXr

/-- **C116.** Let `g'` hold the observations of `g`, with the same noise, and further observations. As the variances of the noise of the
further observations grow beyond all bounds, whether they are standard deviations given with the data or hyperparameters, the
predictions of `g'`, values, standard deviations and gradients of the values, tend to those of `g`. (Constant nugget, the same in both models.) -/
theorem C116_unbounded_noise {T : Type*} {l : Filter T} {π τ : ℕ → ℕ} {g g' : Gp} {hp hp' : HpVals} {sf : T → Option Arr1} {sg : T → Option Arr2}
    {vf vg : T → Option ℝ} (h : ∀ t, MoreObs π τ g hp (withNoise g' (sf t) (sg t)) (withNoiseHp hp' (vf t) (vg t))) {v β : ℝ} (hr : Ready g hp v β)
    (hr' : ∀ t, Ready (withNoise g' (sf t) (sg t)) (withNoiseHp hp' (vf t) (vg t)) v β) (hpr : g'.o.precon = g.o.precon)
    (he : g.o.etaConst = true) (he' : g'.o.etaConst = true) (hη : g'.o.etaK = g.o.etaK)
    (hval : ∀ p, NewVal π g g' p → Tendsto (fun t => valVar (withNoise g' (sf t) (sg t)) (withNoiseHp hp' (vf t) (vg t)) p) l atTop)
    (hgrad : ∀ b, NewGrad τ g g' b → ∀ i < g.dim,
      Tendsto (fun t => gradVar (withNoise g' (sf t) (sg t)) (withNoiseHp hp' (vf t) (vg t)) b i) l atTop)
    {cc cc' : Bool} {st : EvalState g.nData} {st' : T → EvalState g'.nData} (hst : setupEvalModel g hp cc = .ok st)
    (hst' : ∀ t, setupEvalModel (withNoise g' (sf t) (sg t)) (withNoiseHp hp' (vf t) (vg t)) cc' = .ok (st' t))
    (hF : st.chofac ≠ none) (hF' : ∀ t, (st' t).chofac ≠ none) {X : Arr2} (hX : X.c = g.dim) (hXr : 0 < X.r) :
    ∃ (out : EvalOut X.r g.dim) (out' : T → EvalOut X.r g'.dim) (dmu : Mat X.r g.dim) (dmu' : T → Mat X.r g'.dim),
      evalModel g st hp X true false = .ok out ∧
      (∀ t, evalModel (withNoise g' (sf t) (sg t)) (st' t) (withNoiseHp hp' (vf t) (vg t)) X true false = .ok (out' t)) ∧
      out.dmu = some dmu ∧ (∀ t, (out' t).dmu = some (dmu' t)) ∧
      (∀ a, Tendsto (fun t => (out' t).mu a) l (𝓝 (out.mu a)) ∧ Tendsto (fun t => (out' t).sig a) l (𝓝 (out.sig a))) ∧
      ∀ (a : Fin X.r) (i : Fin g.dim) (hi : (i : ℕ) < g'.dim), Tendsto (fun t => dmu' t a ⟨i, hi⟩) l (𝓝 (dmu a i)) := by
  obtain ⟨N, K, hs, -⟩ := ready_setup hr.toV hst
  choose N' K' hs' _ using fun t => ready_setup (hr' t).toV (hst' t)
  have hM := ready_pd hs hF
  have hM' := fun t => ready_pd (hs' t) (hF' t)
  refine ⟨_, _, _, _, ready_eval hr hs hF hX hXr true false noHess,
    fun t => ready_eval (hr' t) (hs' t) (hF' t) (hX.trans (h t).more.dim.symm) hXr true false noHess, rfl, fun t => rfl, ?_⟩
  rcases isEmpty_or_nonempty T with hT | ⟨⟨t₀⟩⟩
  · have hl : l = ⊥ := filter_eq_bot_of_isEmpty l
    rw [hl]
    exact ⟨fun a => ⟨tendsto_bot, tendsto_bot⟩, fun a i hi => tendsto_bot⟩
  have hηt : ∀ t, (st' t).etaK = st.etaK := fun t => by
    rw [hs.etaConst he]
    exact ((hs' t).etaConst he').trans hη
  have h0 : 0 ≤ st.etaK := hs.etaNonneg hr.eta
  set ι : Fin g.nData → Fin g'.nData := (moreRow hr.ok (hr' t₀).ok (h t₀).more : Fin g.nData → Fin (withNoise g' (sf t₀) (sg t₀)).nData) with hι
  have hιinj : Function.Injective ι := moreRow_inj hr.ok (hr' t₀).ok (h t₀).more
  have hsub : ∀ t, (st' t).KernEta.submatrix ι ι = st.KernEta := fun t =>
    kernEta_sub hr.ok (hr' t).ok (h t).more (h t) hr.adm (hr' t).adm hpr hs (hs' t) (hηt t)
  set K0 : Mat g'.nData g'.nData := of fun p q => kk g' hp' p q with hK0
  set Nn : T → Vec g'.nData := N' with hNn
  have hcov : ∀ t, (st' t).KernEta = K0 + diagonal (addDiag g' K0 (Nn t) st.etaK) := fun t => by
    have e := (hs' t).cov
    have hKt : K' t = (K0 : Mat (withNoise g' (sf t) (sg t)).nData (withNoise g' (sf t) (sg t)).nData) := by
      ext p q
      exact isKern_entry (hr' t).ok (hr' t).adm (hs' t).isKern p q
    rw [hηt, hKt] at e
    exact e
  have hK0d : ∀ q, 0 < K0 q q := fun q => by
    exact lt_of_lt_of_eq ((hs' t₀).diag q) (isKern_entry (hr' t₀).ok (hr' t₀).adm (hs' t₀).isKern q q)
  set s : T → Vec g'.nData := fun t q => addDiag g' K0 (Nn t) st.etaK q - addDiag g' K0 (Nn t₀) st.etaK q with hsdef
  have hMs : ∀ t, (st' t).KernEta = (st' t₀).KernEta + diagonal (s t) := fun t => by
    rw [hcov t, hcov t₀, add_assoc, diagonal_add]
    congr 2
    funext q
    simp only [hsdef]
    ring
  have hs0 : ∀ t p, s t (ι p) = 0 := fun t p => by
    have h1 : (st' t).KernEta (ι p) (ι p) = st.KernEta p p := by rw [← hsub t]; rfl
    have h2 : (st' t₀).KernEta (ι p) (ι p) = st.KernEta p p := by rw [← hsub t₀]; rfl
    rw [hMs t, Matrix.add_apply, diagonal_apply_eq] at h1
    linarith
  have hinf : ∀ q, (∀ p, ι p ≠ q) → Tendsto (fun t => s t q) l atTop := by
    intro q hq
    have hNq : Tendsto (fun t => Nn t q) l atTop := by
      obtain ⟨hsq, hqq⟩ := dIx_spec (hr' t₀).ok q
      cases hx : dIx (withNoise g' (sf t₀) (sg t₀)) q with
      | v p =>
        rw [hx] at hsq hqq
        have hqp : (q : ℕ) = p := hqq.symm
        refine (hval p (new_val hr.ok (hr' t₀).ok (h t₀).more hq hx)).congr fun t => ?_
        obtain ⟨Na, h1, h2⟩ := (hs' t).noise
        refine Eq.trans ?_ (congrFun h2 q).symm
        show _ = Na.get q
        rw [hqp]
        exact (h1.val p hsq).symm
      | g i b =>
        rw [hx] at hsq hqq
        have hqp : (q : ℕ) = g'.nEval + i * g'.nGrad + b := hqq.symm
        refine (hgrad b (new_grad hr.ok (hr' t₀).ok (h t₀).more hq hx) i (lt_of_lt_of_eq hsq.1 (h t₀).more.dim)).congr fun t => ?_
        obtain ⟨Na, h1, h2⟩ := (hs' t).noise
        refine Eq.trans ?_ (congrFun h2 q).symm
        show _ = Na.get q
        rw [hqp]
        exact (h1.grad i hsq.1 b hsq.2).symm
    have hge : ∀ t, Nn t q + (-addDiag g' K0 (Nn t₀) st.etaK q) ≤ s t q := by
      intro t
      have hn : 0 ≤ Nn t q := by
        obtain ⟨Na, h1, h2⟩ := (hs' t).noise
        exact (NoiseSpec.nonneg (hr' t).ok (hr' t).adm h1 q).trans_eq (congrFun h2 q).symm
      have hk := hK0d q
      have : 0 ≤ st.etaK * (if g'.o.precon then K0 q q + Nn t q else 1) := by
        refine mul_nonneg h0 ?_
        split_ifs
        · linarith
        · norm_num
      simp only [hsdef, addDiag]
      linarith
    exact tendsto_atTop_mono hge (tendsto_atTop_add_const_right _ _ hNq)
  have hlim : ∀ a b : Vec g'.nData, Tendsto (fun t => a ⬝ᵥ (st' t).KernEta⁻¹ *ᵥ b) l (𝓝 ((a ∘ ι) ⬝ᵥ st.KernEta⁻¹ *ᵥ (b ∘ ι))) := by
    intro a b
    have hM0 : (st' t₀).KernEta.PosDef := hM' t₀
    have := bil_spread_tendsto (n' := g'.nData) (C := (st' t₀).KernEta) hM0 hιinj hs0 hinf a b
    rw [hsub t₀] at this
    refine this.congr fun t => ?_
    rw [hMs t]
  set r := st.dataVec - priorMean g β with hrdef
  have hdat : ∀ t, (st' t).dataVec = (st' t₀).dataVec := fun t =>
    dataSpec_unique (hr' t₀).ok (y := (st' t).dataVec) ⟨(hs' t).data.val, (hs' t).data.grad⟩ (hs' t₀).data
  set r' : Vec g'.nData := (st' t₀).dataVec - priorMean g' β with hrdef'
  have hrr : r' ∘ ι = r := funext fun p => by
    show (st' t₀).dataVec (ι p) - priorMean g' β (ι p) = st.dataVec p - priorMean g β p
    have e1 := data_sameRow hr.ok (hr' t₀).ok (h t₀).more (h t₀) hs.data (hs' t₀).data p
    have e2 := priorMean_sameRow hr.ok (hr' t₀).ok (h t₀).more β p
    rw [← e1, ← e2]
    rfl
  have hkv : ∀ x, kv g' hp' x ∘ ι = kv g hp x := fun x => kv_moreRow hr.ok (hr' t₀).ok (h t₀).more x
  have hkd : ∀ x i, i < g.dim → kd g' hp' x i ∘ ι = kd g hp x i := fun x i hi => kd_moreRow hr.ok (hr' t₀).ok (h t₀).more x hi
  refine ⟨fun a => ⟨?_, ?_⟩, fun a i hi => ?_⟩
  · have h1 := hlim (kv g' hp' (X.get a)) r'
    rw [hkv, hrr] at h1
    refine (h1.const_add β).congr fun t => ?_
    show _ = β + kv g' hp' (X.get a) ⬝ᵥ ((st' t).KernEta⁻¹ *ᵥ ((st' t).dataVec - priorMean g' β))
    rw [hdat t]
  · have h1 := hlim (kv g' hp' (X.get a)) (kv g' hp' (X.get a))
    rw [hkv] at h1
    exact (((h1.const_sub 1).sqrt).mul_const (Real.sqrt v))
  · have h1 := hlim (kd g' hp' (X.get a) i) r'
    rw [hkd _ _ i.2, hrr] at h1
    refine h1.congr fun t => ?_
    show _ = kd g' hp' (X.get a) i ⬝ᵥ ((st' t).KernEta⁻¹ *ᵥ ((st' t).dataVec - priorMean g' β))
    rw [hdat t]

/-! ### Concrete cases -/

theorem exFixed_more (G : Arr2) (vg : ℝ) :
    MoreObs id id exGpFixedVals exHpB { exGpFixed with grad := some G } (withNoiseHp exHpB none (some vg)) where
  more := ⟨rfl, rfl, rfl, rfl, fun _ h => h, fun _ _ _ _ h => h, fun a ha => absurd ha (Nat.not_lt_zero a), fun a ha => absurd ha (Nat.not_lt_zero a),
    fun _ _ _ _ => rfl, fun a ha => absurd ha (Nat.not_lt_zero a), fun _ _ => le_of_eq rfl, fun a ha => absurd ha (Nat.not_lt_zero a)⟩
  valVar _ _ := rfl
  gradVar a ha := absurd ha (Nat.not_lt_zero a)
  fval _ _ := rfl
  grad _ _ h := nomatch h

theorem exFixed_ready (G : Arr2) (hG : G.r = 1 ∧ G.c = 2) (vg : ℝ) (hvg : 0 ≤ vg) :
    Ready { exGpFixed with grad := some G } (withNoiseHp exHpB none (some vg)) 3 4 where
  ok := { exGp_ok with grad_none := fun h => (nomatch h), grad_some := fun _ => ⟨G, rfl, hG⟩ }
  adm := ⟨exReady.adm.theta, exReady.adm.kernel, fun _ => rfl, fun h => (nomatch h), fun _ h => (nomatch h), fun _ _ => ⟨vg, rfl, hvg⟩⟩
  noise := .inl rfl
  precon := fun _ => rfl
  ne := exReady.ne
  vpos := exReady.vpos
  varK := rfl
  beta := ⟨_, rfl, rfl, rfl⟩
  eta := by norm_num [exGpFixed]
  mask := by intro h; cases h

/-- Two values; adding the predicted gradient at the second point, with a noise variance of 7, changes no predicted value. -/
example : ∃ (G : Arr2) (st : EvalState exGpFixedVals.nData) (st' : EvalState exGpFixed.nData), setupEvalModel exGpFixedVals exHpB false = .ok st ∧
    setupEvalModel { exGpFixed with grad := some G } (withNoiseHp exHpB none (some 7)) false = .ok st' ∧
    ∀ X : Arr2, X.c = 2 → 0 < X.r → ∃ out out', evalModel exGpFixedVals st exHpB X true false = .ok out ∧
      evalModel { exGpFixed with grad := some G } st' (withNoiseHp exHpB none (some 7)) X true false = .ok out' ∧ ∀ a, out'.mu a = out.mu a := by
  obtain ⟨st, hst, hF⟩ := ready_total exReadyFixedVals.toV (by norm_num [exGpFixedVals, exGpFixed])
  obtain ⟨N, K, hs, -⟩ := ready_setup exReadyFixedVals.toV hst
  have ho := ready_eval exReadyFixedVals hs hF (X := exGpFixed.x) rfl Nat.two_pos true false noHess
  set out₀ := evalClosed exGpFixedVals exHpB st.KernEta (st.KernEta⁻¹ *ᵥ (st.dataVec - priorMean exGpFixedVals 4)) 4 3 exGpFixed.x true false with hout
  obtain ⟨dmu, hd⟩ : ∃ dmu, out₀.dmu = some dmu := ⟨_, rfl⟩
  set G : Arr2 := ⟨1, 2, fun _ d => if h : d < 2 then dmu ⟨1, Nat.one_lt_two⟩ ⟨d, h⟩ else 0⟩ with hG
  have hr' := exFixed_ready G ⟨rfl, rfl⟩ 7 (by norm_num)
  obtain ⟨st', hst', hF'⟩ := ready_total hr'.toV (by norm_num [exGpFixed])
  refine ⟨G, st, st', hst, hst', fun X hX hXr => ?_⟩
  obtain ⟨out, out', dm, dm', h1, h2, -, -, h3, -⟩ := C115_believer (exFixed_more G 7) exReadyFixedVals hr' rfl rfl rfl rfl hst hst' hF hF' ho hd
    ⟨fun p hp => absurd rfl (hp.2 p hp.1), fun G' hG' b hb p hp i => by
      cases hG'
      have hb0 : b = 0 := Nat.lt_one_iff.mp hb.1
      have hp1 : p = ⟨1, Nat.one_lt_two⟩ := Fin.ext (by rw [hp, hb0]; rfl)
      rw [hp1, hG]
      exact dif_pos i.2⟩ hX hXr
  exact ⟨out, out', h1, h2, h3⟩

/-- Two values; with a gradient at the second point whose noise variance grows, the predictions tend to those from the values. -/
example : ∃ (st : EvalState exGpFixedVals.nData) (st' : ℕ → EvalState exGpFixed.nData), setupEvalModel exGpFixedVals exHpB false = .ok st ∧
    (∀ n : ℕ, setupEvalModel exGpFixed (withNoiseHp exHpB none (some n)) false = .ok (st' n)) ∧
    ∀ X : Arr2, X.c = 2 → 0 < X.r → ∃ (out : EvalOut X.r 2) (out' : ℕ → EvalOut X.r 2), evalModel exGpFixedVals st exHpB X true false = .ok out ∧
      (∀ n : ℕ, evalModel exGpFixed (st' n) (withNoiseHp exHpB none (some n)) X true false = .ok (out' n)) ∧
      ∀ a, Tendsto (fun n => (out' n).mu a) atTop (𝓝 (out.mu a)) ∧ Tendsto (fun n => (out' n).sig a) atTop (𝓝 (out.sig a)) := by
  obtain ⟨st, hst, hF⟩ := ready_total exReadyFixedVals.toV (by norm_num [exGpFixedVals, exGpFixed])
  have hr' : ∀ n : ℕ, Ready (withNoise exGpFixed exGpFixed.stdFval none) (withNoiseHp exHpB none (some n)) 3 4 := fun n =>
    exFixed_ready _ ⟨rfl, rfl⟩ n n.cast_nonneg
  choose st' hst' hF' using fun n => ready_total (hr' n).toV (by norm_num [exGpFixed, withNoise])
  refine ⟨st, st', hst, hst', fun X hX hXr => ?_⟩
  obtain ⟨out, out', -, -, h1, h2, -, -, h3, -⟩ := C116_unbounded_noise (l := atTop) (π := id) (τ := id) (g' := exGpFixed)
    (sf := fun _ => exGpFixed.stdFval) (sg := fun _ => none) (vf := fun _ => none) (vg := fun n : ℕ => some (n : ℝ))
    (fun n => exFixed_more _ n) exReadyFixedVals hr' rfl rfl rfl rfl (fun p hp => absurd rfl (hp.2 p hp.1))
    (fun b _ i _ => tendsto_natCast_atTop_atTop) hst hst' hF hF' hX hXr
  exact ⟨out, out', h1, h2, h3⟩

end Props
