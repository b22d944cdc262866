import Verif.Proofs.Reindex
import Verif.Props.EvalDerivs

/-! Properties C80-C82: what the predictions do not depend on. -/

open Np Spec GP Matrix

noncomputable section

namespace GP

theorem evalOut_eq {n d : ℕ} {o o' : EvalOut n d} (h1 : o.mu = o'.mu) (h2 : o.sig = o'.sig) (h3 : o.dmu = o'.dmu) (h4 : o.dsig = o'.dsig)
    (h5 : o.d2mu = o'.d2mu) (h6 : o.d2sig = o'.d2sig) : o = o' := by
  cases o; cases o'; simp_all

section
variable {π τ : Equiv.Perm ℕ} {c : Pt} {g : Gp} {D : DataSet} (hg : GpOk g) {hp : HpVals} (h : Rearranged π τ c g D)
    {M : Mat g.nData g.nData} {M' : Mat (withData g D).nData (withData g D).nData} (hM : M'.submatrix (permRow hg h) (permRow hg h) = M)
    {x x' : Pt} (hx : ∀ d < g.dim, x' d = x d + c d)
include hM hx

theorem muF_perm {r : Vec g.nData} {r' : Vec (withData g D).nData} (hr : r' ∘ permRow hg h = r) (β : ℝ) :
    muF (withData g D) hp (M'⁻¹ *ᵥ r') β x' = muF g hp (M⁻¹ *ᵥ r) β x := by
  unfold muF
  rw [quad_perm _ hM (kv_permRow hg h hx) hr]

theorem dmuF_perm {r : Vec g.nData} {r' : Vec (withData g D).nData} (hr : r' ∘ permRow hg h = r) {i : ℕ} (hi : i < g.dim) :
    dmuF (withData g D) hp (M'⁻¹ *ᵥ r') x' i = dmuF g hp (M⁻¹ *ᵥ r) x i := by
  unfold dmuF
  rw [quad_perm _ hM (kd_permRow hg h hx hi) hr]

theorem sgF_perm (v : ℝ) : sgF (withData g D) hp M' v x' = sgF g hp M v x := by
  unfold sgF s2F
  rw [quad_perm _ hM (kv_permRow hg h hx) (kv_permRow hg h hx)]

theorem dsgF_perm (v : ℝ) {i : ℕ} (hi : i < g.dim) : dsgF (withData g D) hp M' v x' i = dsgF g hp M v x i := by
  unfold dsgF
  rw [sgF_perm hg h hM hx, quad_perm _ hM (kd_permRow hg h hx hi) (kv_permRow hg h hx)]

end

theorem evalClosed_noHess {g : Gp} {hp : HpVals} {M : Mat g.nData g.nData} {w : Vec g.nData} {β v : ℝ} {X : Arr2} {cg : Bool} :
    (evalClosed g hp M w β v X cg false).d2mu = none ∧ (evalClosed g hp M w β v X cg false).d2sig = none := by
  simp [evalClosed]

theorem evalClosed_noGrad {g : Gp} {hp : HpVals} {M : Mat g.nData g.nData} {w : Vec g.nData} {β v : ℝ} {X : Arr2} {ch : Bool} :
    (evalClosed g hp M w β v X false ch).dmu = none ∧ (evalClosed g hp M w β v X false ch).dsig = none := by
  simp [evalClosed]

theorem evalClosed_perm {π τ : Equiv.Perm ℕ} {c : Pt} {g : Gp} {D : DataSet} (hg : GpOk g) {hp : HpVals} (h : Rearranged π τ c g D)
    {M : Mat g.nData g.nData} {M' : Mat (withData g D).nData (withData g D).nData} (hM : M'.submatrix (permRow hg h) (permRow hg h) = M) {r : Vec g.nData}
    {r' : Vec (withData g D).nData} (hr : r' ∘ permRow hg h = r) (β v : ℝ) {X : Arr2} (cg : Bool) :
    (evalClosed (withData g D) hp M' (M'⁻¹ *ᵥ r') β v (shifted c X) cg false : EvalOut X.r g.dim) =
      evalClosed g hp M (M⁻¹ *ᵥ r) β v X cg false := by
  have hx : ∀ a, ∀ d < g.dim, (shifted c X).get a d = X.get a d + c d := fun _ _ _ => rfl
  have a1 := evalClosed_noHess (g := withData g D) (hp := hp) (M := M') (w := M'⁻¹ *ᵥ r') (β := β) (v := v) (X := shifted c X) (cg := cg)
  have a2 := evalClosed_noHess (g := g) (hp := hp) (M := M) (w := M⁻¹ *ᵥ r) (β := β) (v := v) (X := X) (cg := cg)
  have hd : (evalClosed (withData g D) hp M' (M'⁻¹ *ᵥ r') β v (shifted c X) cg false).dmu = (evalClosed g hp M (M⁻¹ *ᵥ r) β v X cg false).dmu := by
    cases cg with
    | false =>
      have b1 := evalClosed_noGrad (g := withData g D) (hp := hp) (M := M') (w := M'⁻¹ *ᵥ r') (β := β) (v := v) (X := shifted c X) (ch := false)
      have b2 := evalClosed_noGrad (g := g) (hp := hp) (M := M) (w := M⁻¹ *ᵥ r) (β := β) (v := v) (X := X) (ch := false)
      exact b1.1.trans b2.1.symm
    | true => exact congrArg some (Matrix.ext fun a i => dmuF_perm hg h hM (hx a) hr i.2)
  have hd' : (evalClosed (withData g D) hp M' (M'⁻¹ *ᵥ r') β v (shifted c X) cg false).dsig = (evalClosed g hp M (M⁻¹ *ᵥ r) β v X cg false).dsig := by
    cases cg with
    | false =>
      have b1 := evalClosed_noGrad (g := withData g D) (hp := hp) (M := M') (w := M'⁻¹ *ᵥ r') (β := β) (v := v) (X := shifted c X) (ch := false)
      have b2 := evalClosed_noGrad (g := g) (hp := hp) (M := M) (w := M⁻¹ *ᵥ r) (β := β) (v := v) (X := X) (ch := false)
      exact b1.2.trans b2.2.symm
    | true => exact congrArg some (Matrix.ext fun a i => dsgF_perm hg h hM (hx a) v i.2)
  exact evalOut_eq (funext fun a => muF_perm hg h hM (hx a) hr β) (funext fun a => sgF_perm hg h hM (hx a) v) hd hd'
    (a1.1.trans a2.1.symm) (a1.2.trans a2.2.symm)

end GP

namespace Props

/-- **C80/C81**, general form: an object with the same settings whose data are those of `g` in another order and with all points
shifted by `c` makes the same predictions at points shifted by `c`: means, standard deviations and their gradients. -/
theorem C80_rearranged {π τ : Equiv.Perm ℕ} {c : Pt} {g : Gp} {D : DataSet} (h : Rearranged π τ c g D) {hp : HpVals} {v β : ℝ}
    (hr : Ready g hp v β) (hr' : Ready (withData g D) hp v β) {cc cc' : Bool} {st : EvalState g.nData}
    {st' : EvalState (withData g D).nData} (hst : setupEvalModel g hp cc = .ok st)
    (hst' : setupEvalModel (withData g D) hp cc' = .ok st') (hF : st.chofac ≠ none) (hF' : st'.chofac ≠ none)
    {X : Arr2} (hX : X.c = g.dim) (hXr : 0 < X.r) (cg : Bool) :
    st'.etaK = st.etaK ∧ ∃ out : EvalOut X.r g.dim, evalModel g st hp X cg false = .ok out ∧
      evalModel (withData g D) st' hp (shifted c X) cg false = .ok out := by
  obtain ⟨N, K, hs, -⟩ := ready_setup hr.toV hst
  obtain ⟨N', K', hs', -⟩ := ready_setup hr'.toV hst'
  obtain ⟨hη, hM⟩ := setup_perm hr.ok hr'.ok hr.adm hr'.adm h hs hs'
  refine ⟨hη, _, ready_eval hr hs hF hX hXr cg false noHess, ?_⟩
  rw [ready_eval hr' hs' hF' (X := shifted c X) hX hXr cg false noHess]
  exact congrArg _ (evalClosed_perm hr.ok h hM (data_perm hr.ok hr'.ok h hs.data hs'.data) β v cg)

/-- With a positive nugget the model can be set up. -/
theorem ready_total {g : Gp} {hp : HpVals} {v β : ℝ} (hr : ReadyV g hp v β)
    (hη : if g.o.etaConst then 0 < g.o.etaK else 1 < g.o.condMaxTarget) :
    ∃ st, setupEvalModel g hp false = .ok st ∧ st.chofac ≠ none := by
  obtain ⟨b, hb, hbn, hbβ⟩ := hr.beta
  obtain ⟨N, K, st, hst, hs⟩ := setup_ok hr.ok hr.adm hr.noise hr.precon hr.ne hr.vpos hr.varK hb hbn false
  have hpd : st.KernEta.PosDef := by
    rw [hs.cov]
    obtain ⟨Na, hNa, rfl⟩ := hs.noise
    have hN := NoiseSpec.nonneg hr.ok hr.adm hNa
    refine posDef_add_diagonal hs.psd fun i => add_pos_of_nonneg_of_pos (hN i) (mul_pos (hs.etaPos hη) ?_)
    split_ifs
    · have := hs.diag i; have := hN i; linarith
    · norm_num
  obtain ⟨F, hF⟩ := hs.facSome (.inl rfl) hpd
  exact ⟨st, hst, by rw [hF]; simp⟩

theorem shifted_zero (X : Arr2) : shifted (fun _ => 0) X = X := by
  obtain ⟨r, c, f⟩ := X
  simp [shifted]

/-- **C80** Predictions do not depend on the order of the data: an object with the same settings that was given the same points,
values, gradients and noise levels in another order uses the same nugget and returns the same means and standard
deviations, and the same gradients of both. -/
theorem C80_order {π τ : Equiv.Perm ℕ} {g : Gp} {D : DataSet} (h : Rearranged π τ (fun _ => 0) g D) {hp : HpVals} {v β : ℝ}
    (hr : Ready g hp v β) (hr' : Ready (withData g D) hp v β) {cc cc' : Bool} {st : EvalState g.nData}
    {st' : EvalState (withData g D).nData} (hst : setupEvalModel g hp cc = .ok st)
    (hst' : setupEvalModel (withData g D) hp cc' = .ok st') (hF : st.chofac ≠ none) (hF' : st'.chofac ≠ none)
    {X : Arr2} (hX : X.c = g.dim) (hXr : 0 < X.r) (cg : Bool) :
    st'.etaK = st.etaK ∧ ∃ out : EvalOut X.r g.dim, evalModel g st hp X cg false = .ok out ∧
      evalModel (withData g D) st' hp X cg false = .ok out := by
  have := C80_rearranged h hr hr' hst hst' hF hF' hX hXr cg
  obtain ⟨h1, out, h2, h3⟩ := this
  refine ⟨h1, out, h2, ?_⟩
  have e : ∀ Y : Arr2, Y = X → ∀ (hY : Y.r = X.r), (hY ▸ evalModel (withData g D) st' hp Y cg false : Py (EvalOut X.r g.dim)) = .ok out →
      evalModel (withData g D) st' hp X cg false = .ok out := by
    rintro Y rfl hY h
    exact h
  exact e _ (shifted_zero X) rfl h3

/-- **C80** Whether the covariance matrix can be factorised does not depend on the order of the data or on the origin either. -/
theorem C80_factor {π τ : Equiv.Perm ℕ} {c : Pt} {g : Gp} {D : DataSet} (h : Rearranged π τ c g D) {hp : HpVals} {v β : ℝ}
    (hr : ReadyV g hp v β) (hr' : ReadyV (withData g D) hp v β) {cc cc' : Bool} {st : EvalState g.nData}
    {st' : EvalState (withData g D).nData} (hst : setupEvalModel g hp cc = .ok st)
    (hst' : setupEvalModel (withData g D) hp cc' = .ok st') (hc : cc' = false ∨ g.o.precon = true) (hF : st.chofac ≠ none) :
    st'.chofac ≠ none := by
  obtain ⟨N, K, hs, -⟩ := ready_setup hr hst
  obtain ⟨N', K', hs', -⟩ := ready_setup hr' hst'
  obtain ⟨-, hM⟩ := setup_perm hr.ok hr'.ok hr.adm hr'.adm h hs hs'
  have hpd := ready_pd hs hF
  rw [← hM] at hpd
  obtain ⟨F, hF'⟩ := hs'.facSome hc (by
    have := hpd.submatrix (e := (permRow hr.ok h).symm) (permRow hr.ok h).symm.injective
    simpa using this)
  rw [hF']; simp

/-- The data of `g` with all points shifted by `c`. -/
def shiftData (c : Pt) (g : Gp) : DataSet := ⟨shifted c g.x, g.fval, g.bvec, g.grad, g.stdFval, g.stdGrad⟩

theorem shiftData_rearranged (c : Pt) (g : Gp) : Rearranged 1 1 c g (shiftData c g) where
  pt_lt := fun _ h => h
  gr_lt := fun _ h => h
  x := fun _ _ _ _ => rfl
  fval := fun _ _ => rfl
  gsel := fun _ _ => rfl
  grad := by
    intro G G' h h' a _ i _
    cases (show some G = some G' from h.symm.trans h')
    rfl
  stdF := by
    intro G G' h h' a _
    cases (show some G = some G' from h.symm.trans h')
    rfl
  stdG := by
    intro G G' h h' a _ i _
    cases (show some G = some G' from h.symm.trans h')
    rfl

theorem shiftData_ready {g : Gp} {hp : HpVals} {v β : ℝ} (hr : Ready g hp v β) (c : Pt) : Ready (withData g (shiftData c g)) hp v β :=
  { ok := { hr.ok with x_r := hr.ok.x_r, x_c := hr.ok.x_c }
    adm := ⟨hr.adm.theta, hr.adm.kernel, hr.adm.vf_none, hr.adm.vf_some, hr.adm.vg_none, hr.adm.vg_some⟩
    noise := hr.noise
    precon := hr.precon
    ne := hr.ne
    vpos := hr.vpos
    varK := hr.varK
    beta := hr.beta
    eta := hr.eta
    mask := hr.mask }

/-- **C81** Predictions do not depend on the choice of the origin: shifting all data points and all prediction points by the
same vector changes neither means nor standard deviations nor gradients. -/
theorem C81_translation {g : Gp} {hp : HpVals} {v β : ℝ} (hr : Ready g hp v β) (c : Pt) {cc cc' : Bool} {st : EvalState g.nData}
    {st' : EvalState (withData g (shiftData c g)).nData} (hst : setupEvalModel g hp cc = .ok st)
    (hst' : setupEvalModel (withData g (shiftData c g)) hp cc' = .ok st') (hF : st.chofac ≠ none) (hc : cc' = false ∨ g.o.precon = true)
    {X : Arr2} (hX : X.c = g.dim) (hXr : 0 < X.r) (cg : Bool) :
    st'.etaK = st.etaK ∧ ∃ out : EvalOut X.r g.dim, evalModel g st hp X cg false = .ok out ∧
      evalModel (withData g (shiftData c g)) st' hp (shifted c X) cg false = .ok out :=
  have h := shiftData_rearranged c g
  have hr' := shiftData_ready hr c
  C80_rearranged h hr hr' hst hst' hF (C80_factor h hr.toV hr'.toV hst hst' hc hF) hX hXr cg

/-- The data of `exGp` with the two points swapped. -/
def exSwapped : DataSet where
  x := ⟨2, 2, fun p d => exX.get (Equiv.swap 0 1 p) d⟩
  fval := ⟨2, fun p => exGp.fval.get (Equiv.swap 0 1 p)⟩
  bvec := some [true, false]
  grad := exGp.grad
  stdFval := exGp.stdFval.map fun s => ⟨2, fun p => s.get (Equiv.swap 0 1 p)⟩
  stdGrad := exGp.stdGrad

theorem exSwapped_rearranged : Rearranged (Equiv.swap 0 1) 1 (fun _ => 0) exGp exSwapped where
  pt_lt := by
    intro p hp
    have : p = 0 ∨ p = 1 := by have : p < 2 := hp; omega
    rcases this with rfl | rfl <;> simp [exGp]
  gr_lt := fun _ h => h
  x := by intro p _ d _; simp [exSwapped, exGp]
  fval := by intro p _; simp [exSwapped]
  gsel := by
    intro a ha
    have : a = 0 := by have : a < 1 := ha; omega
    subst this
    simp [exSwapped, exGp, gSel]
    decide
  grad := by
    intro G G' h h' a _ i _
    cases (show some G = some G' from h.symm.trans h')
    rfl
  stdF := by
    intro s s' h h' p _
    simp only [exSwapped, h, Option.map_some] at h'
    cases h'
    simp
  stdG := by
    intro G G' h h' a _ i _
    cases (show some G = some G' from h.symm.trans h')
    rfl

theorem exSwapped_ready : Ready (withData exGp exSwapped) exHpB 3 4 where
  ok := { exGp_ok with
    x_r := rfl
    x_c := rfl
    fval_n := rfl
    mask := by intro l h; cases h; rfl
    nGrad := rfl
    noMask := by intro h; cases h
    std_fval := fun _ => ⟨_, rfl, rfl⟩ }
  adm := ⟨exReady.adm.theta, exReady.adm.kernel, exReady.adm.vf_none, exReady.adm.vf_some, exReady.adm.vg_none, exReady.adm.vg_some⟩
  noise := .inl rfl
  precon := fun _ => rfl
  ne := exReady.ne
  vpos := exReady.vpos
  varK := rfl
  beta := ⟨_, rfl, rfl, rfl⟩
  eta := exReady.eta
  mask := by intro h; cases h

-- C80: two objects that hold the same masked, noisy data in different order
example : ∃ st st' out, setupEvalModel exGp exHpB false = .ok st ∧ setupEvalModel (withData exGp exSwapped) exHpB false = .ok st' ∧
    evalModel exGp st exHpB ⟨2, 2, fun a d => a + 3 * d⟩ true false = .ok out ∧
    evalModel (withData exGp exSwapped) st' exHpB ⟨2, 2, fun a d => a + 3 * d⟩ true false = .ok out := by
  obtain ⟨st, hst, hF⟩ := ready_total exReady.toV (by norm_num [exGp])
  obtain ⟨st', hst', hF'⟩ := ready_total exSwapped_ready.toV (by norm_num [exGp, withData])
  obtain ⟨-, out, h1, h2⟩ := C80_order exSwapped_rearranged exReady exSwapped_ready hst hst' hF hF' (X := ⟨2, 2, fun a d => a + 3 * d⟩)
    rfl (by decide) true
  exact ⟨st, st', out, hst, hst', h1, h2⟩

end Props
