import Verif.Proofs.EvalCore3
import Verif.Proofs.EvalDeriv

/-! `eval_model` with the rational quadratic kernel when exactly one of several points has a gradient: the masked kernel
code broadcasts one row. -/

open Np Spec Matrix

noncomputable section

namespace GP

/-- The row of the covariances of the data with the derivative wrt coordinate `i` at `x` that the code computes when `s` is
the only point with a gradient: every value row uses the factor of point `s`. -/
def kdOne (g : Gp) (hp : HpVals) (s : ℕ) (x : Pt) (i : ℕ) : Vec g.nData := fun q =>
  match dco g q with
  | none => 2 * thF hp i * (dpt g q i - x i) *
      (1 + ssq g.dim (thF hp) (fun d => g.x.get s d - x d) / alphaOf g.kernel hp.kernel) ^ (-alphaOf g.kernel hp.kernel - 1)
  | some _ => kd g hp x i q

theorem crossKern_one {g : Gp} (hg : GpOk g) {hp : HpVals} (hh : HpAdm g hp) {X : Arr2} (hX : X.c = g.dim)
    (hk : g.kernel = .ratQuad) (hu : g.useGrad = true) {l : List Bool} (hl : g.bvec = some l) (h1 : nTrue l = 1)
    (hn : g.nEval ≠ 1) (cg : Bool) :
    ∃ A D, crossKern g hp X cg = .ok (A, some D) ∧ A.r = g.nData ∧ A.c = X.r ∧
      (∀ (q : Fin g.nData) (a : Fin X.r), A.get q a = kv g hp (X.get a) q) ∧
      D.r = X.r * g.dim ∧ D.c = g.nData ∧
        ∀ (a : Fin X.r) (i : Fin g.dim), dkRow D X.r g.dim a i = kdOne g hp (sel l 0) (X.get a) i := by
  obtain ⟨th, ht, hn', hpos⟩ := hh.theta
  obtain ⟨R, hR, -⟩ := calcRtensor_ok (X := g.x) (Y := X) (by rw [hg.x_c, hX])
  have hI := (calcRtensor_isR hR).2
  have hthF : thF hp = th.get := by simp [thF, ht]
  have hll : l.length = R.r := by rw [hI.r, hg.x_r]; exact hg.mask l hl
  set α := alphaOf g.kernel hp.kernel with hα
  obtain ⟨A, hA0, hrep⟩ := ratQuadKernGrad_mask1 (R := R) (theta := th) (α := α) (l := l) (by rw [hI.d, hg.x_c, hn']) hll
    (σ := fun _ => sel l 0) (.inr ⟨h1, by rw [hI.r, hg.x_r]; exact hn, rfl⟩)
  have hA : calcKernGrad g.kernel R th hp.kernel g.bvec none = .ok A := by
    rw [kernGrad_canon hh.kernel, ← hα, hl, hk]; exact hA0
  rw [hI.r, hI.c, hI.d, hg.x_r, hg.x_c] at hrep
  have hAc : A.c = X.r + X.r * g.dim := hrep.c
  have hgN : g.nGrad = nTrue l := by rw [hg_mask hg hu, hl]; rfl
  have hAr : A.r = g.nData := by rw [hrep.r, hg.nData, hgN]
  have hent : ∀ (q : Fin g.nData) (y : Ix), y.ok X.r X.r g.dim → A.get q (y.pos X.r X.r) =
      ratQuadF1 α R th l (fun _ => sel l 0) (dIx g q) y := by
    intro q y hy
    obtain ⟨h1, h2⟩ := dIx_spec hg q
    rw [hgN] at h1 h2
    have := hrep.get (dIx g q) y h1 hy
    rwa [h2] at this
  -- rows other than values at derivative columns are right
  have hgood : ∀ (q : Fin g.nData) (y : Ix), y.ok X.r X.r g.dim →
      ratQuadF α R th (some l) none (dIx g q) y =
        radKG (prφ g.kernel α) (prφ1 g.kernel α) (prφ2 g.kernel α) g.dim (thF hp)
          (fun d => dpt g q d - X.get (y.pt none) d) (dco g q) y.coord := by
    intro q y hy
    rw [hthF, hk]
    unfold ratQuadF kgF
    rw [hI.d, hg.x_c]
    refine radKG_congr ?_ (dco_lt hg q) (Ix.coord_lt hy)
    intro d hd
    have hy' : y.pt none < X.r := Ix.pt_lt (m := none) (by simp [maskOk]) hy
    rw [← hl]
    exact hI.get d (by rw [hg.x_c]; exact hd) _ (by rw [hg.x_r]; exact dpt_lt hg q) _ hy'
  have hcross : crossKern g hp X cg = .ok (A.slice 0 A.r 0 X.r, some (A.slice 0 A.r X.r A.c).T) := by
    unfold crossKern
    rw [ht]
    simp only [need, ok_bind, hR, hu, Bool.true_or, if_true, hA, pure_eq_ok]
  refine ⟨_, _, hcross, ?_, ?_, ?_, ?_, ?_, ?_⟩
  · simp [Arr2.slice, hAr]
  · simp [Arr2.slice, hAc]
  · intro q a
    have h := hent q (.v a) a.2
    have hv : ratQuadF1 α R th l (fun _ => sel l 0) (dIx g q) (.v a) = ratQuadF α R th (some l) none (dIx g q) (.v a) := by
      cases dIx g q <;> rfl
    rw [hv, hgood q (.v a) a.2] at h
    simp only [Arr2.slice, Nat.zero_min, Nat.add_zero]
    exact h
  · simp [Arr2.T, Arr2.slice, hAc]
  · simp [Arr2.T, Arr2.slice, hAr]
  · intro a i
    funext q
    have h := hent q (.g i a) ⟨i.2, a.2⟩
    simp only [dkRow, Arr2.T, Arr2.slice, Nat.zero_min, Nat.add_zero, hAc]
    rw [show min X.r (X.r + X.r * g.dim) = X.r by omega, show (i : ℕ) * X.r + a + X.r = X.r + i * X.r + a by omega]
    refine h.trans ?_
    have hgd := hgood q (.g i a) ⟨i.2, a.2⟩
    have hs : sel l 0 < g.nEval := by
      have := Ix.pt_lt (m := some l) (n := g.nEval) (dim := 1) (x := .g 0 0) (hl ▸ hg.mask) ⟨one_pos, by show 0 < nTrue l; omega⟩
      exact this
    cases hd : dIx g q with
    | v p =>
      have hp : p < g.nEval := by have := (dIx_spec hg q).1; rw [hd] at this; exact this
      have hco : dco g q = none := by rw [dco, hd]; rfl
      have hpt : dpt g q = g.x.get p := by rw [dpt, hd]; rfl
      simp only [kdOne, hco, hpt, ratQuadF1, hthF]
      rw [hI.get i (by rw [hg.x_c]; exact i.2) p (by rw [hg.x_r]; exact hp) a a.2]
      have hS : rqS R th (sel l 0) a = ssq g.dim th.get (fun d => g.x.get (sel l 0) d - X.get a d) := by
        unfold rqS
        rw [hI.d, hg.x_c]
        refine ssq_congr fun d hd => ?_
        exact hI.get d (by rw [hg.x_c]; exact hd) _ (by rw [hg.x_r]; exact hs) _ a.2
      rw [hS]
    | g j b =>
      have hco : dco g q = some j := by rw [dco, hd]; rfl
      simp only [kdOne, hco]
      rw [hd] at hgd
      refine Eq.trans ?_ (hgd.trans ?_)
      · rfl
      · rfl

/-- What `eval_model` returns in that case. -/
def evalOne (g : Gp) (hp : HpVals) (M : Mat g.nData g.nData) (w : Vec g.nData) (β v : ℝ) (s : ℕ) (X : Arr2) (cg : Bool) :
    EvalOut X.r g.dim where
  mu := fun a => muF g hp w β (X.get a)
  sig := fun a => sgF g hp M v (X.get a)
  dmu := if cg then some (of fun a i => kdOne g hp s (X.get a) i ⬝ᵥ w) else none
  dsig := if cg then some (of fun a i => -(if sgF g hp M v (X.get a) ≠ 0 then 1 / sgF g hp M v (X.get a) else 0) *
    ((kdOne g hp s (X.get a) i ⬝ᵥ M⁻¹ *ᵥ kv g hp (X.get a)) * v)) else none

theorem evalModel_one {g : Gp} (hg : GpOk g) {hp : HpVals} (hh : HpAdm g hp) {v : ℝ} (hv : 0 < v) (hvk : hp.varK = some v)
    {beta : Arr1} (hbeta : hp.beta = some beta) (hb : beta.n = 1) {cc : Bool} {N : Vec g.nData} {K : Mat g.nData g.nData}
    {st : EvalState g.nData} (hs : SetupSpec g hp (beta.get 0) cc N K st) (hη : 0 ≤ st.etaK) {F : ChoFac g.nData}
    (hF : st.chofac = some F) {X : Arr2} (hX : X.c = g.dim) (hXr : 0 < X.r)
    (hk : g.kernel = .ratQuad) (hu : g.useGrad = true) {l : List Bool} (hl : g.bvec = some l) (h1 : nTrue l = 1)
    (hn : g.nEval ≠ 1) (cg : Bool) :
    evalModel g st hp X cg false = .ok (evalOne g hp st.KernEta (st.KernEta⁻¹ *ᵥ (st.dataVec - priorMean g (beta.get 0)))
      (beta.get 0) v (sel l 0) X cg) := by
  obtain ⟨hFm, hpd⟩ := hs.fac F hF
  obtain ⟨A, D, hA, hAr, hAc, hAg, hDr, hDc, hDg⟩ := crossKern_one hg hh hX hk hu hl h1 hn cg
  obtain ⟨vv, G, h, hmf, hv1, hv2, hG1, hG2, hG3⟩ := mean_ok (X := X) hX (m := none) (by simp [maskOk]) hb cg false
  have hW := hs.w F hF
  set w := st.KernEta⁻¹ *ᵥ (st.dataVec - priorMean g (beta.get 0)) with hw
  have hcol : ∀ a : Fin X.r, (fun q => toMat g.nData X.r A q a) = kv g hp (X.get a) := fun a => funext fun q => hAg q a
  have hkinv : ∀ a : Fin X.r, (fun q => choSolve F (toMat g.nData X.r A) q a) = st.KernEta⁻¹ *ᵥ kv g hp (X.get a) := by
    intro a
    funext q
    simp only [choSolve, hFm, mul_apply, mulVec, dotProduct]
    refine Finset.sum_congr rfl fun p _ => ?_
    rw [← hAg p a]; rfl
  have hs2 : ∀ a : Fin X.r, 1 - ((toMat g.nData X.r A)ᵀ * choSolve F (toMat g.nData X.r A)) a a = s2F g hp st.KernEta (X.get a) := by
    intro a
    rw [s2F, ← hkinv a, ← hcol a]
    rfl
  have hmu : ∀ a : Fin X.r, vv.get a + ((toMat g.nData X.r A)ᵀ *ᵥ w) a = muF g hp w (beta.get 0) (X.get a) := by
    intro a
    rw [hv2 a a.2, muF, ← hcol a]
    rfl
  have hnn : ∀ a : Fin X.r, ¬ s2F g hp st.KernEta (X.get a) < 0 := fun a => not_lt.mpr (s2_nonneg hg hh hs hη hpd _).1
  have hsq : Real.sqrt v ^ 2 = v := Real.sq_sqrt hv.le
  unfold evalModel
  simp only [hF, hs.hp_eq, ne_eq, not_true_eq_false, if_false, hbeta, hvk, need, ok_bind]
  rw [pyAssert_true (fun h => by cases h)]
  simp only [ok_bind, hA, hAr, hAc, and_self, if_true, hW, hmf, if_neg hXr.ne', hs2, hmu]
  rw [pyAssert_true (fun a => (s2_nonneg hg hh hs hη hpd _).1)]
  simp only [ok_bind, hnn, if_false]
  cases cg with
  | false => rfl
  | true =>
    have hdmu : (calcDmu D w G : Mat X.r g.dim) = of fun (a : Fin X.r) (i : Fin g.dim) => kdOne g hp (sel l 0) (X.get a) i ⬝ᵥ w := by
      ext a i
      simp only [calcDmu, of_apply, hDg]
      rw [hG3 a a.2 i i.2, add_zero]
    have hdsig : (calcDsig D (choSolve F (toMat g.nData X.r A)) (fun a => Real.sqrt (s2F g hp st.KernEta (X.get a)) * Real.sqrt v)
        (Real.sqrt v) : Mat X.r g.dim) = of fun (a : Fin X.r) (i : Fin g.dim) =>
          -(if sgF g hp st.KernEta v (X.get a) ≠ 0 then 1 / sgF g hp st.KernEta v (X.get a) else 0) *
            ((kdOne g hp (sel l 0) (X.get a) i ⬝ᵥ st.KernEta⁻¹ *ᵥ kv g hp (X.get a)) * v) := by
      ext a i
      simp only [calcDsig, of_apply, hDg, hkinv, hsq]
      rfl
    unfold evalDerivs
    simp only [if_true, need, ok_bind, hDr, hDc, and_self, hdmu, hdsig]
    rfl

/-- Mean and standard deviation are right whenever `eval_model` does not raise. -/
theorem evalModel_vals {g : Gp} (hg : GpOk g) {hp : HpVals} (hh : HpAdm g hp) {v : ℝ} (hv : 0 < v) (hvk : hp.varK = some v)
    {beta : Arr1} (hbeta : hp.beta = some beta) (hb : beta.n = 1) {cc : Bool} {N : Vec g.nData} {K : Mat g.nData g.nData}
    {st : EvalState g.nData} (hs : SetupSpec g hp (beta.get 0) cc N K st) (hη : 0 ≤ st.etaK) {F : ChoFac g.nData}
    (hF : st.chofac = some F) {X : Arr2} (hX : X.c = g.dim) (hXr : 0 < X.r)
    (hq : g.kernel = .ratQuad → fullMask g.bvec g.nEval ∨ g.nGrad = 1) (cg : Bool) :
    ∃ out, evalModel g st hp X cg false = .ok out ∧
      out.mu = (fun a : Fin X.r => muF g hp (st.KernEta⁻¹ *ᵥ (st.dataVec - priorMean g (beta.get 0))) (beta.get 0) (X.get a)) ∧
      out.sig = fun a : Fin X.r => sgF g hp st.KernEta v (X.get a) := by
  by_cases hf : g.kernel = .ratQuad → fullMask g.bvec g.nEval
  · exact ⟨_, evalModel_ok hg hh hv hvk hbeta hb hs hη hF hX hXr hf cg false (fun h => by cases h), rfl, rfl⟩
  · rw [Classical.not_imp] at hf
    obtain ⟨hk, hf⟩ := hf
    have h1 : g.nGrad = 1 := (hq hk).resolve_left hf
    have hu : g.useGrad = true := by
      cases h : g.useGrad with
      | true => rfl
      | false => rw [hg.nGrad] at h1; simp [h] at h1
    rw [hg_mask hg hu] at h1
    rcases Option.eq_none_or_eq_some g.bvec with hb' | ⟨l, hl⟩
    · exact absurd (by rw [hb']; rfl) hf
    · rw [hl] at h1
      have hn : g.nEval ≠ 1 := by
        intro hn
        refine hf ?_
        rw [fullMask, hl, hn, ← hn, h1, hn]
      exact ⟨_, evalModel_one hg hh hv hvk hbeta hb hs hη hF hX hXr hk hu hl h1 hn cg, rfl, rfl⟩

end GP
