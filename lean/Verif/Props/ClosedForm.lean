import Verif.Props.Protocol
import Verif.Props.LkdAllEx
import Verif.Proofs.CovTotal

/-! The closed-form hyperparameters computed from the solution of the optimiser: C73. -/

open Np GP Spec Matrix

noncomputable section

namespace Props

/-- **C73.** For every admissible solution of the optimiser the last step of an optimisation succeeds. With `y` the data vector, `V` the
basis of the mean function and `K` the matrix of the likelihood at the solution (positive definite): the reported mean is the
coefficient that maximises the Gaussian likelihood; for noise-free data it and the reported prior variance together maximise the
likelihood over all means and all positive variances, unless the variance has reached its lower limit; with noise the
prior variance is that of the solution. The other hyperparameters are those of the solution. -/
theorem C73_closed_form {g : Gp} (hg : GpOk g) (hk : g.useGrad = true ∨ g.knownFval = true) (hprec : g.o.precon = true → g.useGrad = true)
    (hne : 0 < g.nEval) (hη : if g.o.etaConst then 0 < g.o.etaK else 1 < g.o.condMaxTarget) {env : LkdEnv} {hp : HpVals} (hh : HpAdm g hp)
    (hv : g.noisy = true → ∃ v, hp.varK = some v ∧ 0 < v) {R : Arr3} (hR : calcRtensor g.x g.x = .ok R) :
    ∃ (hv : HpVals) (out : CovOut g.nData) (y : Vec g.nData) (V : Mat g.nData nBetaCoeff) (β : Vec nBetaCoeff) (b : Arr1),
      closedForm g env hp = .ok hv ∧ lkdCov g hp R false = .ok out ∧ out.Kcov.PosDef ∧ DataSpec g y ∧
      (∀ (p : Fin g.nData) (j : Fin nBetaCoeff), V p j = if (p : ℕ) < g.nEval then 1 else 0) ∧
      hv = { hp with beta := hv.beta, varK := hv.varK } ∧ hv.beta = some b ∧ b.n = nBetaCoeff ∧ (∀ j : Fin nBetaCoeff, b.get j = β j) ∧
      (g.noisy = true → hv.varK = hp.varK ∧ ∀ c, c ≠ β → gaussLog out.Kcov (V *ᵥ c) y < gaussLog out.Kcov (V *ᵥ β) y) ∧
      (g.noisy = false → ∃ v, hv.varK = some v ∧ 0 < v ∧
        (varKMin < maha out.Kcov (y - V *ᵥ β) / g.nData →
          ∀ c, ∀ w > 0, (c, w) ≠ (β, v) → gaussLog (w • out.Kcov) (V *ᵥ c) y < gaussLog (v • out.Kcov) (V *ᵥ β) y)) := by
  obtain ⟨out, h1, h3, h4, h5, -⟩ := lkdCov_ok hg hh hk hprec hne hη hv hR false
  obtain ⟨F, hF⟩ := h5 (fun h => by cases h)
  have hFo := h4 F hF
  obtain ⟨y, V, hd, hV, hy, hVe⟩ := lkdData_ok hg hne
  have hall : ∀ li, lkdBody g env y V F none = .ok li → calcLkdAll g env hp false false = .ok ({ li with cond := out.condK }, true) := by
    intro li hli
    unfold calcLkdAll
    simp only [hR, ok_bind, h1]
    unfold kcovGradIf
    simp only [Bool.false_eq_true, if_false, ok_bind, hF, hd, hli]
    rfl
  cases hn : g.noisy with
  | true =>
    obtain ⟨r, β, l, e1, e2, -, -, e5⟩ := C27_gaussian_likelihood (m := env.info.nHp) hFo hV y none env.lkd.useAdj
    have hb : lkdBody g env y V F none = .ok r := by unfold lkdBody; rw [hn, if_pos rfl]; exact e1
    refine ⟨{ hp with beta := some ⟨nBetaCoeff, fun k => if h : k < nBetaCoeff then β ⟨k, h⟩ else 0⟩ }, out, y, V, β, _, ?_, h1, h3, hy, hVe,
      rfl, rfl, rfl, fun j => by simp, fun _ => ⟨rfl, e5⟩, (fun h => by cases h)⟩
    unfold closedForm
    rw [hall r hb, ok_bind]
    simp only [hn, if_true, e2]
    rfl
  | false =>
    obtain ⟨r, β, v, l, e1, e2, e3, -, e5, e6⟩ := C26_closed_form_variance (m := env.info.nHp) env.lkd g.fval hFo hV y none env.lkd.useAdj
    have hb : lkdBody g env y V F none = .ok r := by unfold lkdBody; rw [hn, if_neg (by simp)]; exact e1
    refine ⟨{ hp with beta := some ⟨nBetaCoeff, fun k => if h : k < nBetaCoeff then β ⟨k, h⟩ else 0⟩, varK := some v }, out, y, V, β, _, ?_, h1, h3,
      hy, hVe, rfl, rfl, rfl, fun j => by simp, (fun h => by cases h), fun _ => ⟨v, rfl, e5, fun h => (e6 h).1⟩⟩
    unfold closedForm
    rw [hall r hb, ok_bind]
    simp only [hn, e2, e3]
    rfl

-- two points with the squared-exponential kernel, and any value of the length-scale parameter
example (x0 : ℝ) : ∃ hp hv v, hpVec2Dataclass (exGpTwo 3) (exEnvTwo 3).info ⟨1, fun _ => x0⟩ = .ok hp ∧
    closedForm (exGpTwo 3) (exEnvTwo 3) hp = .ok hv ∧ hv.varK = some v ∧ 0 < v := by
  obtain ⟨hp, R, hdec, hR, hsupp, -⟩ := exTwo_setup 3 x0
  have hi : setupHpIdx (exGpTwo 3) ⟨true, true, true⟩ true = .ok (exEnvTwo 3).info := setupHpIdx_ok _ _ _
  obtain ⟨hp', hdec', hadm, hall⟩ := decode_adm (x := ⟨1, fun _ => x0⟩) hi rfl (fun h => (nomatch h))
    (fun p s _ h => by rw [exTwo_log s] at h; cases h)
  have hpe : hp' = hp := Except.ok.inj (hdec'.symm.trans hdec)
  subst hpe
  obtain ⟨hv, out, y, V, β, b, h1, -, -, -, -, -, -, -, -, -, h2⟩ := C73_closed_form (exGpTwo_lkd 3).ok (exGpTwo_lkd 3).noise
    (exGpTwo_lkd 3).precon (exGpTwo_lkd 3).ne (by rw [if_pos (exGpTwo_lkd 3).const]; exact (exGpTwo_lkd 3).eta) (env := exEnvTwo 3) hadm
    (fun h => by cases h) hR
  obtain ⟨v, h3, h4, -⟩ := h2 rfl
  exact ⟨hp', hv, v, hdec, h1, h3, h4⟩

end Props
