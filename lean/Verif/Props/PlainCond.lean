import Verif.Props.Cond
import Verif.Props.Lkd
import Verif.Proofs.CovTotal
import Verif.Spec.PlainSpec

/-! Property C99: gradient-free models with even noise are always well conditioned. -/

open Np GP Spec Matrix

noncomputable section

namespace Props

/-- What the bound needs of the model: no gradients, no preconditioning, spectral norm, a nugget that varies or is the computed one. -/
structure PlainOk (g : Gp) : Prop where
  useGrad : g.useGrad = false
  precon : g.o.precon = false
  norm : g.o.fro = false
  known : g.knownFval = true
  target : 1 < g.o.condMaxTarget
  nugget : g.o.etaConst = false ∨ ∃ mtd em ed e, em ≠ EtaMtd.dfltEta ∧
    calcNugget ⟨g.dim, false, g.kernel, mtd, em, g.o.condMaxTarget, ed⟩ g.nEval = .ok (g.o.etaK, e)
  noise : ∀ hp, ∃ w, ∀ a < g.nEval, valVar g hp a = w

theorem plain_bound {g : Gp} (hg : GpOk g) {hp : HpVals} (hh : HpAdm g hp) (hne : 0 < g.nEval) (P : PlainOk g) {R : Arr3}
    (hR : calcRtensor g.x g.x = .ok R) (cf : Bool) {vk : Option ℝ} {v : ℝ} (hv : 0 < v) (hvk : vk.or hp.varK = some v) {out : CovOut g.nData}
    (hout : calcAllK g R hp none cf true vk false = .ok out) :
    condNum g.o out.Kcov ≤ g.o.condMaxTarget ∧ CondLe out.Kcov g.o.condMaxTarget := by
  obtain ⟨N, K, out', hN, hNs, hK, hpsd, hdiag, hone, hout', hs⟩ := calcAllK_ok hg hh (.inr P.known) (by simp [P.precon]) hne hR cf true
    vk false hv ⟨⟨v, hvk, fun _ => rfl⟩, by simp⟩
  rw [hout] at hout'
  cases hout'
  have hng : g.nGrad = 0 := by rw [hg.nGrad, P.useGrad]; rfl
  have hndE : g.nData = g.nEval := by rw [hg.nData, hng]; ring
  obtain ⟨w, hw⟩ := P.noise hp
  have hNw : ∀ i, toVec g.nData N i = w := by
    intro i
    have hi : (i : ℕ) < g.nEval := by have := i.2; omega
    simp only [toVec]
    rw [hNs.val i hi, hw i hi]
  have hnd : 0 < g.nData := by omega
  have hw0 : 0 ≤ w := by
    have := NoiseSpec.nonneg hg hh hNs ⟨0, hnd⟩
    rwa [hNw] at this
  have hkwn : kwn v K (toVec g.nData N) = K + (w / v) • (1 : Mat g.nData g.nData) := by
    unfold kwn
    congr 1
    ext i j
    simp [hNw, Matrix.diagonal_apply, Matrix.one_apply]
  have hc' : 0 < g.o.condMaxTarget - 1 := by linarith [P.target]
  obtain ⟨th, ht, -, hpos⟩ := hh.theta
  obtain ⟨α, hα, e1, -⟩ := hp_elim hh.kernel
  have hent : ∀ i j, |K i j| ≤ 1 := by
    intro i j
    have hi : (i : ℕ) < g.nEval := by have := i.2; omega
    have hj : (j : ℕ) < g.nEval := by have := j.2; omega
    have := kern_entry hK ht (fun d hd => (hpos d hd).le) hα (by rw [e1]) (x := .v i) (y := .v j) hi hj rfl rfl
    rw [this]
    simp only [Ix.coord_v, radKG]
    have h0 : 0 ≤ ssq g.dim th.get (fun d => g.x.get ((Ix.v i).pt g.bvec) d - g.x.get ((Ix.v j).pt g.bvec) d) := by
      unfold ssq
      exact Finset.sum_nonneg fun d hd => mul_nonneg (hpos d (Finset.mem_range.mp hd)).le (sq_nonneg _)
    rw [abs_of_pos (prφ_pos _ hα h0)]
    exact prφ_le_one _ hα h0
  have hcov : out.Kcov = v • (K + (w / v + out.etaK) • (1 : Mat g.nData g.nData)) := by
    rw [hs.cov, hkwn]
    simp only [P.precon, Bool.false_eq_true, if_false]
    rw [add_assoc, ← add_smul]
  have hwv : 0 ≤ w / v := div_nonneg hw0 hv.le
  have fin : ∀ m : ℝ, 0 < m → (∀ i, ∑ j, |K i j| ≤ m) → m ≤ (g.o.condMaxTarget - 1) * out.etaK →
      condNum g.o out.Kcov ≤ g.o.condMaxTarget ∧ CondLe out.Kcov g.o.condMaxTarget := by
    intro m hm hrow hle
    have := cond_core hnd hpsd hm hrow hv P.target (η := w / v + out.etaK) (by
      rw [mul_add]
      have := mul_nonneg hc'.le hwv
      linarith)
    simp only [condNum, P.norm, Bool.false_eq_true, if_false]
    rw [hcov]
    exact this
  cases hconst : g.o.etaConst with
  | true =>
    obtain ⟨mtd, em, ed, e, hem, hnug⟩ := P.nugget.resolve_left (by simp [hconst])
    refine fin g.nEval (by exact_mod_cast hne) (fun i => ?_) ?_
    · refine (Finset.sum_le_sum fun j _ => hent i j).trans ?_
      simp [hndE]
    · have : g.o.etaK = g.nEval / (g.o.condMaxTarget - 1) := by
        unfold calcNugget at hnug
        simp only [hem, if_false, Bool.false_eq_true, Except.ok.injEq, Prod.mk.injEq] at hnug
        rw [← hnug.1]; rfl
      rw [hs.eta, if_pos hconst, this, mul_div_cancel₀ _ hc'.ne']
  | false =>
    have heta := hs.eta
    rw [if_neg (by simp [hconst])] at heta
    simp only [P.precon, Bool.false_eq_true, if_false] at heta
    refine fin (⨆ i, ∑ j, |K i j|) (rowsup_pos ⟨0, hnd⟩ (hdiag _)) (rowsup_le K) ?_
    rw [heta, mul_div_cancel₀ _ hc'.ne']

/-- **C99.** A gradient-free model with even noise, at any admissible hyperparameters and for any points (also coinciding ones): the
factorisation succeeds, the likelihood is a number, and the condition number reported is that of the covariance matrix and at most the
target. -/
theorem C99_always_well_conditioned {g : Gp} (hg : GpOk g) {hp : HpVals} (hh : HpAdm g hp) (hne : 0 < g.nEval) (P : PlainOk g)
    (habs : g.o.condMaxTarget ≤ g.o.condMaxAbs) (hη : g.o.etaConst = true → 0 < g.o.etaK)
    (hv : g.noisy = true → ∃ v, hp.varK = some v ∧ 0 < v) (env : LkdEnv) :
    ∃ li c l, calcLkdAll g env hp true false = .ok (li, true) ∧ li.lnLkd = some l ∧ li.cond = some c ∧ c ≤ g.o.condMaxTarget := by
  obtain ⟨R, hR, -⟩ := calcRtensor_ok (X := g.x) (Y := g.x) rfl
  obtain ⟨out, h1, h2, h3, h4, -, h6⟩ := lkdCov_ok hg hh (.inr P.known) (by simp [P.precon]) hne (by
    split
    · rename_i h; exact hη h
    · exact P.target) hv hR true
  have hvk : ∃ v, 0 < v ∧ (vkArg g).or hp.varK = some v := by
    unfold vkArg
    cases hn : g.noisy with
    | false => exact ⟨1, one_pos, rfl⟩
    | true =>
      obtain ⟨y, hy, hy0⟩ := hv hn
      exact ⟨y, hy0, hy⟩
  obtain ⟨v, hv0, hvk⟩ := hvk
  obtain ⟨b1, b2⟩ := plain_bound hg hh hne P hR true hv0 hvk (by rw [← lkdCov_eq]; exact h1)
  obtain ⟨F, hF⟩ := h4 fun _ _ => b1.trans habs
  have hFo := h3 F hF
  have hcond := h6 P.precon
  rw [if_pos rfl] at hcond
  unfold calcLkdAll
  simp only [hR, ok_bind, h1]
  unfold kcovGradIf
  simp only [Bool.false_eq_true, if_false, ok_bind, hF]
  obtain ⟨y, V, hd, hV, -⟩ := lkdData_ok hg hne
  have hb : ∃ r l, lkdBody g env y V F none = .ok r ∧ r.lnLkd = some l := by
    unfold lkdBody
    cases hns : g.noisy with
    | true =>
      obtain ⟨r, β, l, e1, -, e3, -⟩ := C27_gaussian_likelihood (m := env.info.nHp) hFo hV y none env.lkd.useAdj
      exact ⟨r, l, by rw [if_pos rfl]; exact e1, e3⟩
    | false =>
      obtain ⟨r, β, v, l, e1, -, -, e4, -⟩ := C26_closed_form_variance (m := env.info.nHp) env.lkd g.fval hFo hV y none env.lkd.useAdj
      exact ⟨r, l, by rw [if_neg (by simp)]; exact e1, e4⟩
  obtain ⟨r, l, e1, e2⟩ := hb
  simp only [hd, ok_bind, e1, setCond, Bool.and_false, Bool.false_eq_true, if_false]
  exact ⟨_, _, l, rfl, e2, hcond, b1⟩

end Props
