import Verif.Proofs.LkdPath
import Verif.Proofs.CondRec

/-! The covariance matrix of the likelihood, without derivatives: constant and varying nugget, all kernels and masks. -/

open Np GP Spec Matrix

noncomputable section

namespace GP

theorem lkdCov_ok {g : Gp} (hg : GpOk g) {hp : HpVals} (hh : HpAdm g hp) (hk : g.useGrad = true ∨ g.knownFval = true)
    (hprec : g.o.precon = true → g.useGrad = true) (hne : 0 < g.nEval) (hη : if g.o.etaConst then 0 < g.o.etaK else 1 < g.o.condMaxTarget)
    (hv : g.noisy = true → ∃ v, hp.varK = some v ∧ 0 < v) {R : Arr3} (hR : calcRtensor g.x g.x = .ok R) (cc : Bool) :
    ∃ out, lkdCov g hp R cc = .ok out ∧ out.Kcov.PosDef ∧ (∀ F, out.chofac = some F → FacOf F out.Kcov) ∧
      ((cc = true → g.o.precon = false → condNum g.o out.Kcov ≤ g.o.condMaxAbs) → ∃ F, out.chofac = some F) ∧
      (g.o.precon = false → cc = true → (∃ F, out.chofac = some F) → condNum g.o out.Kcov ≤ g.o.condMaxAbs) ∧
      (g.o.precon = false → out.condK = if cc then some (condNum g.o out.Kcov) else none) := by
  have hv : ∃ v, 0 < v ∧ (vkArg g).or hp.varK = some v := by
    unfold vkArg
    cases hn : g.noisy with
    | false => exact ⟨1, one_pos, rfl⟩
    | true =>
      obtain ⟨y, hy, hy0⟩ := hv hn
      exact ⟨y, hy0, hy⟩
  obtain ⟨v, hv0, hvk⟩ := hv
  obtain ⟨N, K, out, hN, hNs, -, hpsd, hdiag, -, hout, hs⟩ := calcAllK_ok hg hh hk hprec hne hR true cc (vkArg g) false
    (v := v) hv0 ⟨⟨v, hvk, fun _ => rfl⟩, fun h => by cases h⟩
  have hn : 0 < g.nData := by rw [hg.nData]; omega
  have hNn := NoiseSpec.nonneg hg hh hNs
  have heta := nugget_pos hv0 hn hdiag hNn hη (cov_nugget hv0 hn hs)
  have hpd := hs.posDef hv0 hpsd hdiag hNn heta
  refine ⟨out, by rw [lkdCov_eq]; exact hout, hpd, ?_, fun h => hs.facSome rfl h hpd, ?_, ?_⟩
  · intro F hF
    obtain ⟨h1, h2, h3⟩ := hs.fac F hF
    exact ⟨h1, h3, h2⟩
  · rintro hp' hcc ⟨F, hF⟩
    exact hs.facCond hp' F hF hcc
  · intro hp'
    rw [hs.cond, hp']; simp

end GP
