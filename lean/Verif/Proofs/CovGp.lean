import Verif.Proofs.CovCore
import Verif.Props.Common

/-! `calc_noise_vec` and `calc_all_K_w_chofac` on well-formed objects. -/

open Np Spec Matrix

noncomputable section

namespace GP

theorem flattenF_get {G : Arr2} {i a : ℕ} (ha : a < G.r) : (flattenF G).get (i * G.r + a) = G.get a i := by
  have h0 : 0 < G.r := by omega
  simp only [flattenF]
  have h1 : (i * G.r + a) % G.r = a := by
    rw [Nat.add_comm, Nat.add_mul_mod_self_right, Nat.mod_eq_of_lt ha]
  have h2 : (i * G.r + a) / G.r = i := by
    rw [Nat.add_comm, Nat.add_mul_div_right _ _ h0, Nat.div_eq_of_lt ha, Nat.zero_add]
  rw [h1, h2]

/-- The noise vector is computed, in the order of the data vector, unless the noise in the values is unknown and there
are no gradients (then the code raises, see `Props.C24_unknown_noise_without_gradients_raises`). -/
theorem calcNoiseVec_ok {g : Gp} (hg : GpOk g) {hp : HpVals} (hh : HpAdm g hp)
    (hk : g.useGrad = true ∨ g.knownFval = true) : ∃ v, calcNoiseVec g hp = .ok v ∧ NoiseSpec g hp v := by
  unfold calcNoiseVec
  dsimp only
  -- the standard deviations the code looks at
  set sF : Option Arr1 := if (g.fvalZero && g.fgradZero) = true then some (zeros1 g.nEval)
    else (if g.knownFval = true then g.stdFval else none) with hsF
  set sG : Option Arr2 := if (g.fvalZero && g.fgradZero) = true then some (Arr2.zeros g.nGrad g.dim)
    else (if g.knownFgrad = true then g.stdGrad else none) with hsG
  have hF : g.knownFval = true → ∃ s, sF = some s ∧ s.n = g.nEval ∧ ∀ a, s.get a ^ 2 = valVar g hp a := by
    intro hkf
    obtain ⟨s, hs, hn⟩ := hg.std_fval hkf
    by_cases hz : (g.fvalZero && g.fgradZero) = true
    · refine ⟨zeros1 g.nEval, by rw [hsF, if_pos hz], rfl, ?_⟩
      intro a; simp [zeros1, valVar, hz]
    · refine ⟨s, by rw [hsF, if_neg hz, if_pos hkf, hs], hn, ?_⟩
      intro a; simp only [valVar, hz, hkf, if_true, hs, Option.getD_some]; rfl
  have hG : g.knownFgrad = true → ∃ s, sG = some s ∧ s.r = g.nGrad ∧ s.c = g.dim ∧
      ∀ a i, s.get a i ^ 2 = gradVar g hp a i := by
    intro hkf
    obtain ⟨s, hs, hr, hc⟩ := hg.std_fgrad hkf
    by_cases hz : (g.fvalZero && g.fgradZero) = true
    · refine ⟨Arr2.zeros g.nGrad g.dim, by rw [hsG, if_pos hz], rfl, rfl, ?_⟩
      intro a i; simp [gradVar, hz]
    · refine ⟨s, by rw [hsG, if_neg hz, if_pos hkf, hs], hr, hc, ?_⟩
      intro a i; simp only [gradVar, hz, hkf, if_true, hs, Option.getD_some]; rfl
  have hFu : g.knownFval = false → ∃ v, hp.varFval = some v ∧ ∀ a, v = valVar g hp a := by
    intro hkf
    obtain ⟨v, hv, -⟩ := hh.vf_some hkf
    refine ⟨v, hv, fun a => ?_⟩
    have hz : g.fvalZero = false := by
      by_contra h
      have := hg.fzero (by simpa using h)
      rw [hkf] at this; cases this
    simp [valVar, hz, hkf, hv]
  by_cases hu : g.useGrad = true
  · simp only [hu, Bool.not_true, Bool.false_eq_true, if_false]
    have hnd := hg.nData
    have h1 : ∃ v1 : Arr1, noiseHead g hp sF = .ok v1 ∧
        v1.n = g.nData ∧ ∀ a < g.nEval, v1.get a = valVar g hp a := by
      unfold noiseHead
      dsimp only
      by_cases hkf : g.knownFval = true
      · obtain ⟨s, hs, hn, hv⟩ := hF hkf
        have hnone := hh.vf_none hkf
        have hsz : (s.map fun v => v ^ 2).n = min g.nEval (zeros1 g.nData).n := by
          simp only [Arr1.map, zeros1, hn]; omega
        refine ⟨⟨g.nData, fun p => if p < g.nEval then (s.map fun v => v ^ 2).get p else 0⟩, ?_, rfl, ?_⟩
        · rw [if_pos hkf, hs, hnone]
          simp only [Option.isNone_none, pyAssert_true, ok_bind, need]
          unfold setHead
          rw [if_pos hsz]; rfl
        · intro a ha; simp only [ha, if_true]; exact hv a
      · have hkf' : g.knownFval = false := by simpa using hkf
        obtain ⟨v, hv, hva⟩ := hFu hkf'
        refine ⟨⟨g.nData, fun p => if p < g.nEval then v else 0⟩, ?_, rfl, ?_⟩
        · rw [if_neg hkf, hv]; rfl
        · intro a ha; simp only [ha, if_true]; exact hva a
    obtain ⟨v1, e1, hn1, hv1⟩ := h1
    rw [e1, ok_bind]
    unfold noiseTail
    by_cases hkg : g.knownFgrad = true
    · obtain ⟨s, hs, hr, hc, hv⟩ := hG hkg
      have hnone := hh.vg_none hu hkg
      have hsz : (flattenF (s.map fun v => v ^ 2)).n = v1.n - min g.nEval v1.n := by
        simp only [flattenF, Arr2.map_r, Arr2.map_c, hr, hc, hn1, hnd]; omega
      refine ⟨⟨v1.n, fun p => if g.nEval ≤ p then (flattenF (s.map fun v => v ^ 2)).get (p - g.nEval) else v1.get p⟩, ?_, ?_⟩
      · rw [if_pos hkg, hs, hnone]
        simp only [Option.isNone_none, pyAssert_true, ok_bind, need]
        unfold setTail
        rw [if_pos hsz]
      · refine ⟨hn1, ?_, ?_⟩
        · intro a ha; simp only [not_le.mpr ha, if_false]; exact hv1 a ha
        · intro i hi a ha
          have h2 : g.nEval ≤ g.nEval + i * g.nGrad + a := by omega
          have h3 : g.nEval + i * g.nGrad + a - g.nEval = i * (s.map fun v => v ^ 2).r + a := by
            rw [Arr2.map_r, hr]; omega
          simp only [h2, if_true, h3]
          rw [flattenF_get (by rw [Arr2.map_r, hr]; exact ha)]
          exact hv a i
    · have hkg' : g.knownFgrad = false := by simpa using hkg
      obtain ⟨v, hv, -⟩ := hh.vg_some hu hkg'
      refine ⟨⟨v1.n, fun p => if g.nEval ≤ p then v else v1.get p⟩, by rw [if_neg hkg, hv]; rfl, hn1, ?_, ?_⟩
      · intro a ha; simp only [not_le.mpr ha, if_false]; exact hv1 a ha
      · intro i hi a ha
        have h2 : g.nEval ≤ g.nEval + i * g.nGrad + a := by omega
        have hz : g.fgradZero = false := by
          by_contra h
          have := hg.gzero hu (by simpa using h)
          rw [hkg'] at this; cases this
        simp [h2, gradVar, hz, hkg', hv]
  · have hu' : g.useGrad = false := by simpa using hu
    have hkf : g.knownFval = true := by simpa [hu'] using hk
    obtain ⟨s, hs, hn, hv⟩ := hF hkf
    have hnone := hh.vf_none hkf
    have hng : g.nGrad = 0 := by rw [hg.nGrad]; simp [hu']
    have hnd : g.nData = g.nEval := by rw [hg.nData, hng]; simp
    simp only [hu', Bool.not_false, if_true, hkf, hnone, Option.isNone_none, pyAssert_true, ok_bind, hs, need]
    refine ⟨_, rfl, ?_, ?_, ?_⟩
    · simp only [Arr1.map, hn, hnd]
    · intro a _; exact hv a
    · intro i _ a ha; rw [hng] at ha; omega

theorem valVar_nonneg {g : Gp} {hp : HpVals} (hh : HpAdm g hp) (a : ℕ) : 0 ≤ valVar g hp a := by
  unfold valVar
  split_ifs with h1 h2
  · exact le_rfl
  · positivity
  · obtain ⟨v, hv, h0⟩ := hh.vf_some (by simpa using h2)
    simp [hv, h0]

theorem gradVar_nonneg {g : Gp} {hp : HpVals} (hh : HpAdm g hp) (hu : g.useGrad = true) (a i : ℕ) : 0 ≤ gradVar g hp a i := by
  unfold gradVar
  split_ifs with h1 h2
  · exact le_rfl
  · positivity
  · obtain ⟨v, hv, h0⟩ := hh.vg_some hu (by simpa using h2)
    simp [hv, h0]

theorem NoiseSpec.nonneg {g : Gp} (hg : GpOk g) {hp : HpVals} (hh : HpAdm g hp) {v : Arr1} (hv : NoiseSpec g hp v) (i : Fin g.nData) :
    0 ≤ toVec g.nData v i := by
  unfold toVec
  have hi := i.2
  have hu : ∀ a < g.nGrad, g.useGrad = true := by
    intro a ha
    by_contra hu
    rw [hg.nGrad] at ha
    simp [hu] at ha
  have : (i : ℕ) < g.nEval + g.nGrad * g.dim := by rw [← hg.nData]; exact hi
  rcases row_cases this with h | ⟨j, a, hj, ha, he⟩
  · rw [hv.val i h]; exact valVar_nonneg hh _
  · rw [he, hv.grad j hj a ha]; exact gradVar_nonneg hh (hu a ha) _ _

/-- The kernel matrix of a well-formed object. -/
theorem calcKern_ok {g : Gp} (hg : GpOk g) {hp : HpVals} (hh : HpAdm g hp) {R : Arr3} (hR : calcRtensor g.x g.x = .ok R)
    {th : Arr1} (ht : hp.theta = some th) :
    ∃ A, calcKern g R th hp.kernel = .ok A ∧ A.r = g.nData ∧ A.c = g.nData ∧
      IsKern g hp (toMat g.nData g.nData A) ∧ (toMat g.nData g.nData A).PosSemidef ∧
      (∀ i, 0 < toMat g.nData g.nData A i i) ∧
      (∀ i : Fin g.nData, (i : ℕ) < g.nEval → toMat g.nData g.nData A i i = 1) := by
  obtain ⟨th', ht', hn, hpos⟩ := hh.theta
  rw [ht] at ht'
  obtain rfl : th = th' := by simpa using ht'
  have hn' : th.n = g.x.c := by rw [hg.x_c, hn]
  have hpos' : ∀ d < g.x.c, 0 ≤ th.get d := fun d hd => (hpos d (by rw [← hg.x_c]; exact hd)).le
  have hk : gpKern g hp = kernOf g.kernel hp.kernel g.x.c th := by simp [gpKern, ht, hg.x_c]
  unfold calcKern
  by_cases hu : g.useGrad = true
  · have hm : maskOk g.bvec g.x.r := by rw [hg.x_r]; exact hg.mask
    have hng : g.nGrad = gN g.bvec g.nEval := by rw [hg.nGrad]; simp [hu]
    obtain ⟨R', A, hR', hA, hAr, hAc, hAj⟩ := Props.kernGrad_jointCov g.kernel g.x g.x rfl th hn' hpos' hp.kernel hh.kernel
      g.bvec g.bvec hm hm (fun _ => by cases g.bvec with
        | none => exact .inl rfl
        | some l => exact .inr (by simp))
    rw [hR] at hR'
    obtain rfl : R = R' := by simpa using hR'
    have hsz : g.x.r + gN g.bvec g.x.r * g.x.c = g.nData := by rw [hg.nData, hg.x_r, hg.x_c, hng]
    have hps := kernGrad_posSemidef g.kernel hR hn' hpos' hh.kernel hm hA
    obtain ⟨R', A', hR', hA', hsym, hd1, hd2⟩ := Props.C12_symmetric_with_gamma_diagonal g.kernel g.x th hn' hpos' hp.kernel hh.kernel
      g.bvec hm
    rw [hR] at hR'
    obtain rfl : R = R' := by simpa using hR'
    rw [hA] at hA'
    obtain rfl : A = A' := by simpa using hA'
    rw [hsz] at hAr hAc hps
    rw [if_pos hu]
    refine ⟨A, hA, hAr, hAc, ⟨A.get, ?_, fun i j => rfl⟩, hps, ?_, ?_⟩
    · rw [hk, hng]
      rw [hg.x_r] at hAj
      rw [← hg.x_c]
      exact hAj
    · intro i
      have : (i : ℕ) < g.nEval + g.nGrad * g.dim := by rw [← hg.nData]; exact i.2
      simp only [toMat, of_apply]
      rcases row_cases this with h | ⟨j, a, hj, ha, he⟩
      · rw [hd1 i (by rw [hg.x_r]; exact h)]; norm_num
      · have := hd2 j (by rw [hg.x_c]; exact hj) a (by rw [hg.x_r, ← hng]; exact ha)
        rw [hg.x_r, ← hng, ← he] at this
        rw [this]
        have := gamma_pos g.kernel (hpos j hj)
        positivity
    · intro i hi
      exact hd1 i (by rw [hg.x_r]; exact hi)
  · have hu' : g.useGrad = false := by simpa using hu
    have hng : g.nGrad = 0 := by rw [hg.nGrad]; simp [hu']
    have hsz : g.nData = g.x.r := by rw [hg.nData, hng, hg.x_r]; simp
    obtain ⟨R', A, hR', hA, hAr, hAc, hAg⟩ := Props.C05_base_entries g.kernel g.x g.x rfl th hn' hp.kernel hh.kernel
    rw [hR] at hR'
    obtain rfl : R = R' := by simpa using hR'
    obtain ⟨R', A', hR', hA', -, hone⟩ := Props.C05_base_correlation g.kernel g.x th hn' hpos' hp.kernel hh.kernel
    rw [hR] at hR'
    obtain rfl : R = R' := by simpa using hR'
    rw [hA] at hA'
    obtain rfl : A = A' := by simpa using hA'
    have hps := kernBase_posSemidef g.kernel hR hn' hpos' hh.kernel hA
    rw [← hsz] at hps
    rw [if_neg hu]
    have hdiag : ∀ i : Fin g.nData, toMat g.nData g.nData A i i = 1 := fun i =>
      hone i (by rw [← hsz]; exact i.2) i (by rw [← hsz]; exact i.2) (fun _ _ => rfl)
    refine ⟨A, hA, by rw [hAr, hsz], by rw [hAc, hsz], ⟨A.get, ?_, fun i j => rfl⟩, hps, ?_, fun i _ => hdiag i⟩
    · rw [hk, hng]
      refine ⟨fun p hp' q hq => hAg p (by rw [hg.x_r]; exact hp') q (by rw [hg.x_r]; exact hq), ?_, ?_, ?_⟩
      · intro i _ a ha; omega
      · intro p _ j _ b hb; omega
      · intro i _ a ha; omega
    · intro i; rw [hdiag i]; norm_num

/-- `calc_all_K_w_chofac` on a well-formed object, with the effective variance `v`, tied to the kernel matrix `A`. -/
theorem calcAllK_ok' {g : Gp} (hg : GpOk g) {hp : HpVals} (hh : HpAdm g hp) (hk : g.useGrad = true ∨ g.knownFval = true)
    (hprec : g.o.precon = true → g.useGrad = true) (hne : 0 < g.nEval)
    {R : Arr3} (hR : calcRtensor g.x g.x = .ok R) (cf cc : Bool) (varKin : Option ℝ) (normlz : Bool) {v : ℝ} (hv : 0 < v)
    (hvk : (∃ w, varKin.or hp.varK = some w ∧ (normlz = false → w = v)) ∧ (normlz = true → v = 1)) {th : Arr1}
    (ht : hp.theta = some th) {A : Arr2} (hA : calcKern g R th hp.kernel = .ok A) :
    ∃ N out, calcNoiseVec g hp = .ok N ∧ NoiseSpec g hp N ∧
      calcAllK g R hp none cf cc varKin normlz = .ok out ∧ CovSpec g.o v (toMat g.nData g.nData A) (toVec g.nData N) cf cc out := by
  obtain ⟨N, hN, hNs⟩ := calcNoiseVec_ok hg hh hk
  obtain ⟨A', hA', hAr, hAc, -, -, hdiag, -⟩ := calcKern_ok hg hh hR ht
  rw [hA] at hA'
  cases hA'
  have hnd : 0 < g.nData := by rw [hg.nData]; omega
  have hd : ∀ i, 0 < kwn v (toMat g.nData g.nData A) (toVec g.nData N) i i := by
    intro i
    simp only [kwn, Matrix.add_apply, diagonal_apply_eq]
    have h1 := hdiag i
    have h2 := NoiseSpec.nonneg hg hh hNs i
    have : 0 ≤ toVec g.nData N i / v := by positivity
    linarith
  obtain ⟨out, hout, hspec⟩ := covCore_ok (useGrad := g.useGrad) cf cc hprec hnd hd hv
  refine ⟨N, out, hN, hNs, ?_, hspec⟩
  unfold calcAllK
  rw [ht]
  simp only [need, ok_bind]
  have hIR := (calcRtensor_isR hR).2
  rw [pyAssert_true (by rw [hIR.r, hIR.c]), ok_bind]
  obtain ⟨⟨w, hw, hwv⟩, hnz⟩ := hvk
  have hrest : (do
      let noise ← calcNoiseVec g hp
      let Kern ← calcKern g R th hp.kernel
      if Kern.r = g.nData ∧ Kern.c = g.nData ∧ noise.n = g.nData then
        covCore g.o g.useGrad v (toMat g.nData g.nData Kern) (toVec g.nData noise) cf cc
      else .error .shape : Py (CovOut g.nData)) = .ok out := by
    rw [hN, ok_bind, hA, ok_bind, if_pos ⟨hAr, hAc, hNs.n⟩, hout]
  cases normlz with
  | true =>
    have h1 : v = 1 := hnz rfl
    subst h1
    cases varKin with
    | some a => simpa using hrest
    | none =>
      simp only [Option.none_or] at hw
      rw [hw]; simpa using hrest
  | false =>
    obtain rfl := hwv rfl
    cases varKin with
    | some a =>
      simp only [Option.some_or, Option.some.injEq] at hw
      subst hw
      simpa [hv] using hrest
    | none =>
      simp only [Option.none_or] at hw
      rw [hw]; simpa [hv] using hrest

/-- `calc_all_K_w_chofac` on a well-formed object, with the effective variance `v`. -/
theorem calcAllK_ok {g : Gp} (hg : GpOk g) {hp : HpVals} (hh : HpAdm g hp) (hk : g.useGrad = true ∨ g.knownFval = true)
    (hprec : g.o.precon = true → g.useGrad = true) (hne : 0 < g.nEval)
    {R : Arr3} (hR : calcRtensor g.x g.x = .ok R) (cf cc : Bool) (varKin : Option ℝ) (normlz : Bool) {v : ℝ} (hv : 0 < v)
    (hvk : (∃ w, varKin.or hp.varK = some w ∧ (normlz = false → w = v)) ∧ (normlz = true → v = 1)) :
    ∃ N K out, calcNoiseVec g hp = .ok N ∧ NoiseSpec g hp N ∧ IsKern g hp K ∧ K.PosSemidef ∧ (∀ i, 0 < K i i) ∧
      (∀ i : Fin g.nData, (i : ℕ) < g.nEval → K i i = 1) ∧
      calcAllK g R hp none cf cc varKin normlz = .ok out ∧ CovSpec g.o v K (toVec g.nData N) cf cc out := by
  obtain ⟨th, ht, -, -⟩ := hh.theta
  obtain ⟨A, hA, -, -, hIs, hPsd, hdiag, hone⟩ := calcKern_ok hg hh hR ht
  obtain ⟨N, out, h1, h2, h3, h4⟩ := calcAllK_ok' hg hh hk hprec hne hR cf cc varKin normlz hv hvk ht hA
  exact ⟨N, _, out, h1, h2, hIs, hPsd, hdiag, hone, h3, h4⟩

end GP
