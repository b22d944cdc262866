import Verif.Proofs.Native
import Verif.Props.Values
import Verif.Props.Contin

/-! Properties C121, C122: how errors in the data change the predictions, and the error of the predictions of a function of the
native space of the kernel. -/

open Np Spec GP Matrix

noncomputable section

namespace Props

theorem withValues_readyV {g : Gp} {hp : HpVals} {v β : ℝ} (hr : ReadyV g hp v β) {f : Arr1} {G : Option Arr2} (h : ValuesOk g f G) :
    ReadyV (withValues g f G) hp v β :=
  { ok := { hr.ok with
      fval_n := h.1
      grad_none := fun hu => by
        have hu' : g.useGrad = false := hu
        have := h.2
        rw [hu', if_neg (by simp)] at this
        exact this
      grad_some := fun hu => by
        have hu' : g.useGrad = true := hu
        have := h.2
        rw [hu', if_pos rfl] at this
        exact this }
    adm := ⟨hr.adm.theta, hr.adm.kernel, hr.adm.vf_none, hr.adm.vf_some, hr.adm.vg_none, hr.adm.vg_some⟩
    noise := hr.noise
    precon := hr.precon
    ne := hr.ne
    vpos := hr.vpos
    varK := hr.varK
    beta := hr.beta
    eta := hr.eta
    mask := hr.mask }

theorem setup_valuesV {g : Gp} {hp : HpVals} {v β : ℝ} (hr : ReadyV g hp v β) {f : Arr1} {G : Option Arr2} {cc cc' : Bool}
    {N N' : Vec g.nData} {K K' : Mat g.nData g.nData} {st st' : EvalState g.nData}
    (hs : SetupSpec g hp β cc N K st) (hs' : SetupSpec (withValues g f G) hp β cc' N' K' st') :
    st'.etaK = st.etaK ∧ st'.KernEta = st.KernEta := by
  have hK : K' = K := isKern_unique hr.ok hr.adm (show IsKern g hp K' from hs'.isKern) hs.isKern
  have hN : N' = N := by
    obtain ⟨A, h1, rfl⟩ := hs.noise
    obtain ⟨B, h2, h3⟩ := hs'.noise
    exact isNoise_unique hr.ok (hp := hp) ⟨B, ⟨h2.n, h2.val, h2.grad⟩, fun i => congrFun h3 i⟩ ⟨A, h1, fun i => rfl⟩
  have hη : st'.etaK = st.etaK := by
    have e2 : st'.etaK = if g.o.etaConst then g.o.etaK else
      (⨆ i, ∑ j, |(if g.o.precon then corr (kwn 1 K' N') else K') i j|) / (g.o.condMaxTarget - 1) := hs'.etaEq
    rw [hs.etaEq, e2, hK, hN]
  refine ⟨hη, ?_⟩
  have e2 : st'.KernEta = K' + diagonal (fun i => N' i + st'.etaK * (if g.o.precon then K' i i + N' i else 1)) := hs'.cov
  rw [hs.cov, e2, hη, hK, hN]
  rfl

/-- What is added to the diagonal is what `tau` says. -/
theorem cov_tau {g : Gp} {hp : HpVals} {v β : ℝ} (hr : ReadyV g hp v β) {cc : Bool} {N N' : Vec g.nData} {K K' : Mat g.nData g.nData}
    {st : EvalState g.nData} (hs : SetupSpec g hp β cc N K st) (hN' : IsNoise g hp N') (hK' : IsKern g hp K') :
    K' = K ∧ N' = N ∧ st.KernEta = K' + diagonal (tau g K' N' st.etaK) ∧ ∀ q, 0 ≤ tau g K' N' st.etaK q := by
  have hK : K' = K := isKern_unique hr.ok hr.adm hK' hs.isKern
  have hN : N' = N := by
    obtain ⟨A, h1, rfl⟩ := hs.noise
    exact isNoise_unique hr.ok hN' ⟨A, h1, fun i => rfl⟩
  subst hK hN
  refine ⟨rfl, rfl, hs.cov, fun q => ?_⟩
  obtain ⟨A, h1, h2⟩ := hN'
  have hn : 0 ≤ N' q := by rw [h2]; exact NoiseSpec.nonneg hr.ok hr.adm h1 q
  have := (hs.diag q).le
  refine add_nonneg hn (mul_nonneg (hs.etaNonneg hr.eta) ?_)
  split_ifs <;> linarith

/-- **C121** The mean is stable: with other values and gradients at the same points and the same hyperparameters, the squared change
of the mean at `x`, times the prior variance `v`, is at most `v - σ(x)²` times the sum of the squared changes of the data, each divided
by the noise variance and nugget added to the diagonal of the kernel matrix for that datum. -/
theorem C121_stability {g : Gp} {hp : HpVals} {v β : ℝ} (hr : ReadyV g hp v β) {f : Arr1} {G : Option Arr2} (h : ValuesOk g f G)
    {cc cc' : Bool} {st st' : EvalState g.nData}
    (hst : setupEvalModel g hp cc = .ok st) (hst' : setupEvalModel (withValues g f G) hp cc' = .ok st')
    (hF : st.chofac ≠ none) (hF' : st'.chofac ≠ none) {N : Vec g.nData} {K : Mat g.nData g.nData} (hN : IsNoise g hp N) (hK : IsKern g hp K)
    (hτ : ∀ q, 0 < tau g K N st.etaK q) {y y' : Vec g.nData} (hy : DataSpec g y) (hy' : DataSpec (withValues g f G) y')
    {X : Arr2} (hX : X.c = g.dim) (hXr : 0 < X.r) (cg : Bool) :
    ∃ out out' : EvalOut X.r g.dim, evalModel g st hp X cg false = .ok out ∧
      evalModel (withValues g f G) st' hp X cg false = .ok out' ∧
      ∀ p, v * (out'.mu p - out.mu p) ^ 2 ≤ (v - out.sig p ^ 2) * ∑ q, (y' q - y q) ^ 2 / tau g K N st.etaK q := by
  obtain ⟨N₀, K₀, hs, -⟩ := ready_setup hr hst
  have hr' := withValues_readyV hr h
  obtain ⟨N', K', hs', -⟩ := ready_setup hr' hst'
  obtain ⟨-, hM⟩ := setup_valuesV hr hs hs'
  obtain ⟨out, ho, hmu, hsg⟩ := ready_vals hr hs hF hX hXr cg
  obtain ⟨out', ho', hmu', -⟩ := ready_vals hr' hs' hF' hX hXr cg
  refine ⟨out, out', ho, ho', fun p => ?_⟩
  have e1 : y = st.dataVec := data_unique hr.ok hy hs.data
  have e2 : y' = st'.dataVec := data_unique hr'.ok hy' hs'.data
  have e3 : out.mu p = β + kv g hp (X.get p) ⬝ᵥ st.KernEta⁻¹ *ᵥ (y - priorMean g β) := by rw [hmu, e1]; rfl
  have e4 : out'.mu p = β + kv g hp (X.get p) ⬝ᵥ st.KernEta⁻¹ *ᵥ (y' - priorMean g β) := by rw [hmu', e2, ← hM]; rfl
  have e5 : out'.mu p - out.mu p = kv g hp (X.get p) ⬝ᵥ st.KernEta⁻¹ *ᵥ (y' - y) := by
    rw [e3, e4]
    simp only [mulVec_sub, dotProduct_sub]
    ring
  obtain ⟨rfl, rfl, hcov, -⟩ := cov_tau hr hs hN hK
  have hpd := ready_pd hs hF
  have h1 := inv_cs hpd (kv g hp (X.get p)) (y' - y)
  have h2 := inv_diag_le hpd hs.psd hτ hcov (y' - y)
  have h3 : v - out.sig p ^ 2 = v * (kv g hp (X.get p) ⬝ᵥ st.KernEta⁻¹ *ᵥ kv g hp (X.get p)) := by
    rw [hsg]
    simp only [sgF_sq hr hs hF, s2F]; ring
  have h4 : 0 ≤ kv g hp (X.get p) ⬝ᵥ st.KernEta⁻¹ *ᵥ kv g hp (X.get p) := by
    have := quad_ge hpd (kv g hp (X.get p)) 0
    simpa using this
  rw [e5, h3, mul_assoc]
  exact mul_le_mul_of_nonneg_left (h1.trans (mul_le_mul_of_nonneg_left h2 h4)) hr.vpos.le

/-- **C121** If only the values change, the squared change of the mean at any point is at most the sum of their squared changes divided by
the nugget. -/
theorem C121_values {g : Gp} {hp : HpVals} {v β : ℝ} (hr : ReadyV g hp v β) {f : Arr1} (h : ValuesOk g f g.grad)
    {cc cc' : Bool} {st st' : EvalState g.nData}
    (hst : setupEvalModel g hp cc = .ok st) (hst' : setupEvalModel (withValues g f g.grad) hp cc' = .ok st')
    (hF : st.chofac ≠ none) (hF' : st'.chofac ≠ none) (hη : 0 < st.etaK) {X : Arr2} (hX : X.c = g.dim) (hXr : 0 < X.r) (cg : Bool) :
    ∃ out out' : EvalOut X.r g.dim, evalModel g st hp X cg false = .ok out ∧
      evalModel (withValues g f g.grad) st' hp X cg false = .ok out' ∧
      ∀ p, (out'.mu p - out.mu p) ^ 2 ≤ (∑ q ∈ Finset.range g.nEval, (f.get q - g.fval.get q) ^ 2) / st.etaK := by
  obtain ⟨N, K, hs, hN⟩ := ready_setup hr hst
  have hr' := withValues_readyV hr h
  obtain ⟨N', K', hs', -⟩ := ready_setup hr' hst'
  have hn : ∀ q, 0 ≤ N q := by
    obtain ⟨A, h1, h2⟩ := hN
    intro q; rw [h2]; exact NoiseSpec.nonneg hr.ok hr.adm h1 q
  have hτ : ∀ q, 0 < tau g K N st.etaK q := by
    intro q
    refine add_pos_of_nonneg_of_pos (hn q) (mul_pos hη ?_)
    have := hs.diag q
    have := hn q
    split_ifs <;> linarith
  obtain ⟨out, out', ho, ho', hb⟩ := C121_stability hr h hst hst' hF hF' hN hs.isKern hτ hs.data hs'.data hX hXr cg
  refine ⟨out, out', ho, ho', fun p => ?_⟩
  have hle : g.nEval ≤ g.nData := by rw [hr.ok.nData]; omega
  -- data other than the values are unchanged
  have hsame : ∀ q : Fin g.nData, ¬ (q : ℕ) < g.nEval → st'.dataVec q = st.dataVec q := by
    intro q hq
    have hi : (q : ℕ) < g.nEval + g.nGrad * g.dim := by rw [← hr.ok.nData]; exact q.2
    rcases row_cases hi with h1 | ⟨j, a, hj, ha, he⟩
    · exact absurd h1 hq
    · have hu : g.useGrad = true := by
        by_contra hu
        rw [hr.ok.nGrad] at ha
        simp [hu] at ha
      obtain ⟨A, hA, -⟩ := hr.ok.grad_some hu
      rw [hs.data.grad A hA q j hj a ha he, hs'.data.grad A hA q j hj a ha he]
  set S := ∑ q, (st'.dataVec q - st.dataVec q) ^ 2 / tau g K N st.etaK q with hS
  have hS0 : 0 ≤ S := Finset.sum_nonneg fun q _ => div_nonneg (sq_nonneg _) (hτ q).le
  have hSle : S ≤ (∑ q ∈ Finset.range g.nEval, (f.get q - g.fval.get q) ^ 2) / st.etaK := by
    have e1 : S ≤ ∑ q : Fin g.nData, if (q : ℕ) < g.nEval then (f.get q - g.fval.get q) ^ 2 / st.etaK else 0 := by
      refine Finset.sum_le_sum fun q _ => ?_
      by_cases hq : (q : ℕ) < g.nEval
      · rw [if_pos hq, hs.data.val q hq, hs'.data.val q hq]
        refine div_le_div_of_nonneg_left (sq_nonneg _) hη ?_
        have hd : K q q = 1 := by
          rw [isKern_entry hr.ok hr.adm hs.isKern]
          unfold kk dco
          rw [dIx_val hq]
          simp only [Ix.coord, radKG, sub_self]
          rw [show ssq g.dim (thF hp) (fun _ => 0) = 0 by simp [ssq]]
          exact prφ_zero g.kernel _
        unfold tau
        have := hn q
        split_ifs
        · rw [hd]; nlinarith
        · linarith
      · rw [if_neg hq, hsame q hq]; simp
    refine e1.trans_eq ?_
    rw [Finset.sum_div, Fin.sum_univ_eq_sum_range (fun q => if q < g.nEval then (f.get q - g.fval.get q) ^ 2 / st.etaK else 0),
      ← Finset.sum_filter]
    refine Finset.sum_congr ?_ fun _ _ => rfl
    ext q
    simp only [Finset.mem_filter, Finset.mem_range]
    omega
  have h1 := hb p
  have h2 : (v - out.sig p ^ 2) * S ≤ v * S := mul_le_mul_of_nonneg_right (by nlinarith [sq_nonneg (out.sig p)]) hS0
  have h3 : (out'.mu p - out.mu p) ^ 2 ≤ S := le_of_mul_le_mul_left (h1.trans h2) hr.vpos
  exact h3.trans hSle

/-- **C122** Exact data of a function whose distance from the prior mean has norm at most `B` in the native space of the kernel: at
every point the error of the mean is at most `B` times the predicted standard deviation divided by the square root of the prior
variance, whatever the nugget and the noise variances. -/
theorem C122_exact {g : Gp} {hp : HpVals} {v β : ℝ} (hr : ReadyV g hp v β) {cc : Bool} {st : EvalState g.nData}
    (hst : setupEvalModel g hp cc = .ok st) (hF : st.chofac ≠ none) {h : Pt → ℝ} {B : ℝ}
    (hB : NormLe (gpKern g hp) (fun x => h x - β) B) (hd : Observes g h fun _ => 0)
    {X : Arr2} (hX : X.c = g.dim) (hXr : 0 < X.r) (cg : Bool) :
    ∃ out : EvalOut X.r g.dim, evalModel g st hp X cg false = .ok out ∧
      ∀ p : Fin X.r, v * (h (X.get p) - out.mu p) ^ 2 ≤ B ^ 2 * out.sig p ^ 2 := by
  obtain ⟨N, K, hs, hN⟩ := ready_setup hr hst
  obtain ⟨out, ho, hmu, hsg⟩ := ready_vals hr hs hF hX hXr cg
  obtain ⟨-, -, hcov, hτ⟩ := cov_tau hr hs hN hs.isKern
  refine ⟨out, ho, fun p => ?_⟩
  have key := native_err hr.ok hr.adm hs.isKern hτ hcov (ready_pd hs hF) hB hd hs.data (X.get p)
  have e : out.mu p = β + kv g hp (X.get p) ⬝ᵥ st.KernEta⁻¹ *ᵥ (fun q : Fin g.nData => st.dataVec q - priorMean g β q - 0) := by
    rw [hmu]
    simp only [sub_zero]
    rfl
  rw [e, hsg]
  simp only [sgF_sq hr hs hF]
  calc _ ≤ v * (B ^ 2 * s2F g hp st.KernEta (X.get p)) := mul_le_mul_of_nonneg_left key hr.vpos.le
    _ = _ := by ring

/-- **C122** The same with errors `e` in the data: the error of the mean is at most the one from exact data plus the effect of the errors,
each weighted by the noise variance and nugget of its datum. -/
theorem C122_noisy {g : Gp} {hp : HpVals} {v β : ℝ} (hr : ReadyV g hp v β) {cc : Bool} {st : EvalState g.nData}
    (hst : setupEvalModel g hp cc = .ok st) (hF : st.chofac ≠ none) {h : Pt → ℝ} {B : ℝ} (hB0 : 0 ≤ B)
    (hB : NormLe (gpKern g hp) (fun x => h x - β) B) {e : ℕ → ℝ} (hd : Observes g h e)
    {N : Vec g.nData} {K : Mat g.nData g.nData} (hN : IsNoise g hp N) (hK : IsKern g hp K) (hτ : ∀ q, 0 < tau g K N st.etaK q)
    {X : Arr2} (hX : X.c = g.dim) (hXr : 0 < X.r) (cg : Bool) :
    ∃ out : EvalOut X.r g.dim, evalModel g st hp X cg false = .ok out ∧
      ∀ p : Fin X.r, Real.sqrt v * |h (X.get p) - out.mu p| ≤
        B * out.sig p + Real.sqrt ((v - out.sig p ^ 2) * ∑ q : Fin g.nData, e q ^ 2 / tau g K N st.etaK q) := by
  obtain ⟨N₀, K₀, hs, -⟩ := ready_setup hr hst
  obtain ⟨out, ho, hmu, hsg⟩ := ready_vals hr hs hF hX hXr cg
  obtain ⟨rfl, rfl, hcov, -⟩ := cov_tau hr hs hN hK
  refine ⟨out, ho, fun p => ?_⟩
  have hpd := ready_pd hs hF
  set k := kv g hp (X.get p) with hk
  set ε : Vec g.nData := fun q => e q with hε
  set t : Vec g.nData := fun q => st.dataVec q - priorMean g β q - e q with ht
  have key : (h (X.get p) - (β + k ⬝ᵥ st.KernEta⁻¹ *ᵥ t)) ^ 2 ≤ B ^ 2 * s2F g hp st.KernEta (X.get p) :=
    native_err hr.ok hr.adm hK (fun q => (hτ q).le) hcov hpd hB hd hs.data (X.get p)
  have e1 : out.mu p = β + k ⬝ᵥ st.KernEta⁻¹ *ᵥ t + k ⬝ᵥ st.KernEta⁻¹ *ᵥ ε := by
    rw [add_assoc, ← dotProduct_add, ← mulVec_add, hmu]
    have : t + ε = st.dataVec - priorMean g β := by
      funext q
      show st.dataVec q - priorMean g β q - e q + e q = st.dataVec q - priorMean g β q
      ring
    rw [this]; rfl
  have h1 := inv_cs hpd k ε
  have h2 := inv_diag_le hpd hs.psd hτ hcov ε
  have h4 : 0 ≤ k ⬝ᵥ st.KernEta⁻¹ *ᵥ k := by
    have := quad_ge hpd k 0
    simpa using this
  have h3 : v - out.sig p ^ 2 = v * (k ⬝ᵥ st.KernEta⁻¹ *ᵥ k) := by
    rw [hsg]
    simp only [sgF_sq hr hs hF, s2F]; ring
  have hs0 : 0 ≤ out.sig p := by rw [hsg]; exact mul_nonneg (Real.sqrt_nonneg _) (Real.sqrt_nonneg _)
  have hs2 : out.sig p ^ 2 = v * s2F g hp st.KernEta (X.get p) := by rw [hsg]; exact sgF_sq hr hs hF _
  have hv := Real.sq_sqrt hr.vpos.le
  have a1 : Real.sqrt v * |h (X.get p) - (β + k ⬝ᵥ st.KernEta⁻¹ *ᵥ t)| ≤ B * out.sig p := by
    refine abs_le_of_sq_le_sq' ?_ (mul_nonneg hB0 hs0) |>.2
    rw [mul_pow, sq_abs, hv, mul_pow, hs2]
    calc _ ≤ v * (B ^ 2 * s2F g hp st.KernEta (X.get p)) := mul_le_mul_of_nonneg_left key hr.vpos.le
      _ = _ := by ring
  have a2 : Real.sqrt v * |k ⬝ᵥ st.KernEta⁻¹ *ᵥ ε| ≤
      Real.sqrt ((v - out.sig p ^ 2) * ∑ q : Fin g.nData, e q ^ 2 / tau g K N st.etaK q) := by
    refine Real.le_sqrt_of_sq_le ?_
    rw [mul_pow, sq_abs, hv, h3, mul_assoc]
    exact mul_le_mul_of_nonneg_left (h1.trans (mul_le_mul_of_nonneg_left h2 h4)) hr.vpos.le
  have a3 : |h (X.get p) - out.mu p| ≤ |h (X.get p) - (β + k ⬝ᵥ st.KernEta⁻¹ *ᵥ t)| + |k ⬝ᵥ st.KernEta⁻¹ *ᵥ ε| := by
    rw [e1, show h (X.get p) - (β + k ⬝ᵥ st.KernEta⁻¹ *ᵥ t + k ⬝ᵥ st.KernEta⁻¹ *ᵥ ε) =
      (h (X.get p) - (β + k ⬝ᵥ st.KernEta⁻¹ *ᵥ t)) - k ⬝ᵥ st.KernEta⁻¹ *ᵥ ε by ring]
    exact abs_sub _ _
  calc _ ≤ Real.sqrt v * (|h (X.get p) - (β + k ⬝ᵥ st.KernEta⁻¹ *ᵥ t)| + |k ⬝ᵥ st.KernEta⁻¹ *ᵥ ε|) :=
        mul_le_mul_of_nonneg_left a3 (Real.sqrt_nonneg _)
    _ ≤ _ := by rw [mul_add]; exact add_le_add a1 a2

/-- **C122** The functions `β + ∑ c_j κ(z_j, ·)` are of this kind, with the squared norm `∑ c_i c_j κ(z_i, z_j)`. -/
theorem C122_sections {g : Gp} {hp : HpVals} (hh : HpAdm g hp) {m : ℕ} (z : Fin m → Pt) (c : Fin m → ℝ) (β : ℝ) :
    NormLe (gpKern g hp) (fun x => (β + ∑ j, c j * gpKern g hp (z j) x) - β)
      (Real.sqrt (∑ i, ∑ j, c i * c j * gpKern g hp (z i) (z j))) := by
  have hV := valPsd_pr g.kernel (alphaOf_pos hh.kernel)
  have hθ : ∀ d < g.dim, 0 ≤ thF hp d := fun d hd => (thF_pos hh d hd).le
  rw [gpKern_canon hh]
  set κ : Pt → Pt → ℝ := radial (prφ g.kernel (alphaOf g.kernel hp.kernel)) g.dim (thF hp) with hκ
  have hsym : ∀ x y, κ x y = κ y x := fun x y => by rw [hκ]; unfold radial; rw [wdist2_comm]
  intro n x a
  set A := ∑ i, ∑ j, a i * a j * κ (x i) (x j) with hA
  set C := ∑ i, ∑ j, c i * c j * κ (z i) (z j) with hC
  set b := ∑ i, ∑ j, a i * c j * κ (x i) (z j) with hb
  have key : ∀ s t : ℝ, 0 ≤ s ^ 2 * A + 2 * (s * t) * b + t ^ 2 * C := by
    intro s t
    have := hV g.dim (thF hp) hθ (n + m) (Fin.append x z) (Fin.append (fun i => s * a i) (fun j => t * c j))
    simp only [Fin.sum_univ_add, Fin.append_left, Fin.append_right] at this
    refine this.trans_eq ?_
    rw [Finset.sum_add_distrib, Finset.sum_add_distrib]
    have e1 : ∑ i : Fin n, ∑ j : Fin n, s * a i * (s * a j) * prφ g.kernel (alphaOf g.kernel hp.kernel) (wdist2 g.dim (thF hp) (x i) (x j)) =
        s ^ 2 * A := by
      rw [hA]; simp only [Finset.mul_sum]
      exact Finset.sum_congr rfl fun i _ => Finset.sum_congr rfl fun j _ => by rw [hκ]; unfold radial; ring
    have e2 : ∑ i : Fin n, ∑ j : Fin m, s * a i * (t * c j) * prφ g.kernel (alphaOf g.kernel hp.kernel) (wdist2 g.dim (thF hp) (x i) (z j)) =
        s * t * b := by
      rw [hb]; simp only [Finset.mul_sum]
      exact Finset.sum_congr rfl fun i _ => Finset.sum_congr rfl fun j _ => by rw [hκ]; unfold radial; ring
    have e3 : ∑ j : Fin m, ∑ i : Fin n, t * c j * (s * a i) * prφ g.kernel (alphaOf g.kernel hp.kernel) (wdist2 g.dim (thF hp) (z j) (x i)) =
        s * t * b := by
      rw [Finset.sum_comm, hb]; simp only [Finset.mul_sum]
      exact Finset.sum_congr rfl fun i _ => Finset.sum_congr rfl fun j _ => by rw [hκ]; unfold radial; rw [wdist2_comm]; ring
    have e4 : ∑ i : Fin m, ∑ j : Fin m, t * c i * (t * c j) * prφ g.kernel (alphaOf g.kernel hp.kernel) (wdist2 g.dim (thF hp) (z i) (z j)) =
        t ^ 2 * C := by
      rw [hC]; simp only [Finset.mul_sum]
      exact Finset.sum_congr rfl fun i _ => Finset.sum_congr rfl fun j _ => by rw [hκ]; unfold radial; ring
    rw [e1, e2, e3, e4]; ring
  have hA0 : 0 ≤ A := by simpa using key 1 0
  have hC0 : 0 ≤ C := by simpa using key 0 1
  have hlhs : ∑ i, a i * ((β + ∑ j, c j * κ (z j) (x i)) - β) = b := by
    rw [hb]
    refine Finset.sum_congr rfl fun i _ => ?_
    rw [add_sub_cancel_left, Finset.mul_sum]
    exact Finset.sum_congr rfl fun j _ => by rw [hsym (z j)]; ring
  show (∑ i, a i * ((β + ∑ j, c j * κ (z j) (x i)) - β)) ^ 2 ≤ _
  rw [hlhs, Real.sq_sqrt hC0]
  rcases hA0.eq_or_lt with h0 | h0
  · have hb0 : b = 0 := by
      by_contra hne
      have := key (-(C + 1) / (2 * b)) 1
      rw [← h0] at this
      have e : (-(C + 1) / (2 * b)) ^ 2 * 0 + 2 * (-(C + 1) / (2 * b) * 1) * b + 1 ^ 2 * C = -1 := by field_simp; ring
      rw [e] at this
      linarith
    rw [hb0, ← h0]; simp
  · have := key (-b / A) 1
    have e : (-b / A) ^ 2 * A + 2 * (-b / A * 1) * b + 1 ^ 2 * C = C - b ^ 2 / A := by field_simp; ring
    rw [e, sub_nonneg, div_le_iff₀ h0] at this
    exact this

/-- Such a function can be observed without error at any points, with gradients at any of them. -/
theorem sections_observed {g : Gp} {hp : HpVals} (hg : GpOk g) (hh : HpAdm g hp) {m : ℕ} (z : Fin m → Pt) (c : Fin m → ℝ) (β : ℝ) :
    ∃ f G, ValuesOk g f G ∧ Observes (withValues g f G) (fun x => β + ∑ j, c j * gpKern g hp (z j) x) fun _ => 0 := by
  have P := prProfile g.kernel (alphaOf_pos hh.kernel)
  have hθ : ∀ d < g.dim, 0 ≤ thF hp d := fun d hd => (thF_pos hh d hd).le
  set D : Pt → ℕ → ℝ := fun x i => ∑ j, c j * radKG (prφ g.kernel (alphaOf g.kernel hp.kernel)) (prφ1 g.kernel (alphaOf g.kernel hp.kernel))
    (prφ2 g.kernel (alphaOf g.kernel hp.kernel)) g.dim (thF hp) (fun d => z j d - x d) none (some i) with hD
  refine ⟨⟨g.nEval, fun p => β + ∑ j, c j * gpKern g hp (z j) (g.x.get p)⟩,
    if g.useGrad then some ⟨g.nGrad, g.dim, fun r i => D (g.x.get (gSel g.bvec r)) i⟩ else none, ⟨rfl, ?_⟩, ⟨fun p _ => (add_zero _).symm, ?_⟩⟩
  · split_ifs
    · exact ⟨_, rfl, rfl, rfl⟩
    · rfl
  · intro A hA r hr i hi
    have hA' : (if g.useGrad then some (⟨g.nGrad, g.dim, fun r i => D (g.x.get (gSel g.bvec r)) i⟩ : Arr2) else none) = some A := hA
    split_ifs at hA'
    cases hA'
    have hi' : i < g.dim := hi
    rw [gpKern_canon hh]
    have : HasDerivAt (fun t => ∑ j, c j * radial (prφ g.kernel (alphaOf g.kernel hp.kernel)) g.dim (thF hp) (z j)
        (Function.update (g.x.get (gSel g.bvec r)) i t)) (D (g.x.get (gSel g.bvec r)) i) (g.x.get (gSel g.bvec r) i) := by
      rw [hD]
      refine HasDerivAt.fun_sum fun j _ => HasDerivAt.const_mul (c j) ?_
      exact radKG_isCov P hθ (z j) (g.x.get (gSel g.bvec r)) none (some i) (by simp) (by intro k hk; simp at hk; subst hk; exact hi')
    exact (this.const_add β).congr_deriv (sub_zero _).symm

/-- The hypotheses of C121 are met: two noisy points, one with a gradient, and a nugget; the values change from `0, 1` to `0, 7`. -/
example : ∃ (st st' : EvalState exGp.nData) (out out' : EvalOut 1 2),
    setupEvalModel exGp exHpB false = .ok st ∧ setupEvalModel (withValues exGp ⟨2, fun p => 7 * p⟩ exGp.grad) exHpB false = .ok st' ∧
    evalModel exGp st exHpB ⟨1, 2, fun _ _ => 3⟩ true false = .ok out ∧
    evalModel (withValues exGp ⟨2, fun p => 7 * p⟩ exGp.grad) st' exHpB ⟨1, 2, fun _ _ => 3⟩ true false = .ok out' ∧
    0 < st.etaK ∧ (out'.mu 0 - out.mu 0) ^ 2 ≤ 36 / st.etaK := by
  have hv : ValuesOk exGp ⟨2, fun p => 7 * p⟩ exGp.grad := ⟨rfl, _, rfl, rfl, rfl⟩
  have hη : if exGp.o.etaConst then 0 < exGp.o.etaK else 1 < exGp.o.condMaxTarget := by norm_num [exGp]
  obtain ⟨st, h1, h2⟩ := ready_total exReady.toV hη
  obtain ⟨st', h3, h4⟩ := ready_total (withValues_readyV exReady.toV hv) hη
  obtain ⟨N, K, hs, -⟩ := ready_setup exReady.toV h1
  obtain ⟨out, out', k1, k2, k3⟩ := C121_values exReady.toV hv h1 h3 h2 h4 (hs.etaPos hη) (X := ⟨1, 2, fun _ _ => 3⟩) rfl Nat.one_pos true
  refine ⟨st, st', out, out', h1, h3, k1, k2, hs.etaPos hη, (k3 0).trans_eq ?_⟩
  congr 1
  show ∑ q ∈ Finset.range 2, (7 * (q : ℝ) - q) ^ 2 = 36
  norm_num [Finset.sum_range_succ]

/-- The hypotheses of C122 are met: a function (a section of the kernel above the prior mean), observed with its gradient at one of two points, is predicted within
its error bound. -/
example : ∃ (g : Gp) (st : EvalState g.nData) (out : EvalOut 1 g.dim) (h : Pt → ℝ) (B : ℝ), g.x = exGp.x ∧ g.useGrad = true ∧
    h ≠ (fun _ => 4) ∧ setupEvalModel g exHpB false = .ok st ∧
    evalModel g st exHpB ⟨1, 2, fun _ _ => 3⟩ true false = .ok out ∧ NormLe (gpKern g exHpB) (fun x => h x - 4) B ∧
    3 * (h (fun _ => 3) - out.mu 0) ^ 2 ≤ B ^ 2 * out.sig 0 ^ 2 := by
  obtain ⟨f, G, hv, ho⟩ := sections_observed exReady.ok exReady.adm (m := 1) (fun _ _ => 5) (fun _ => 1) 4
  have hη : if exGp.o.etaConst then 0 < exGp.o.etaK else 1 < exGp.o.condMaxTarget := by norm_num [exGp]
  have hr := withValues_readyV exReady.toV hv
  obtain ⟨st, h1, h2⟩ := ready_total hr hη
  have hB := C122_sections exReady.adm (m := 1) (fun _ _ => 5) (fun _ => 1) 4
  obtain ⟨out, k1, k2⟩ := C122_exact hr h1 h2 hB ho (X := ⟨1, 2, fun _ _ => 3⟩) rfl Nat.one_pos true
  refine ⟨withValues exGp f G, st, out, _, _, rfl, rfl, fun he => ?_, h1, k1, hB, k2 0⟩
  have h5 := congrFun he fun _ => 5
  rw [gpKern_canon exReady.adm] at h5
  simp only [Finset.univ_unique, Finset.sum_singleton, one_mul, radial, wdist2_self] at h5
  rw [prφ_zero] at h5
  norm_num at h5

/-- And with errors: every value is off by `1/10`. -/
example : ∃ (g : Gp) (st : EvalState g.nData) (out : EvalOut 1 g.dim) (h : Pt → ℝ) (B : ℝ) (N : Vec g.nData) (K : Mat g.nData g.nData),
    g.x = exGp.x ∧ g.useGrad = true ∧ g.fval.get 0 = h (g.x.get 0) + 1 / 10 ∧ setupEvalModel g exHpB false = .ok st ∧
    evalModel g st exHpB ⟨1, 2, fun _ _ => 3⟩ true false = .ok out ∧ NormLe (gpKern g exHpB) (fun x => h x - 4) B ∧
    (∀ q, 0 < tau g K N st.etaK q) ∧ Real.sqrt 3 * |h (fun _ => 3) - out.mu 0| ≤
      B * out.sig 0 + Real.sqrt ((3 - out.sig 0 ^ 2) * ∑ q : Fin g.nData, (if (q : ℕ) < 2 then 1 / 10 else 0) ^ 2 / tau g K N st.etaK q) := by
  obtain ⟨f, G, hv, ho⟩ := sections_observed exReady.ok exReady.adm (m := 1) (fun _ _ => 5) (fun _ => 1) 4
  have hη : if exGp.o.etaConst then 0 < exGp.o.etaK else 1 < exGp.o.condMaxTarget := by norm_num [exGp]
  have hv' : ValuesOk exGp ⟨f.n, fun p => f.get p + 1 / 10⟩ G := hv
  have hr := withValues_readyV exReady.toV hv'
  obtain ⟨st, h1, h2⟩ := ready_total hr hη
  have hB := C122_sections exReady.adm (m := 1) (fun _ _ => 5) (fun _ => 1) 4
  have ho' : Observes (withValues exGp ⟨f.n, fun p => f.get p + 1 / 10⟩ G) (fun x => 4 + ∑ j : Fin 1, 1 * gpKern exGp exHpB (fun _ => 5) x)
      (fun q => if q < 2 then 1 / 10 else 0) := by
    refine ⟨fun p hp => ?_, fun A hA r hr i hi => ?_⟩
    · have hp' : p < 2 := hp
      show f.get p + 1 / 10 = _
      rw [if_pos hp', show f.get p = _ from ho.val p hp, add_zero]
      rfl
    · refine (ho.grad A hA r hr i hi).congr_deriv ?_
      rw [if_neg]
      show ¬ 2 + _ + _ < 2
      omega
  obtain ⟨N, K, hs, hN⟩ := ready_setup hr h1
  have hτ : ∀ q, 0 < tau _ K N st.etaK q := by
    intro q
    obtain ⟨A, a1, a2⟩ := hN
    have hn : 0 ≤ N q := by rw [a2]; exact NoiseSpec.nonneg hr.ok hr.adm a1 q
    have hd := hs.diag q
    refine add_pos_of_nonneg_of_pos hn (mul_pos (hs.etaPos hη) ?_)
    split_ifs <;> linarith
  obtain ⟨out, k1, k2⟩ := C122_noisy hr h1 h2 (Real.sqrt_nonneg _) hB ho' hN hs.isKern hτ (X := ⟨1, 2, fun _ _ => 3⟩) rfl Nat.one_pos true
  exact ⟨_, st, out, _, _, N, K, rfl, rfl, (ho'.val 0 (by decide : 0 < 2)).trans (by norm_num), h1, k1, hB, hτ, k2 0⟩

end Props
