import Verif.Props.Average
import Verif.Props.BestLin

/-! Property C130: the mean squared error with random errors in the data. -/

open Np Spec GP Matrix Filter Topology MeasureTheory

noncomputable section

namespace GP

variable {g : Gp} {hp : HpVals}

/-- The variance that errors with variances at most `d` cause is at most the relative variance. -/
theorem weights_noise (hg : GpOk g) (hh : HpAdm g hp) {K M : Mat g.nData g.nData} (hK : IsKern g hp K) {d : Vec g.nData}
    (hM : M = K + diagonal d) (hpd : M.PosDef) (x : Pt) :
    ∑ i, (M⁻¹ *ᵥ kv g hp x) i ^ 2 * d i ≤ s2F g hp M x := by
  set k := kv g hp x with hk
  set w := M⁻¹ *ᵥ k with hw
  have h1 := quad_eq hpd k
  rw [← hw, dotProduct_comm w k] at h1
  have h2 : w ⬝ᵥ M *ᵥ w = w ⬝ᵥ K *ᵥ w + ∑ i, w i ^ 2 * d i := by
    rw [hM, add_mulVec, dotProduct_add]
    congr 1
    simp only [dotProduct, mulVec_diagonal]
    exact Finset.sum_congr rfl fun q _ => by ring
  have h3 := border_nonneg hg hh hK x w (-1)
  rw [← hk, dotProduct_comm w k] at h3
  show _ ≤ 1 - k ⬝ᵥ w
  linarith

/-- The noise-free part of the data is determined by the function. -/
theorem observed_unique (hg : GpOk g) {h : Pt → ℝ} {β : ℝ} {f f' : Arr1} {G G' : Option Arr2} (hf : GpOk (withValues g f G))
    (hf' : GpOk (withValues g f' G')) {y y' : Vec g.nData} {e e' : ℕ → ℝ} (ho : Observes (withValues g f G) h e)
    (ho' : Observes (withValues g f' G') h e') (hy : DataSpec (withValues g f G) y) (hy' : DataSpec (withValues g f' G') y') (q : Fin g.nData) :
    y q - priorMean g β q - e q = y' q - priorMean g β q - e' q := by
  obtain ⟨a1, a2⟩ := observed_rows hf ho hy (β := β) q
  obtain ⟨b1, b2⟩ := observed_rows hf' ho' hy' (β := β) q
  cases hd : dco g q with
  | none => exact (a1 hd).trans (b1 hd).symm
  | some i => exact (a2 i hd).2.unique (b2 i hd).2

end GP

namespace Props

/-- The mean square of a constant plus uncorrelated errors. -/
theorem mse_const {Ω : Type*} [MeasurableSpace Ω] {P : Measure Ω} [IsProbabilityMeasure P] {n : ℕ} {E : Fin n → Ω → ℝ}
    (hE : ∀ i, MemLp (E i) 2 P) (h0 : ∀ i, ∫ ω, E i ω ∂P = 0) (hij : ∀ i j, i ≠ j → ∫ ω, E i ω * E j ω ∂P = 0) (b : ℝ) (w : Vec n) :
    ∫ ω, (b + w ⬝ᵥ fun i => E i ω) ^ 2 ∂P = b ^ 2 + ∑ i, w i ^ 2 * ∫ ω, E i ω ^ 2 ∂P := by
  set U : Option (Fin n) → Ω → ℝ := fun o => match o with
    | none => fun _ => 1
    | some i => E i with hUdef
  set c : Option (Fin n) → ℝ := fun o => match o with
    | none => b
    | some i => w i with hcdef
  have hU : ∀ o, MemLp (U o) 2 P := by
    intro o
    match o with
    | none => exact memLp_const 1
    | some i => exact hE i
  have e : ∀ ω, (b + w ⬝ᵥ fun i => E i ω) = ∑ o, c o * U o ω := by
    intro ω
    rw [Fintype.sum_option]
    show _ = b * 1 + ∑ i, w i * E i ω
    rw [mul_one]
    rfl
  simp only [e]
  rw [int_sq_sum hU]
  have i1 : ∫ ω, U none ω * U none ω ∂P = 1 := by simp [hUdef]
  have i2 : ∀ i, ∫ ω, U none ω * U (some i) ω ∂P = 0 := fun i => by simpa [hUdef] using h0 i
  have i3 : ∀ i, ∫ ω, U (some i) ω * U none ω ∂P = 0 := fun i => by simpa [hUdef] using h0 i
  have i4 : ∀ i j, ∫ ω, U (some i) ω * U (some j) ω ∂P = if i = j then ∫ ω, E i ω ^ 2 ∂P else 0 := by
    intro i j
    split_ifs with h
    · subst h
      exact integral_congr_ae (.of_forall fun ω => (sq _).symm)
    · exact hij i j h
  have c1 : c none = b := rfl
  have c2 : ∀ i, c (some i) = w i := fun _ => rfl
  simp only [Fintype.sum_option, i1, i2, i3, i4, c1, c2, mul_zero, Finset.sum_const_zero, add_zero, mul_ite, Finset.sum_ite_eq,
    Finset.mem_univ, if_true, zero_add, mul_one]
  rw [sq]
  congr 1
  exact Finset.sum_congr rfl fun i _ => by ring

/-- **C130** Risk: let the data be those of a function `h`, whose deviation from the prior mean has norm at most `B` in the native space of the
kernel, plus uncorrelated random errors of mean zero with variances at most the noise variances and nugget that the model assumes. Then
the mean squared error of the predicted mean is at most `(1 + B²) σ² / v`. -/
theorem C130_risk {Ω : Type*} [MeasurableSpace Ω] {P : Measure Ω} [IsProbabilityMeasure P] {g : Gp} {hp : HpVals} {v β : ℝ}
    (hr : ReadyV g hp v β) {N : Vec g.nData} (hN : IsNoise g hp N) {K : Mat g.nData g.nData} (hK : IsKern g hp K)
    {f : Ω → Arr1} {G : Ω → Option Arr2} (hf : ∀ ω, ValuesOk g (f ω) (G ω)) {h : Pt → ℝ} {B : ℝ}
    (hB : NormLe (gpKern g hp) (fun x => h x - β) B) {e : ℕ → Ω → ℝ} (ho : ∀ ω, Observes (withValues g (f ω) (G ω)) h fun i => e i ω)
    {cc : Bool} {st : Ω → EvalState g.nData} (hst : ∀ ω, setupEvalModel (withValues g (f ω) (G ω)) hp cc = .ok (st ω))
    (hF : ∀ ω, (st ω).chofac ≠ none) (he : ∀ i < g.nData, MemLp (e i) 2 P) (he0 : ∀ i < g.nData, ∫ ω, e i ω ∂P = 0)
    (hec : ∀ i < g.nData, ∀ j < g.nData, i ≠ j → ∫ ω, e i ω * e j ω ∂P = 0)
    (hev : ∀ (ω : Ω) (i : Fin g.nData), ∫ ω, e i ω ^ 2 ∂P ≤ tau g K N (st ω).etaK i)
    {X : Arr2} (hX : X.c = g.dim) (hXr : 0 < X.r) (cg : Bool) :
    ∃ (out : Ω → EvalOut X.r g.dim) (s : Vec X.r),
      (∀ ω, evalModel (withValues g (f ω) (G ω)) (st ω) hp X cg false = .ok (out ω) ∧ (out ω).sig = s) ∧
      ∀ a : Fin X.r, v * ∫ ω, ((out ω).mu a - h (X.get a)) ^ 2 ∂P ≤ (1 + B ^ 2) * s a ^ 2 := by
  obtain ⟨ω₀⟩ : Nonempty Ω := P.nonempty_of_neZero
  have hrω := fun ω => withValues_readyV hr (hf ω)
  choose N' K' hs hN' using fun ω => ready_setup (hrω ω) (hst ω)
  have hM : ∀ ω, (st ω).KernEta = (st ω₀).KernEta := fun ω =>
    (setup_valuesV (g := withValues g (f ω₀) (G ω₀)) (f := f ω) (G := G ω) (hrω ω₀) (hs ω₀) (hs ω)).2
  set M := (st ω₀).KernEta with hMdef
  have hpd : M.PosDef := ready_pd (g := withValues g (f ω₀) (G ω₀)) (hs ω₀) (hF ω₀)
  have hN0 : IsNoise (withValues g (f ω₀) (G ω₀)) hp N := by
    obtain ⟨A, h1, h2⟩ := hN
    exact ⟨A, ⟨h1.n, h1.val, h1.grad⟩, h2⟩
  obtain ⟨-, -, hcov, hτ⟩ := cov_tau (hrω ω₀) (hs ω₀) hN0 (show IsKern (withValues g (f ω₀) (G ω₀)) hp K from hK)
  have hcov' : M = K + diagonal (tau g K N (st ω₀).etaK) := hcov
  have hout : ∀ ω, ∃ out : EvalOut X.r g.dim, evalModel (withValues g (f ω) (G ω)) (st ω) hp X cg false = .ok out ∧
      (∀ a, out.mu a = β + kv g hp (X.get a) ⬝ᵥ (M⁻¹ *ᵥ ((st ω).dataVec - priorMean g β))) ∧
      out.sig = fun a : Fin X.r => sgF g hp M v (X.get a) := by
    intro ω
    obtain ⟨out, h1, h2, h3⟩ := ready_vals (hrω ω) (hs ω) (hF ω) hX hXr cg
    refine ⟨out, h1, fun a => ?_, ?_⟩
    · rw [h2]
      show β + kv g hp (X.get a) ⬝ᵥ ((st ω).KernEta⁻¹ *ᵥ ((st ω).dataVec - priorMean g β)) = _
      rw [hM]
    · rw [h3]
      funext a
      show sgF g hp (st ω).KernEta v (X.get a) = _
      rw [hM]
  choose out ho' hmu hsig using hout
  refine ⟨out, fun a => sgF g hp M v (X.get a), fun ω => ⟨ho' ω, hsig ω⟩, fun a => ?_⟩
  set x := X.get a with hx
  set t : Vec g.nData := fun q => (st ω₀).dataVec q - priorMean g β q - e q ω₀ with ht
  have hdat : ∀ ω, (st ω).dataVec - priorMean g β = t + fun q : Fin g.nData => e q ω := by
    intro ω
    funext q
    have := observed_unique hr.ok (β := β) (hrω ω).ok (hrω ω₀).ok (ho ω) (ho ω₀) (hs ω).data (hs ω₀).data q
    simp only [Pi.sub_apply, Pi.add_apply, ht]
    linarith
  set b := (β + kv g hp x ⬝ᵥ M⁻¹ *ᵥ t) - h x with hb
  have hbias : b ^ 2 ≤ B ^ 2 * s2F g hp M x := by
    have := native_err (g := withValues g (f ω₀) (G ω₀)) (hrω ω₀).ok (hrω ω₀).adm (show IsKern (withValues g (f ω₀) (G ω₀)) hp K from hK)
      hτ hcov hpd hB (ho ω₀) (hs ω₀).data x
    have e2 : b ^ 2 = (h x - (β + kv g hp x ⬝ᵥ M⁻¹ *ᵥ t)) ^ 2 := by rw [hb]; ring
    rw [e2]
    exact this
  set w := M⁻¹ *ᵥ kv g hp x with hw
  have hT : (M⁻¹)ᵀ = M⁻¹ := by
    rw [transpose_nonsing_inv]
    have := hpd.isHermitian.eq
    rw [conjTranspose_eq_transpose_of_trivial] at this
    rw [this]
  have herr : ∀ ω, (out ω).mu a - h x = b + w ⬝ᵥ fun q : Fin g.nData => e q ω := by
    intro ω
    have hsw : ∀ u : Vec g.nData, w ⬝ᵥ u = kv g hp x ⬝ᵥ M⁻¹ *ᵥ u := fun u => by
      rw [hw, dotProduct_mulVec, ← mulVec_transpose, hT]
    rw [hmu, hdat, hsw, mulVec_add, dotProduct_add, hb]
    ring
  have hint : ∫ ω, ((out ω).mu a - h x) ^ 2 ∂P = b ^ 2 + ∑ q : Fin g.nData, w q ^ 2 * ∫ ω, e q ω ^ 2 ∂P := by
    simp only [herr]
    exact mse_const (E := fun q : Fin g.nData => e q) (fun q => he q q.2) (fun q => he0 q q.2)
      (fun i j hij => hec i i.2 j j.2 fun h' => hij (Fin.ext h')) b w
  have hvar : ∑ q : Fin g.nData, w q ^ 2 * ∫ ω, e q ω ^ 2 ∂P ≤ s2F g hp M x :=
    (Finset.sum_le_sum fun q _ => mul_le_mul_of_nonneg_left (hev ω₀ q) (sq_nonneg _)).trans (weights_noise hr.ok hr.adm hK hcov' hpd x)
  have hsq : sgF g hp M v x ^ 2 = v * s2F g hp M x := sgF_sq (hrω ω₀) (hs ω₀) (hF ω₀) x
  show v * _ ≤ (1 + B ^ 2) * sgF g hp M v x ^ 2
  rw [hint, hsq]
  have := mul_le_mul_of_nonneg_left (add_le_add hbias hvar) hr.vpos.le
  linarith

/-- **C130** and so the mean squared error tends to zero as the evaluated points accumulate at `x` as in C126 (in mean square, the predicted
mean tends to `h(x)`), although the data are noisy. -/
theorem C130_consistent {Ω : Type*} [MeasurableSpace Ω] {P : Measure Ω} [IsProbabilityMeasure P] {T : Type*} {l : Filter T} {g : T → Gp}
    {hp : T → HpVals} {v β : T → ℝ} (hr : ∀ k, ReadyV (g k) (hp k) (v k) (β k)) {N : ∀ k, Vec (g k).nData}
    (hN : ∀ k, IsNoise (g k) (hp k) (N k)) {K : ∀ k, Mat (g k).nData (g k).nData} (hK : ∀ k, IsKern (g k) (hp k) (K k))
    {f : T → Ω → Arr1} {G : T → Ω → Option Arr2} (hf : ∀ k ω, ValuesOk (g k) (f k ω) (G k ω)) {h : Pt → ℝ} {B : ℝ}
    (hB : ∀ k, NormLe (gpKern (g k) (hp k)) (fun x => h x - β k) B) {e : T → ℕ → Ω → ℝ}
    (ho : ∀ k ω, Observes (withValues (g k) (f k ω) (G k ω)) h fun i => e k i ω)
    {cc : T → Bool} {st : ∀ k, Ω → EvalState (g k).nData}
    (hst : ∀ k ω, setupEvalModel (withValues (g k) (f k ω) (G k ω)) (hp k) (cc k) = .ok (st k ω))
    (hF : ∀ k ω, (st k ω).chofac ≠ none) (he : ∀ k, ∀ i < (g k).nData, MemLp (e k i) 2 P)
    (he0 : ∀ k, ∀ i < (g k).nData, ∫ ω, e k i ω ∂P = 0)
    (hec : ∀ k, ∀ i < (g k).nData, ∀ j < (g k).nData, i ≠ j → ∫ ω, e k i ω * e k j ω ∂P = 0)
    (hev : ∀ (k : T) (ω : Ω) (i : Fin (g k).nData), ∫ ω, e k i ω ^ 2 ∂P ≤ tau (g k) (K k) (N k) (st k ω).etaK i)
    {X : Arr2} (hX : ∀ k, X.c = (g k).dim) (p : Fin X.r) {t : ℝ}
    (hd : ∀ ε > 0, ∀ m : ℕ, ∀ᶠ k in l, ∃ S : Finset (Fin (g k).nData), m ≤ S.card ∧ ∀ q ∈ S, (q : ℕ) < (g k).nEval ∧
      (∀ ω, tau (g k) (K k) (N k) (st k ω).etaK q ≤ t) ∧ 1 - ε ≤ gpKern (g k) (hp k) (X.get p) ((g k).x.get q))
    {cg : T → Bool} {out : ∀ k, Ω → EvalOut X.r (g k).dim}
    (hout : ∀ k ω, evalModel (withValues (g k) (f k ω) (G k ω)) (st k ω) (hp k) X (cg k) false = .ok (out k ω)) :
    Tendsto (fun k => ∫ ω, ((out k ω).mu p - h (X.get p)) ^ 2 ∂P) l (𝓝 0) := by
  obtain ⟨ω₀⟩ : Nonempty Ω := P.nonempty_of_neZero
  rw [Metric.tendsto_nhds]
  intro δ hδ
  have hNω : ∀ k, IsNoise (withValues (g k) (f k ω₀) (G k ω₀)) (hp k) (N k) := fun k => by
    obtain ⟨A, h1, h2⟩ := hN k
    exact ⟨A, ⟨h1.n, h1.val, h1.grad⟩, h2⟩
  have hc := relative_certain (l := l) (g := fun k => withValues (g k) (f k ω₀) (G k ω₀)) (fun k => withValues_readyV (hr k) (hf k ω₀)) (fun k => hst k ω₀)
    (fun k => hF k ω₀) hNω (fun k => (show IsKern (withValues (g k) (f k ω₀) (G k ω₀)) (hp k) (K k) from hK k)) hX p (t := t)
    (fun ε hε m => (hd ε hε m).mono fun k hk => by
      obtain ⟨S, h1, h2⟩ := hk
      exact ⟨S, h1, fun q hq => ⟨(h2 q hq).1, (h2 q hq).2.1 ω₀, (h2 q hq).2.2⟩⟩)
    (out := fun k => out k ω₀) (fun k => hout k ω₀) (δ := δ / (2 * (1 + B ^ 2))) (by positivity)
  filter_upwards [hc] with k hk
  obtain ⟨o, s, h1, h2⟩ := C130_risk (hr k) (hN k) (hK k) (hf k) (hB k) (ho k) (hst k) (hF k) (he k) (he0 k) (hec k) (hev k) (hX k) p.pos (cg k)
  have hoo : o = out k := funext fun ω => Except.ok.inj ((h1 ω).1.symm.trans (hout k ω))
  subst hoo
  have h3 := h2 p
  rw [← (h1 ω₀).2] at h3
  have hv := (hr k).vpos
  have h4 : ∫ ω, ((out k ω).mu p - h (X.get p)) ^ 2 ∂P ≤ δ / 2 := by
    refine le_of_mul_le_mul_left ?_ hv
    calc _ ≤ _ := h3
      _ ≤ (1 + B ^ 2) * (v k * (δ / (2 * (1 + B ^ 2)))) := mul_le_mul_of_nonneg_left hk (by positivity)
      _ = _ := by field_simp
  have h5 : 0 ≤ ∫ ω, ((out k ω).mu p - h (X.get p)) ^ 2 ∂P := integral_nonneg fun ω => sq_nonneg _
  rw [Real.dist_eq, sub_zero, abs_of_nonneg h5]
  linarith

/-- One of the first two values, chosen at random, is wrong by `1/10` or `-1/10`, each with probability one half. -/
def exErr (i : ℕ) (ω : Fin 2 × Bool) : ℝ := if (ω.1 : ℕ) = i then (if ω.2 then 1 / 10 else -1 / 10) else 0

/-- The four cases have the same probability. -/
def exP : Measure (Fin 2 × Bool) := (PMF.uniformOfFintype (Fin 2 × Bool)).toMeasure

instance : IsProbabilityMeasure exP := by unfold exP; infer_instance

theorem exP_int (f : Fin 2 × Bool → ℝ) : ∫ ω, f ω ∂exP = (f (0, true) + f (0, false) + (f (1, true) + f (1, false))) / 4 := by
  rw [exP, PMF.integral_eq_sum]
  simp only [PMF.uniformOfFintype_apply, Fintype.card_prod, Fintype.card_fin, Fintype.card_bool, smul_eq_mul]
  rw [← Finset.mul_sum, Fintype.sum_prod_type]
  simp only [Fintype.sum_bool, Fin.sum_univ_two]
  have : ((2 * 2 : ℕ) : ENNReal)⁻¹.toReal = 1 / 4 := by
    rw [ENNReal.toReal_inv, ENNReal.toReal_natCast]
    norm_num
  rw [this]
  ring

theorem exErr_moments : (∀ i, ∫ ω, exErr i ω ∂exP = 0) ∧ (∀ i j, i ≠ j → ∫ ω, exErr i ω * exErr j ω ∂exP = 0) ∧
    (∀ i, ∫ ω, exErr i ω ^ 2 ∂exP ≤ 1 / 50) ∧ ∫ ω, exErr 1 ω ^ 2 ∂exP = 1 / 200 := by
  have z : ∀ i b, exErr (i + 2) b = 0 := fun i b => by
    unfold exErr
    rw [if_neg]
    have := b.1.2
    omega
  refine ⟨fun i => ?_, fun i j hij => ?_, fun i => ?_, ?_⟩
  · rw [exP_int]
    match i with
    | 0 => norm_num [exErr]
    | 1 => norm_num [exErr]
    | i + 2 => simp [z]
  · rw [exP_int]
    match i, j with
    | 0, 0 => exact absurd rfl hij
    | 1, 1 => exact absurd rfl hij
    | 0, 1 => norm_num [exErr]
    | 1, 0 => norm_num [exErr]
    | i + 2, j => simp [z]
    | i, j + 2 => simp [z]
  · rw [exP_int]
    match i with
    | 0 => norm_num [exErr]
    | 1 => norm_num [exErr]
    | i + 2 => simp [z]
  · rw [exP_int]
    norm_num [exErr]

set_option maxHeartbeats 2000000 in
/-- The hypotheses of C130 are met: predictions at the origin from more and more values of `4 + κ(z, ·)` with `z = (5, 5)`, the first
two of them with random errors. -/
example : ∃ (h : Pt → ℝ) (st : ∀ k, Fin 2 × Bool → EvalState (exGpSeq h k).nData)
    (out : ∀ k, Fin 2 × Bool → EvalOut 1 (exGpSeq h k).dim), ∫ ω, exErr 1 ω ^ 2 ∂exP = 1 / 200 ∧
    (∀ k ω, setupEvalModel (withValues (exGpSeq h k) ⟨k + 1, fun p => h (fun _ => 1 / ((p : ℝ) + 1)) + exErr p ω⟩ none) exHpQuiet false =
      .ok (st k ω)) ∧
    (∀ k ω, evalModel (withValues (exGpSeq h k) ⟨k + 1, fun p => h (fun _ => 1 / ((p : ℝ) + 1)) + exErr p ω⟩ none) (st k ω) exHpQuiet
      ⟨1, 2, fun _ _ => 0⟩ true false = .ok (out k ω)) ∧
    Tendsto (fun k => ∫ ω, ((out k ω).mu 0 - h fun _ => 0) ^ 2 ∂exP) atTop (𝓝 0) := by
  set h : Pt → ℝ := fun x => 4 + ∑ _j : Fin 1, 1 * gpKern exGpQuiet exHpQuiet (fun _ => 5) x with hh
  have hf : ∀ k ω, ValuesOk (exGpSeq h k) ⟨k + 1, fun p => h (fun _ => 1 / ((p : ℝ) + 1)) + exErr p ω⟩ none := fun k ω => ⟨rfl, rfl⟩
  have hη : ∀ k, if (exGpSeq h k).o.etaConst then 0 < (exGpSeq h k).o.etaK else 1 < (exGpSeq h k).o.condMaxTarget := fun k => by
    norm_num [exGpSeq]
  have hr : ∀ k, ReadyV (exGpSeq h k) exHpQuiet 3 4 := fun k => (exReadySeq h k).toV
  have hrω := fun k ω => withValues_readyV (hr k) (hf k ω)
  choose st h1 h2 using fun k ω => ready_total (hrω k ω) (hη k)
  choose st₀ h3 h4 using fun k => ready_total (hr k) (hη k)
  choose N K hs hN using fun k => ready_setup (hr k) (h3 k)
  choose N' K' hs' hN' using fun k ω => ready_setup (hrω k ω) (h1 k ω)
  have hst : ∀ k ω, (st k ω).etaK = (st₀ k).etaK := fun k ω => (setup_valuesV (hr k) (hs k) (hs' k ω)).1
  have hK : ∀ k, IsKern (exGpSeq h k) exHpQuiet (K k) := fun k => (hs k).isKern
  have hτ : ∀ k (q : Fin (exGpSeq h k).nData), tau (exGpSeq h k) (K k) (N k) (st₀ k).etaK q = 1 / 50 := by
    intro k q
    obtain ⟨A, hA, hNA⟩ := hN k
    have h5 := hA.val q q.2
    have h6 := (hs k).etaConst rfl
    unfold tau
    rw [hNA, h5, h6]
    norm_num [exGpSeq, valVar, exGpQuiet, exGp]
  choose out ho _ using fun k ω => ready_vals (hrω k ω) (hs' k ω) (h2 k ω) (X := ⟨1, 2, fun _ _ => 0⟩) rfl Nat.one_pos true
  refine ⟨h, st, out, exErr_moments.2.2.2, h1, ho, ?_⟩
  refine C130_consistent (N := N) (K := K) (e := fun _ => exErr)
    (B := Real.sqrt (∑ _i : Fin 1, ∑ _j : Fin 1, 1 * 1 * gpKern exGpQuiet exHpQuiet (fun _ => 5) (fun _ => 5)))
    hr hN hK hf (fun k => C122_sections (g := exGpSeq h k) (exReadySeq h k).adm (fun _ : Fin 1 => fun _ => 5) (fun _ => 1) 4)
    (fun k ω => ⟨?_, ?_⟩) h1 h2 (fun _ _ _ => MemLp.of_discrete) (fun _ i _ => exErr_moments.1 i)
    (fun _ i _ j _ hij => exErr_moments.2.1 i j hij) (fun k ω i => by rw [hst, hτ]; exact exErr_moments.2.2.1 i) (X := ⟨1, 2, fun _ _ => 0⟩) (fun _ => rfl) 0 (t := 1 / 50) ?_ ho
  · intro p _
    rfl
  · intro A hA
    cases hA
  · intro ε hε m
    refine (exSeq_near h h3 (K := K) hN ε hε m).mono fun k hk => ?_
    obtain ⟨S, a1, a2⟩ := hk
    exact ⟨S, a1, fun q hq => ⟨(a2 q hq).1, fun ω => by rw [hst, hτ], (a2 q hq).2.2⟩⟩

end Props
