import Verif.Proofs.CovGp
import Verif.Proofs.MatDeriv
import Verif.Model.HpGrad
import Verif.Props.KernelDerivs
import Verif.Props.Layout
import Verif.Props.Common

/-! Closed forms of the covariance matrix and of its hyperparameter derivatives. -/

open Np Spec Matrix MD

noncomputable section

namespace GP

variable {n : ℕ}

/-- The covariance matrix for a constant nugget. -/
def covMat (o : CondOpts) (v : ℝ) (K : Mat n n) (N : Vec n) : Mat n n :=
  of fun i j => v * K i j + if i = j then N i + o.etaK * (if o.precon then v * K i i + N i else v) else 0

theorem CovSpec.covMat {o : CondOpts} {v : ℝ} {K : Mat n n} {N : Vec n} {cf cc : Bool} {out : CovOut n}
    (h : CovSpec o v K N cf cc out) (hv : v ≠ 0) (hc : o.etaConst = true) : out.Kcov = covMat o v K N := by
  have he := h.eta
  rw [if_pos hc] at he
  rw [h.cov, he]
  ext i j
  simp only [GP.covMat, of_apply, Matrix.smul_apply, Matrix.add_apply, kwn, smul_eq_mul, diagonal_apply]
  cases o.precon
  · by_cases hij : i = j
    · subst hij
      simp only [if_true, Bool.false_eq_true, if_false, one_apply_eq]
      field_simp; ring
    · simp [hij]
  · by_cases hij : i = j
    · subst hij
      simp only [if_true, diagonal_apply_eq]
      field_simp; ring
    · simp [hij]

/-- The noise variances in data order. -/
def noiseV (g : Gp) (hp : HpVals) : Vec g.nData := fun i =>
  if (i : ℕ) < g.nEval then valVar g hp i else gradVar g hp ((i - g.nEval) % g.nGrad) ((i - g.nEval) / g.nGrad)

theorem noiseV_val {g : Gp} {hp : HpVals} {i : Fin g.nData} (h : (i : ℕ) < g.nEval) : noiseV g hp i = valVar g hp i := by
  simp [noiseV, h]

theorem noiseV_grad {g : Gp} {hp : HpVals} {i : Fin g.nData} {j a : ℕ} (ha : a < g.nGrad) (h : (i : ℕ) = g.nEval + j * g.nGrad + a) :
    noiseV g hp i = gradVar g hp a j := by
  have h1 : ¬ (i : ℕ) < g.nEval := by omega
  have h2 : (i : ℕ) - g.nEval = a + g.nGrad * j := by rw [h, Nat.mul_comm]; omega
  simp only [noiseV, h1, if_false, h2]
  rw [Nat.add_mul_mod_self_left, Nat.mod_eq_of_lt ha, Nat.add_mul_div_left _ _ (by omega), Nat.div_eq_of_lt ha, Nat.zero_add]

theorem NoiseSpec.eq {g : Gp} (hg : GpOk g) {hp : HpVals} {N : Arr1} (h : NoiseSpec g hp N) : toVec g.nData N = noiseV g hp := by
  funext i
  have : (i : ℕ) < g.nEval + g.nGrad * g.dim := by rw [← hg.nData]; exact i.2
  rcases row_cases this with h1 | ⟨j, a, hj, ha, he⟩
  · rw [noiseV_val h1]; exact h.val i h1
  · rw [noiseV_grad ha he]
    unfold toVec
    rw [he]; exact h.grad j hj a ha

theorem mem_gpSlots {g : Gp} {ok : Bool} {s : Slot} (h : s ∈ gpSlots g ok) :
    (∀ d, s = .theta d → d < g.dim) ∧ (s = .kernel → ok = true ∧ g.kernel = .ratQuad) ∧ (s = .varK → g.noisy = true) ∧
    (s = .varFval → g.knownFval = false) ∧ (s = .varFgrad → g.useGrad = true ∧ g.knownFgrad = false) := by
  simp only [gpSlots, hpSlots, List.mem_append, if_true, List.mem_map, List.mem_range] at h
  have hone : ∀ (b : Bool) (x : Slot), s ∈ (if b then [x] else []) → b = true ∧ s = x := by
    intro b x hx; cases b <;> simp_all
  have hkr : kernelHasHp g.kernel = true → g.kernel = .ratQuad := by
    cases g.kernel <;> simp [kernelHasHp, hpKernelDefault]
  rcases h with (((⟨d, hd, rfl⟩ | h) | h) | h) | h
  · simp [hd]
  all_goals
    obtain ⟨h1, rfl⟩ := hone _ _ h
    simp_all

theorem HpAdm.setSlot {g : Gp} {hp : HpVals} (hh : HpAdm g hp) {ok : Bool} {s : Slot} (hs : s ∈ gpSlots g ok) {t : ℝ} (ht : 0 < t) :
    HpAdm g (setSlot hp s t) := by
  obtain ⟨h1, h2, h3, h4, h5⟩ := mem_gpSlots hs
  cases s with
  | theta d =>
    obtain ⟨th, e, hn, hpos⟩ := hh.theta
    refine ⟨⟨setTheta th d t, by simp [Spec.setSlot, e], hn, ?_⟩, hh.kernel, hh.vf_none, hh.vf_some, hh.vg_none, hh.vg_some⟩
    intro j hj
    by_cases hjd : j = d
    · subst hjd; simpa [setTheta] using ht
    · simpa [setTheta, hjd] using hpos j hj
  | kernel => exact ⟨hh.theta, fun _ => ⟨t, ht, rfl⟩, hh.vf_none, hh.vf_some, hh.vg_none, hh.vg_some⟩
  | varK => exact ⟨hh.theta, hh.kernel, hh.vf_none, hh.vf_some, hh.vg_none, hh.vg_some⟩
  | varFval =>
    have := h4 rfl
    exact ⟨hh.theta, hh.kernel, fun h => by simp_all, fun _ => ⟨t, rfl, ht.le⟩, hh.vg_none, hh.vg_some⟩
  | varFgrad =>
    have := h5 rfl
    exact ⟨hh.theta, hh.kernel, hh.vf_none, hh.vf_some, fun _ h => by simp_all, fun _ _ => ⟨t, rfl, ht.le⟩⟩

/-- The covariance matrix at admissible hyperparameters. -/
theorem kcov_at {g : Gp} (hg : GpOk g) {hp : HpVals} (hh : HpAdm g hp) (hk : g.useGrad = true ∨ g.knownFval = true)
    (hprec : g.o.precon = true → g.useGrad = true) (hne : 0 < g.nEval) (hc : g.o.etaConst = true)
    {R : Arr3} (hR : calcRtensor g.x g.x = .ok R) (cf cc : Bool) (varKin : Option ℝ) {v : ℝ} (hv : 0 < v)
    (hvk : varKin.or hp.varK = some v) {th : Arr1} (ht : hp.theta = some th) {A : Arr2} (hA : calcKern g R th hp.kernel = .ok A) :
    ∃ out, calcAllK g R hp none cf cc varKin false = .ok out ∧ out.Kern = toMat g.nData g.nData A ∧
      out.Kcov = covMat g.o v (toMat g.nData g.nData A) (noiseV g hp) := by
  obtain ⟨N, out, -, h2, h3, h4⟩ := calcAllK_ok' hg hh hk hprec hne hR cf cc varKin false hv ⟨⟨v, hvk, fun _ => rfl⟩, by simp⟩ ht hA
  refine ⟨out, h3, h4.kern, ?_⟩
  rw [h4.covMat hv.ne' hc, NoiseSpec.eq hg h2]

/-- Derivative of the covariance matrix along a curve. -/
theorem covMat_deriv (o : CondOpts) {v : ℝ → ℝ} {K : ℝ → Mat n n} {N : ℝ → Vec n} {v' : ℝ} {K' : Mat n n} {N' : Vec n} {t : ℝ}
    (hv : HasDerivAt v v' t) (hK : MDeriv K K' t) (hN : ∀ i, HasDerivAt (fun s => N s i) (N' i) t) :
    MDeriv (fun s => covMat o (v s) (K s) (N s))
      (of fun i j => v' * K t i j + v t * K' i j + if i = j then N' i + o.etaK * (if o.precon then
        v' * K t i i + v t * K' i i + N' i else v') else 0) t := by
  intro i j
  simp only [covMat, of_apply]
  have h1 : ∀ i j, HasDerivAt (fun s => v s * K s i j) (v' * K t i j + v t * K' i j) t := fun i j => hv.fun_mul (hK i j)
  refine (h1 i j).fun_add ?_
  by_cases hij : i = j
  · subst hij
    simp only [if_true]
    refine (hN i).fun_add ?_
    cases o.precon
    · simp only [Bool.false_eq_true, if_false]
      exact hv.const_mul _
    · simp only [if_true]
      exact ((h1 i i).fun_add (hN i)).const_mul _
  · simp only [hij, if_false]
    exact hasDerivAt_const _ _

/-- The settings for which the code's length-scale derivative of the kernel matrix is right (C06-C08): without gradients not
the Matérn kernel; with gradients either gradients at every point (and for the Matérn kernel points that are not spuriously
close) or the rational quadratic kernel. -/
structure ThSupp (g : Gp) (th : Arr1) : Prop where
  base : g.useGrad = false → g.kernel ≠ .matern
  grad : g.useGrad = true → (gN g.bvec g.nEval = g.nEval ∧ (g.kernel = .matern → Separated g.x g.x th)) ∨ g.kernel = .ratQuad

theorem kernTheta_ok {g : Gp} (hg : GpOk g) {hp : HpVals} (hh : HpAdm g hp) {R : Arr3} (hR : calcRtensor g.x g.x = .ok R)
    {th : Arr1} (ht : hp.theta = some th) (hs : ThSupp g th) :
    ∃ G, calcKernGradTheta g R th hp.kernel = .ok G ∧ G.r = g.nData ∧ G.c = g.nData ∧
      Props.IsThetaDeriv (fun θ => calcKern g R θ hp.kernel) th g.dim G := by
  obtain ⟨th', ht', hn, hpos⟩ := hh.theta
  rw [ht] at ht'; cases ht'
  have hn' : th.n = g.x.c := by rw [hg.x_c, hn]
  have hpos' : ∀ d < g.x.c, 0 < th.get d := fun d hd => hpos d (by rw [← hg.x_c]; exact hd)
  unfold calcKernGradTheta calcKern
  by_cases hu : g.useGrad = true
  · have hm : maskOk g.bvec g.x.r := by rw [hg.x_r]; exact hg.mask
    have hng : g.nGrad = gN g.bvec g.nEval := by rw [hg.nGrad]; simp [hu]
    simp only [if_pos hu]
    have hsz : g.x.r + gN g.bvec g.x.r * g.x.c = g.nData := by rw [hg.nData, hg.x_r, hg.x_c, hng]
    obtain ⟨R', G, hR', h1, h2, h3, h4⟩ := Props.C08_masked_theta_derivative_partial g.kernel g.x th hn' hpos' hp.kernel
      hh.kernel (fun hk => ((hs.grad hu).resolve_right (by rw [hk]; simp)).2 hk) g.bvec hm
      (fun hk => by rw [hg.x_r]; exact ((hs.grad hu).resolve_right hk).1)
    rw [hR] at hR'; cases hR'
    exact ⟨G, h1, by rw [h2, hsz], by rw [h3, hsz], by rw [← hg.x_c]; exact h4⟩
  · simp only [if_neg hu]
    have hu' : g.useGrad = false := by simpa using hu
    have hnd : g.nData = g.x.r := by rw [hg.nData, hg.nGrad, hg.x_r]; simp [hu']
    obtain ⟨R', G, hR', h1, h2, h3, h4⟩ := Props.C06_base_theta_derivative_partial g.kernel (hs.base hu') g.x th hn' hpos' hp.kernel hh.kernel
    rw [hR] at hR'; cases hR'
    exact ⟨G, h1, by rw [h2, hnd], by rw [h3, hnd], by rw [← hg.x_c]; exact h4⟩

theorem kernAlpha_ok {g : Gp} (hg : GpOk g) {hp : HpVals} (hh : HpAdm g hp) {R : Arr3} (hR : calcRtensor g.x g.x = .ok R)
    {th : Arr1} (ht : hp.theta = some th) (hr : g.kernel = .ratQuad) {α : ℝ} (hα : hp.kernel = some α) :
    ∃ G, calcKernGradAlpha g R th hp.kernel = .ok G ∧ G.r = g.nData ∧ G.c = g.nData ∧
      Props.IsAlphaDeriv (fun a => calcKern g R th (some a)) α G := by
  obtain ⟨th', ht', hn, hpos⟩ := hh.theta
  rw [ht] at ht'; cases ht'
  have hn' : th.n = g.x.c := by rw [hg.x_c, hn]
  have hpos' : ∀ d < g.x.c, 0 ≤ th.get d := fun d hd => (hpos d (by rw [← hg.x_c]; exact hd)).le
  obtain ⟨α', hα0, he⟩ := hh.kernel hr
  rw [hα] at he; cases he
  unfold calcKernGradAlpha calcKern
  rw [hα, hr]
  by_cases hu : g.useGrad = true
  · have hm : maskOk g.bvec g.x.r := by rw [hg.x_r]; exact hg.mask
    have hng : g.nGrad = gN g.bvec g.nEval := by rw [hg.nGrad]; simp [hu]
    simp only [if_pos hu]
    have hsz : g.x.r + gN g.bvec g.x.r * g.x.c = g.nData := by rw [hg.nData, hg.x_r, hg.x_c, hng]
    obtain ⟨R', G, hR', h1, h2, h3, h4⟩ := Props.C09_grad_alpha_derivative g.x th hn' hpos' α hα0 g.bvec hm
    rw [hR] at hR'; cases hR'
    exact ⟨G, h1, by rw [h2, hsz], by rw [h3, hsz], h4⟩
  · simp only [if_neg hu]
    have hu' : g.useGrad = false := by simpa using hu
    have hnd : g.nData = g.x.r := by rw [hg.nData, hg.nGrad, hg.x_r]; simp [hu']
    obtain ⟨R', G, hR', h1, h2, h3, h4⟩ := Props.C09_base_alpha_derivative g.x th hn' hpos' α hα0
    rw [hR] at hR'; cases hR'
    exact ⟨G, h1, by rw [h2, hnd], by rw [h3, hnd], h4⟩

/-! ### Assembly of the slabs -/

theorem setSlabs_range {A B : Arr3} {m : ℕ} (h1 : B.d = m) (h2 : B.r = A.r) (h3 : B.c = A.c) (h4 : m ≤ A.d) :
    setSlabs A (List.range m) B = .ok ⟨A.d, A.r, A.c, fun d p q => if d < m then B.get d p q else A.get d p q⟩ := by
  unfold setSlabs
  rw [if_pos ⟨by simpa using h1, h2, h3⟩, if_pos (by intro i hi; have := List.mem_range.mp hi; omega)]
  simp only [Except.ok.injEq, Arr3.mk.injEq, true_and]
  funext d p q
  by_cases hd : d < m
  · simp only [List.mem_range, hd, if_true]
    rw [show List.idxOf d (List.range m) = d from by
      have h5 : (List.range m)[d]'(by simpa using hd) = d := by simp
      conv_lhs => rw [← h5]
      exact List.nodup_range.idxOf_getElem d _]
  · simp [hd]

theorem setSlabs_one {A B : Arr3} {k : ℕ} (h1 : B.d = 1) (h2 : B.r = A.r) (h3 : B.c = A.c) (h4 : k < A.d) :
    setSlabs A [k] B = .ok ⟨A.d, A.r, A.c, fun d p q => if d = k then B.get 0 p q else A.get d p q⟩ := by
  unfold setSlabs
  rw [if_pos ⟨by simpa using h1, h2, h3⟩, if_pos (by intro i hi; simp at hi; omega)]
  simp only [Except.ok.injEq, Arr3.mk.injEq, true_and]
  funext d p q
  by_cases hd : d = k
  · subst hd; simp
  · simp [hd]

theorem setSlabIf_ok {A : Arr3} {B : Arr2} {has : Bool} {k : ℕ} (h : has = true → k < A.d ∧ B.r = A.r ∧ B.c = A.c) :
    setSlabIf has A k B = .ok ⟨A.d, A.r, A.c, fun d p q => if has = true ∧ d = k then B.get p q else A.get d p q⟩ := by
  unfold setSlabIf
  cases has with
  | false => simp
  | true =>
    obtain ⟨h1, h2, h3⟩ := h rfl
    simp [setSlab, h1, h2, h3, Arr3.putSlab]

/-- The slab that belongs to a slot, with noise. -/
def noisySlab (g : Gp) (v : ℝ) (Gt Ga : Arr3) (Kern : Arr2) : Slot → ℕ → ℕ → ℝ
  | .theta d => fun i j => v * Gt.get d i j + if g.o.precon = true ∧ i = j then v * Gt.get d i j * g.o.etaK else 0
  | .kernel => fun i j => v * Ga.get 0 i j + if g.o.precon = true ∧ i = j then v * Ga.get 0 i j * g.o.etaK else 0
  | .varK => (kcovGradVarK g Kern).get
  | .varFval => (kcovGradVarFval g).get
  | .varFgrad => (kcovGradVarFgrad g).get

theorem kcovGradVarK_r (g : Gp) (K : Arr2) : (kcovGradVarK g K).r = K.r ∧ (kcovGradVarK g K).c = K.c := by
  unfold kcovGradVarK; split <;> exact ⟨rfl, rfl⟩

theorem kcovSlab {g : Gp} {B : Arr3} {d i j : ℕ} (v : ℝ) :
    (if g.o.precon then addDiagEta (B.map (v * ·)) g.o.etaK else B.map (v * ·)).get d i j =
      v * B.get d i j + if g.o.precon = true ∧ i = j then v * B.get d i j * g.o.etaK else 0 := by
  cases g.o.precon <;> simp [addDiagEta, Arr3.map]

theorem kcovSlab_d {g : Gp} {B : Arr3} (v : ℝ) : (if g.o.precon then addDiagEta (B.map (v * ·)) g.o.etaK else B.map (v * ·)).d = B.d := by
  cases g.o.precon <;> rfl
theorem kcovSlab_r {g : Gp} {B : Arr3} (v : ℝ) : (if g.o.precon then addDiagEta (B.map (v * ·)) g.o.etaK else B.map (v * ·)).r = B.r := by
  cases g.o.precon <;> rfl
theorem kcovSlab_c {g : Gp} {B : Arr3} (v : ℝ) : (if g.o.precon then addDiagEta (B.map (v * ·)) g.o.etaK else B.map (v * ·)).c = B.c := by
  cases g.o.precon <;> rfl

theorem calcKcovGradHp_ok {g : Gp} (hg : GpOk g) (lo : LogOpts) (k vb f gr : Bool) {hp : HpVals} {Kern : Arr2} {R : Arr3} {v : ℝ}
    (hv : hp.varK = some v) {th : Arr1} (ht : hp.theta = some th) {Gt Ga : Arr3} (h1 : calcKernGradTheta g R th hp.kernel = .ok Gt)
    (h1d : Gt.d = g.dim) (h1r : Gt.r = g.nData) (h1c : Gt.c = g.nData)
    (h2 : k = true → calcKernGradAlpha g R th hp.kernel = .ok Ga ∧ Ga.d = 1 ∧ Ga.r = g.nData ∧ Ga.c = g.nData)
    (h3 : Kern.r = g.nData) (h4 : Kern.c = g.nData) :
    ∃ A, calcKcovGradHp g (hpInfoOf lo g.dim true k vb f gr) hp Kern R = .ok A ∧
      A.d = (hpSlots g.dim true k vb f gr).length ∧ A.r = g.nData ∧ A.c = g.nData ∧
      ∀ p s, (hpSlots g.dim true k vb f gr)[p]? = some s → ∀ i j, A.get p i j = noisySlab g v Gt Ga Kern s i j := by
  have hnd := hg.nData
  set info := hpInfoOf lo g.dim true k vb f gr with hinfo
  have hnHp : info.nHp = g.dim + b2n k + b2n vb + b2n f + b2n gr := by simp [hinfo, hpInfoOf, b2n]
  have hT : kcovHpTheta g info hp v R (Arr3.zeros info.nHp g.nData g.nData) = .ok ⟨info.nHp, g.nData, g.nData, fun d p q =>
      if d < g.dim then noisySlab g v Gt Ga Kern (.theta d) p q else 0⟩ := by
    unfold kcovHpTheta
    rw [if_pos (by rfl), show info.idxTheta = List.range g.dim from by simp [hinfo, hpInfoOf]]
    unfold kcovGradTheta
    rw [ht]
    simp only [need, ok_bind, h1, pure_eq_ok]
    rw [setSlabs_range (by rw [kcovSlab_d, h1d]) (by rw [kcovSlab_r, h1r]; rfl) (by rw [kcovSlab_c, h1c]; rfl)
      (by simp only [Arr3.zeros]; omega)]
    simp only [kcovSlab, Arr3.zeros, noisySlab]
  have hA : kcovHpKernel g info hp v R ⟨info.nHp, g.nData, g.nData, fun d p q =>
      if d < g.dim then noisySlab g v Gt Ga Kern (.theta d) p q else 0⟩ = .ok ⟨info.nHp, g.nData, g.nData, fun d p q =>
      if k = true ∧ d = g.dim then noisySlab g v Gt Ga Kern .kernel p q else
      if d < g.dim then noisySlab g v Gt Ga Kern (.theta d) p q else 0⟩ := by
    unfold kcovHpKernel
    cases hk : k with
    | false => rw [if_neg (by simp [hinfo, hpInfoOf, hk])]; simp
    | true =>
      obtain ⟨e1, e2, e3, e4⟩ := h2 hk
      rw [if_pos (by simp [hinfo, hpInfoOf, hk]), show info.idxKernel = g.dim from by simp [hinfo, hpInfoOf, hk, b2n]]
      unfold kcovGradAlpha
      rw [ht]
      simp only [need, ok_bind, e1, pure_eq_ok]
      rw [setSlabs_one (by rw [kcovSlab_d, e2]) (by rw [kcovSlab_r, e3]) (by rw [kcovSlab_c, e4])
        (by simp only [hnHp, hk, b2n]; simp; omega)]
      simp only [kcovSlab, noisySlab, true_and]
  have key : calcKcovGradHp g info hp Kern R = .ok ⟨info.nHp, g.nData, g.nData, fun d p q =>
      if gr = true ∧ d = info.idxVarFgrad then noisySlab g v Gt Ga Kern .varFgrad p q else
      if f = true ∧ d = info.idxVarFval then noisySlab g v Gt Ga Kern .varFval p q else
      if vb = true ∧ d = info.idxVarK then noisySlab g v Gt Ga Kern .varK p q else
      if k = true ∧ d = g.dim then noisySlab g v Gt Ga Kern .kernel p q else
      if d < g.dim then noisySlab g v Gt Ga Kern (.theta d) p q else 0⟩ := by
    unfold calcKcovGradHp
    rw [hv]
    simp only [hT, ok_bind, hA]
    rw [show info.hasVarK = vb from rfl, show info.hasVarFval = f from rfl, show info.hasVarFgrad = gr from rfl]
    have hKr := kcovGradVarK_r g Kern
    rw [setSlabIf_ok (by
      rintro rfl
      refine ⟨by simp only [hnHp]; simp [hinfo, hpInfoOf, b2n]; omega, hKr.1.trans h3, hKr.2.trans h4⟩), ok_bind,
      setSlabIf_ok (by
      rintro rfl
      refine ⟨by simp only [hnHp]; simp [hinfo, hpInfoOf, b2n]; omega, ?_, ?_⟩ <;>
        simp only [kcovGradVarFval, Arr2.map, diagArr, hstack, hnd]), ok_bind,
      setSlabIf_ok (by
      rintro rfl
      refine ⟨by simp only [hnHp]; simp [hinfo, hpInfoOf, b2n], ?_, ?_⟩ <;>
        simp only [kcovGradVarFgrad, Arr2.map, diagArr, hstack, hnd])]
    rfl
  refine ⟨_, key, by rw [hpSlots_length]; rfl, rfl, rfl, ?_⟩
  intro p s hs i j
  have hpos := (slotPos_iff lo g.dim true k vb f gr s p).mpr hs
  clear key hT hA
  rw [← hinfo] at hpos
  dsimp only
  have i1 : info.idxVarK = if vb then g.dim + b2n k else 0 := by simp [hinfo, hpInfoOf, b2n]
  have i2 : info.idxVarFval = if f then g.dim + b2n k + b2n vb else 0 := by simp [hinfo, hpInfoOf, b2n]
  have i3 : info.idxVarFgrad = if gr then g.dim + b2n k + b2n vb + b2n f else 0 := by simp [hinfo, hpInfoOf, b2n]
  have i0 : info.idxKernel = if k then g.dim else 0 := by simp [hinfo, hpInfoOf, b2n]
  have b0 : info.hasKernel = k := rfl
  have b1 : info.hasVarK = vb := rfl
  have b2 : info.hasVarFval = f := rfl
  have b3 : info.hasVarFgrad = gr := rfl
  have bt : info.hasTheta = true := rfl
  cases s with
  | theta d =>
    simp only [slotPos, bt, if_true, show info.idxTheta = List.range g.dim from by simp [hinfo, hpInfoOf]] at hpos
    obtain ⟨rfl, hd⟩ := range_getElem?.mp hpos
    rw [if_neg, if_neg, if_neg, if_neg, if_pos hd]
    · omega
    · rintro ⟨rfl, h⟩; rw [i1] at h; simp at h; omega
    · rintro ⟨rfl, h⟩; rw [i2] at h; simp at h; omega
    · rintro ⟨rfl, h⟩; rw [i3] at h; simp at h; omega
  | kernel =>
    have hk : k = true := by by_contra h; simp [slotPos, b0, h] at hpos
    simp only [slotPos, b0, hk, if_true, i0, Option.some.injEq] at hpos
    subst hpos
    rw [if_neg, if_neg, if_neg, if_pos ⟨hk, rfl⟩]
    · rintro ⟨rfl, h⟩; rw [i1] at h; simp [b2n, hk] at h
    · rintro ⟨rfl, h⟩; rw [i2] at h; simp [b2n, hk] at h; omega
    · rintro ⟨rfl, h⟩; rw [i3] at h; simp [b2n, hk] at h; omega
  | varK =>
    have hk : vb = true := by by_contra h; simp [slotPos, b1, h] at hpos
    simp only [slotPos, b1, hk, if_true, Option.some.injEq] at hpos
    rw [if_neg, if_neg, if_pos ⟨hk, hpos.symm⟩]
    · rintro ⟨rfl, h⟩; rw [i2] at h; rw [i1] at hpos; simp [b2n, hk] at h hpos; omega
    · rintro ⟨rfl, h⟩; rw [i3] at h; rw [i1] at hpos; simp [b2n, hk] at h hpos; omega
  | varFval =>
    have hk : f = true := by by_contra h; simp [slotPos, b2, h] at hpos
    simp only [slotPos, b2, hk, if_true, Option.some.injEq] at hpos
    rw [if_neg, if_pos ⟨hk, hpos.symm⟩]
    rintro ⟨rfl, h⟩; rw [i3] at h; rw [i2] at hpos; simp [b2n, hk] at h hpos; omega
  | varFgrad =>
    have hk : gr = true := by by_contra h; simp [slotPos, b3, h] at hpos
    simp only [slotPos, b3, hk, if_true, Option.some.injEq] at hpos
    rw [if_pos ⟨hk, hpos.symm⟩]

/-- The slab that belongs to a slot, without noise. -/
def freeSlab (g : Gp) (eta : ℝ) (Gt Ga : Arr3) (pv : Arr1) (gp : Arr2) : Slot → ℕ → ℕ → ℝ
  | .theta d => fun i j => Gt.get d i j +
      if g.o.precon = true ∧ g.nEval ≤ i ∧ i = j then 2 * eta * pv.get i * gp.get i d else 0
  | .kernel => fun i j => Ga.get 0 i j
  | _ => fun _ _ => 0

theorem addPreconTerm_ok {g : Gp} (hg : GpOk g) {th : Arr1} {pv pi : Arr1} {gp : Arr2} (hn : pv.n = g.nData)
    (hpc : calcKernPreconVec g.kernel g.nEval g.nGrad th = .ok (pv, pi, gp)) (eta : ℝ) (A : Arr3) (hd : g.dim ≤ A.d)
    (hr : A.r = g.nData) (hc : A.c = g.nData) :
    ∃ B, addPreconTerm g (List.range g.dim) th eta A = .ok B ∧ B.d = A.d ∧ B.r = g.nData ∧ B.c = g.nData ∧
      ∀ d i j, i < g.nData → j < g.nData → B.get d i j = A.get d i j +
        if d < g.dim ∧ g.nEval ≤ i ∧ i = j then 2 * eta * pv.get i * gp.get i d else 0 := by
  have hnd := hg.nData
  have hle : g.nEval ≤ g.nData := by omega
  unfold addPreconTerm
  rw [hpc]
  simp only [ok_bind]
  obtain ⟨B, hB, hP⟩ := forRange_inv (fun m (B : Arr3) => B.d = A.d ∧ B.r = g.nData ∧ B.c = g.nData ∧
      ∀ d i j, i < g.nData → j < g.nData → B.get d i j = A.get d i j +
        if d < m ∧ g.nEval ≤ i ∧ i = j then 2 * eta * pv.get i * gp.get i d else 0) (Nat.zero_le g.dim) (init := A)
      (body := fun i A => do
        let k ← match (List.range g.dim)[i]? with
          | some k => pure k
          | none => .error .index
        A.addSlice k g.nEval A.r g.nEval A.c
          (diagArr ⟨pv.n - g.nEval, fun q => 2 * eta * pv.get (g.nEval + q) * gp.get (g.nEval + q) i⟩))
      ⟨rfl, hr, hc, by intro d i j _ _; simp⟩ (by
    rintro m B - hm ⟨b1, b2, b3, b4⟩
    have e1 : (List.range g.dim)[m]? = some m := range_getElem?.mpr ⟨rfl, hm⟩
    rw [e1]
    simp only [pure_eq_ok, ok_bind]
    unfold Arr3.addSlice
    rw [Arr3.modSlice_ok (by omega) (by simp only [diagArr]; omega) le_rfl (by simp only [diagArr]; omega) le_rfl]
    refine ⟨_, rfl, b1, b2, b3, ?_⟩
    intro d i j hi hj
    rw [Arr3.upd_get, b4 d i j hi hj]
    by_cases hdm : d = m
    · subst hdm
      have h0 : ¬ (d < d ∧ g.nEval ≤ i ∧ i = j) := by omega
      rw [if_neg h0, add_zero]
      by_cases hi0 : g.nEval ≤ i
      · by_cases hij : i = j
        · subst hij
          rw [if_pos (by omega), if_pos (by omega)]
          simp only [diagArr, if_true]
          rw [Nat.add_sub_cancel' hi0]
        · rw [if_neg (by omega : ¬ (d < d + 1 ∧ g.nEval ≤ i ∧ i = j))]
          by_cases hj0 : g.nEval ≤ j
          · rw [if_pos (by omega)]
            simp only [diagArr]
            rw [if_neg (by omega)]
          · rw [if_neg (by omega), add_zero]
      · rw [if_neg (by omega), if_neg (by omega), add_zero]
    · rw [if_neg (by omega)]
      have : (d < m ∧ g.nEval ≤ i ∧ i = j) ↔ (d < m + 1 ∧ g.nEval ≤ i ∧ i = j) := by omega
      simp only [this])
  exact ⟨B, hB, hP⟩

theorem calcKernGradHp_ok {g : Gp} (hg : GpOk g) (lo : LogOpts) (k : Bool) {hp : HpVals} {R : Arr3} (etaK : Option ℝ)
    {th : Arr1} (ht : hp.theta = some th) {Gt Ga : Arr3} (h1 : calcKernGradTheta g R th hp.kernel = .ok Gt)
    (h1d : Gt.d = g.dim) (h1r : Gt.r = g.nData) (h1c : Gt.c = g.nData)
    (h2 : k = true → calcKernGradAlpha g R th hp.kernel = .ok Ga ∧ Ga.d = 1 ∧ Ga.r = g.nData ∧ Ga.c = g.nData)
    {pv pi : Arr1} {gp : Arr2} (hn : pv.n = g.nData) (hpc : calcKernPreconVec g.kernel g.nEval g.nGrad th = .ok (pv, pi, gp)) :
    ∃ A, calcKernGradHp g (hpInfoOf lo g.dim true k false false false) hp R etaK = .ok A ∧
      A.d = (hpSlots g.dim true k false false false).length ∧ A.r = g.nData ∧ A.c = g.nData ∧
      ∀ p s, (hpSlots g.dim true k false false false)[p]? = some s → ∀ i < g.nData, ∀ j < g.nData,
        A.get p i j = freeSlab g (etaK.getD g.o.etaK) Gt Ga pv gp s i j := by
  have hnd := hg.nData
  set info := hpInfoOf lo g.dim true k false false false with hinfo
  have hnHp : info.nHp = g.dim + b2n k := by simp [hinfo, hpInfoOf, b2n]
  have hT : ∃ B, kernGradHpTheta g info hp R etaK (Arr3.zeros info.nHp g.nData g.nData) = .ok B ∧ B.d = info.nHp ∧
      B.r = g.nData ∧ B.c = g.nData ∧ ∀ d < g.dim, ∀ i < g.nData, ∀ j < g.nData,
        B.get d i j = freeSlab g (etaK.getD g.o.etaK) Gt Ga pv gp (.theta d) i j := by
    unfold kernGradHpTheta
    rw [if_pos (by rfl), show info.idxTheta = List.range g.dim from by simp [hinfo, hpInfoOf], ht]
    simp only [need, ok_bind, h1]
    rw [setSlabs_range h1d h1r h1c (by simp only [Arr3.zeros]; omega)]
    simp only [ok_bind]
    by_cases hpre : g.o.precon = true
    · rw [if_pos hpre]
      obtain ⟨B, hB, b1, b2, b3, b4⟩ := addPreconTerm_ok hg hn hpc (etaK.getD g.o.etaK)
        ⟨info.nHp, g.nData, g.nData, fun d p q => if d < g.dim then Gt.get d p q else 0⟩ (by simp only; omega) rfl rfl
      refine ⟨B, hB, b1, b2, b3, ?_⟩
      intro d hd i hi j hj
      rw [b4 d i j hi hj]
      simp only [hd, if_true, freeSlab, hpre, true_and]
    · rw [if_neg hpre]
      refine ⟨_, rfl, rfl, rfl, rfl, ?_⟩
      intro d hd i _ j _
      simp [freeSlab, hpre, hd]
  obtain ⟨B, hB, b1, b2, b3, b4⟩ := hT
  have hA : kernGradHpKernel g info hp R B = .ok ⟨info.nHp, g.nData, g.nData, fun d p q =>
      if k = true ∧ d = g.dim then freeSlab g (etaK.getD g.o.etaK) Gt Ga pv gp .kernel p q else B.get d p q⟩ := by
    unfold kernGradHpKernel
    cases hk : k with
    | false =>
      rw [if_neg (by simp [hinfo, hpInfoOf, hk])]
      simp only [Bool.false_eq_true, false_and, if_false]
      obtain ⟨Bd, Br, Bc, Bget⟩ := B
      simp only at b1 b2 b3
      rw [b1, b2, b3]
    | true =>
      obtain ⟨e1, e2, e3, e4⟩ := h2 hk
      rw [if_pos (by simp [hinfo, hpInfoOf, hk]), show info.idxKernel = g.dim from by simp [hinfo, hpInfoOf, hk, b2n], ht]
      simp only [need, ok_bind, e1]
      rw [setSlabs_one e2 (by rw [e3, b2]) (by rw [e4, b3]) (by rw [b1, hnHp, hk]; simp [b2n])]
      simp only [b1, b2, b3, freeSlab, true_and]
  have key : calcKernGradHp g info hp R etaK = .ok ⟨info.nHp, g.nData, g.nData, fun d p q =>
      if k = true ∧ d = g.dim then freeSlab g (etaK.getD g.o.etaK) Gt Ga pv gp .kernel p q else B.get d p q⟩ := by
    unfold calcKernGradHp
    rw [pyAssert_true (by rfl), ok_bind, pyAssert_true (by rfl), ok_bind, pyAssert_true (by rfl), ok_bind, hB, ok_bind, hA]
  refine ⟨_, key, by rw [hpSlots_length]; rfl, rfl, rfl, ?_⟩
  intro p s hs i hi j hj
  have hpos := (slotPos_iff lo g.dim true k false false false s p).mpr hs
  rw [← hinfo] at hpos
  cases s with
  | theta d =>
    simp only [slotPos, show info.hasTheta = true from rfl, if_true, show info.idxTheta = List.range g.dim from by simp [hinfo, hpInfoOf]] at hpos
    obtain ⟨rfl, hd⟩ := range_getElem?.mp hpos
    dsimp only
    rw [if_neg (by omega), b4 d hd i hi j hj]
  | kernel =>
    have hk : k = true := by by_contra h; simp [slotPos, show info.hasKernel = k from rfl, h] at hpos
    simp only [slotPos, show info.hasKernel = k from rfl, hk, if_true, show info.idxKernel = g.dim from by simp [hinfo, hpInfoOf, hk, b2n],
      Option.some.injEq] at hpos
    subst hpos
    dsimp only
    rw [if_pos ⟨hk, rfl⟩]
  | varK => simp [slotPos, hinfo, hpInfoOf] at hpos
  | varFval => simp [slotPos, hinfo, hpInfoOf] at hpos
  | varFgrad => simp [slotPos, hinfo, hpInfoOf] at hpos

end GP
