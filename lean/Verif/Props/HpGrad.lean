import Verif.Proofs.HpGradCore
import Verif.Spec.CovDeriv
import Verif.Props.Cond

/-! C31: the hyperparameter gradient of the covariance matrix. -/

open Np GP Spec Matrix MD

noncomputable section

namespace Props

theorem toMat_ofMat {n m : ℕ} (M : Mat n m) : toMat n m (ofMat M) = M := by
  ext i j; simp [toMat, ofMat]

theorem ofMat_get {n m : ℕ} (M : Mat n m) (i : Fin n) (j : Fin m) : (ofMat M).get i j = M i j := by simp [ofMat]

/-- The covariance matrix along a length scale, the kernel parameter or the variance (the noise does not change). -/
theorem covDeriv_kern {g : Gp} (hg : GpOk g) {hp : HpVals} (hh : HpAdm g hp) (hk : g.useGrad = true ∨ g.knownFval = true)
    (hprec : g.o.precon = true → g.useGrad = true) (hne : 0 < g.nEval) (hc : g.o.etaConst = true) {ok : Bool}
    {R : Arr3} (hR : calcRtensor g.x g.x = .ok R) {varKin : Option ℝ} {s : Slot} (hs : s ∈ gpSlots g ok) {y : ℝ} (hy : 0 < y)
    (hget : getSlot hp s = some y) {v : ℝ → ℝ} {v' : ℝ} (hv : ∀ t, 0 < t → 0 < v t)
    (hvk : ∀ t, 0 < t → varKin.or (setSlot hp s t).varK = some (v t)) (hvd : HasDerivAt v v' y)
    {A : ℝ → Arr2} {A' : ℕ → ℕ → ℝ}
    (hA : ∀ t, 0 < t → ∃ th, (setSlot hp s t).theta = some th ∧ calcKern g R th (setSlot hp s t).kernel = .ok (A t))
    (hAd : ∀ i < g.nData, ∀ j < g.nData, HasDerivAt (fun t => (A t).get i j) (A' i j) y) {N' : Vec g.nData}
    (hN : ∀ i, HasDerivAt (fun t => noiseV g (setSlot hp s t) i) (N' i) y) :
    CovDeriv g R varKin hp s (of fun i j => v' * (A y).get i j + v y * A' i j + if i = j then N' i + g.o.etaK * (if g.o.precon then
      v' * (A y).get i i + v y * A' i i + N' i else v') else 0) := by
  refine ⟨y, hy, hget, fun t => covMat g.o (v t) (toMat g.nData g.nData (A t)) (noiseV g (setSlot hp s t)), ?_, ?_⟩
  · intro t ht cf cc
    obtain ⟨th, e1, e2⟩ := hA t ht
    obtain ⟨out, h1, -, h2⟩ := kcov_at hg (GP.HpAdm.setSlot hh hs ht) hk hprec hne hc hR cf cc varKin (hv t ht) (hvk t ht) e1 e2
    exact ⟨out, h1, h2⟩
  · have hK : MDeriv (fun t => toMat g.nData g.nData (A t)) (of fun i j : Fin g.nData => A' i j) y :=
      fun i j => hAd i i.2 j j.2
    exact covMat_deriv g.o hvd hK hN

theorem fin_eq_iff {n : ℕ} {i j : Fin n} : (i = j) = ((i : ℕ) = (j : ℕ)) := propext Fin.ext_iff

/-- **C31**, noisy data. For a constant nugget, with or without preconditioning, slab `p` of the returned gradient is the
derivative of the covariance matrix with respect to the `p`-th optimised hyperparameter.
(Full statement: all kernels, all masks and also a varying nugget. `ThSupp` excludes the combinations for which the kernel's
own length-scale derivative is wrong or raises, see C06 and C08; for the varying nugget see `C31_varying_nugget_discrepancy`.) -/
theorem C31_covariance_gradient_partial {g : Gp} (hg : GpOk g) {hp : HpVals} (hh : HpAdm g hp)
    (hk : g.useGrad = true ∨ g.knownFval = true) (hprec : g.o.precon = true → g.useGrad = true) (hne : 0 < g.nEval)
    (hc : g.o.etaConst = true) (hsupp : ∀ th, hp.theta = some th → ThSupp g th) {v : ℝ} (hv : 0 < v) (hvk : hp.varK = some v)
    {lo : LogOpts} {ok : Bool} (hpos : ∀ s ∈ gpSlots g ok, ∃ y, getSlot hp s = some y ∧ 0 < y)
    {info : HpInfo} (hi : setupHpIdx g lo ok = .ok info) {R : Arr3} (hR : calcRtensor g.x g.x = .ok R)
    {cf cc : Bool} {out : CovOut g.nData} (hout : calcAllK g R hp none cf cc none false = .ok out) :
    ∃ A, calcKcovGradHp g info hp (ofMat out.Kern) R = .ok A ∧ A.d = (gpSlots g ok).length ∧ A.r = g.nData ∧ A.c = g.nData ∧
      ∀ p s, (gpSlots g ok)[p]? = some s → CovDeriv g R none hp s (slabMat A p) := by
  rw [setupHpIdx_ok] at hi
  cases hi
  obtain ⟨th, ht, hn, hθ⟩ := hh.theta
  obtain ⟨K, hK, hKr, hKc, -⟩ := calcKern_ok hg hh hR ht
  obtain ⟨out', ho', hkern, -⟩ := kcov_at hg hh hk hprec hne hc hR cf cc none hv hvk ht hK
  rw [hout] at ho'; cases ho'
  obtain ⟨Gt, hGt, hGr, hGc, hGd, hGder⟩ := kernTheta_ok hg hh hR ht (hsupp th ht)
  have hAl : ∃ Ga, (ok && kernelHasHp g.kernel) = true → calcKernGradAlpha g R th hp.kernel = .ok Ga ∧ Ga.d = 1 ∧ Ga.r = g.nData ∧
      Ga.c = g.nData ∧ ∃ α, hp.kernel = some α ∧ IsAlphaDeriv (fun a => calcKern g R th (some a)) α Ga := by
    by_cases h : (ok && kernelHasHp g.kernel) = true
    · have hr : g.kernel = .ratQuad := by
        revert h; cases g.kernel <;> simp [kernelHasHp, hpKernelDefault]
      obtain ⟨α, hα, he⟩ := hh.kernel hr
      obtain ⟨Ga, h1, h2, h3, h4⟩ := kernAlpha_ok hg hh hR ht hr he
      exact ⟨Ga, fun _ => ⟨h1, h4.1, h2, h3, α, he, h4⟩⟩
    · exact ⟨Gt, fun h' => absurd h' h⟩
  obtain ⟨Ga, hGa⟩ := hAl
  obtain ⟨A, hA, hAd, hAr, hAc, hAs⟩ := calcKcovGradHp_ok hg lo (ok && kernelHasHp g.kernel) g.noisy (!g.knownFval)
    (g.useGrad && !g.knownFgrad) (Kern := ofMat out.Kern) (R := R) hvk ht hGt hGd hGr hGc (Ga := Ga)
    (fun h => ⟨(hGa h).1, (hGa h).2.1, (hGa h).2.2.1, (hGa h).2.2.2.1⟩) rfl rfl
  refine ⟨A, hA, hAd, hAr, hAc, ?_⟩
  intro p s hps
  have hs : s ∈ gpSlots g ok := List.mem_of_getElem? hps
  obtain ⟨y, hy, hy0⟩ := hpos s hs
  have hslab : (slabMat A p : Mat g.nData g.nData) = of fun (i j : Fin g.nData) => noisySlab g v Gt Ga (ofMat out.Kern) s i j := by
    ext i j; exact hAs p s hps i j
  rw [hslab]
  have hm := mem_gpSlots hs
  have hKo : ∀ i j : Fin g.nData, (ofMat out.Kern).get i j = K.get i j := by
    intro i j; rw [ofMat_get, hkern]; rfl
  cases s with
  | theta d =>
    have hd := hm.1 d rfl
    obtain ⟨F, hF, -, hFd⟩ := hGder d hd
    have hyd : y = th.get d := by
      simp only [getSlot, ht, hn, hd, if_true, Option.some.injEq] at hy; exact hy.symm
    subst hyd
    have := covDeriv_kern hg hh hk hprec hne hc hR hs hy0 hy (v := fun _ => v) (v' := 0) (fun _ _ => hv) (varKin := none)
      (fun _ _ => hvk) (hasDerivAt_const _ _) (A := F) (A' := Gt.get d)
      (fun t _ => ⟨setTheta th d t, by simp [setSlot, ht], hF t⟩)
      (fun i hi j hj => hFd i (by rw [hGr]; exact hi) j (by rw [hGc]; exact hj)) (N' := 0)
      (fun i => hasDerivAt_const _ (noiseV g hp i))
    convert this using 1
    ext i j
    simp only [of_apply, noisySlab, zero_mul, zero_add, Pi.zero_apply, add_zero, fin_eq_iff]
    cases g.o.precon <;> by_cases hij : (i : ℕ) = j <;> simp [hij]
    ring
  | kernel =>
    obtain ⟨hok, hr⟩ := hm.2.1 rfl
    have hb : (ok && kernelHasHp g.kernel) = true := by simp [hok, hr, kernelHasHp, hpKernelDefault]
    obtain ⟨-, -, hgr, hgc, α, hα, -, F, hF, -, hFd⟩ := hGa hb
    have hya : y = α := by simp only [getSlot, hα, Option.some.injEq] at hy; exact hy.symm
    subst hya
    have := covDeriv_kern hg hh hk hprec hne hc hR hs hy0 hy (v := fun _ => v) (v' := 0) (fun _ _ => hv) (varKin := none)
      (fun _ _ => hvk) (hasDerivAt_const _ _) (A := F) (A' := Ga.get 0)
      (fun t _ => ⟨th, ht, hF t⟩)
      (fun i hi j hj => hFd i (by rw [hgr]; exact hi) j (by rw [hgc]; exact hj)) (N' := 0)
      (fun i => hasDerivAt_const _ (noiseV g hp i))
    convert this using 1
    ext i j
    simp only [of_apply, noisySlab, zero_mul, zero_add, Pi.zero_apply, add_zero, fin_eq_iff]
    cases g.o.precon <;> by_cases hij : (i : ℕ) = j <;> simp [hij]
    ring
  | varK =>
    have hyv : y = v := by simp only [getSlot, hvk, Option.some.injEq] at hy; exact hy.symm
    subst hyv
    have := covDeriv_kern hg hh hk hprec hne hc hR hs hy0 hy (v := fun t => t) (v' := 1) (fun _ h => h) (varKin := none)
      (fun _ _ => rfl) (hasDerivAt_id' _) (A := fun _ => K) (A' := fun _ _ => 0)
      (fun t _ => ⟨th, ht, hK⟩) (fun i _ j _ => hasDerivAt_const _ _) (N' := 0) (fun i => hasDerivAt_const _ (noiseV g hp i))
    convert this using 1
    ext i j
    simp only [of_apply, noisySlab, kcovGradVarK, one_mul, mul_zero, Pi.zero_apply, add_zero, zero_add, fin_eq_iff, diagDiag]
    cases g.o.precon
    · simp only [Bool.false_eq_true, if_false, hKo]
      by_cases hij : (i : ℕ) = j <;> simp [hij]
    · simp only [if_true, hKo]
      by_cases hij : i = j
      · subst hij; simp
      · have : ¬ (i : ℕ) = j := fun h => hij (Fin.ext h)
        simp [this]
  | varFval =>
    have hkf := hm.2.2.2.1 rfl
    have hz : g.fvalZero = false := by
      by_contra h
      have := hg.fzero (by simpa using h)
      rw [hkf] at this; cases this
    have := covDeriv_kern hg hh hk hprec hne hc hR hs hy0 hy (v := fun t => v) (v' := 0) (fun _ _ => hv) (varKin := none)
      (fun _ _ => hvk) (hasDerivAt_const _ _) (A := fun _ => K) (A' := fun _ _ => 0)
      (fun t _ => ⟨th, ht, hK⟩) (fun i _ j _ => hasDerivAt_const _ _) (N' := fun i => if (i : ℕ) < g.nEval then 1 else 0) (fun i => by
        by_cases h : (i : ℕ) < g.nEval
        · simp only [noiseV, h, if_true, valVar, hz, Bool.false_and, Bool.false_eq_true, if_false, hkf, setSlot, Option.getD_some]
          exact hasDerivAt_id' _
        · simp only [noiseV, h, if_false]
          exact hasDerivAt_const _ (gradVar g hp _ _))
    convert this using 1
    ext i j
    simp only [of_apply, noisySlab, kcovGradVarFval, Arr2.map, diagArr, hstack, noiseScalar, zero_mul, mul_zero, add_zero, zero_add, fin_eq_iff]
    by_cases hij : i = j
    · subst hij
      by_cases h : (i : ℕ) < g.nEval <;> cases g.o.precon <;> simp [h]
    · have : ¬ (i : ℕ) = j := fun h => hij (Fin.ext h)
      simp [this]
  | varFgrad =>
    obtain ⟨hu, hkg⟩ := hm.2.2.2.2 rfl
    have hz : g.fgradZero = false := by
      by_contra h
      have := hg.gzero hu (by simpa using h)
      rw [hkg] at this; cases this
    have := covDeriv_kern hg hh hk hprec hne hc hR hs hy0 hy (v := fun t => v) (v' := 0) (fun _ _ => hv) (varKin := none)
      (fun _ _ => hvk) (hasDerivAt_const _ _) (A := fun _ => K) (A' := fun _ _ => 0)
      (fun t _ => ⟨th, ht, hK⟩) (fun i _ j _ => hasDerivAt_const _ _) (N' := fun i => if (i : ℕ) < g.nEval then 0 else 1) (fun i => by
        by_cases h : (i : ℕ) < g.nEval
        · simp only [noiseV, h, if_true]
          exact hasDerivAt_const _ (valVar g hp _)
        · simp only [noiseV, h, if_false, gradVar, hz, Bool.and_false, Bool.false_eq_true, hkg, setSlot, Option.getD_some]
          exact hasDerivAt_id' _)
    convert this using 1
    ext i j
    simp only [of_apply, noisySlab, kcovGradVarFgrad, Arr2.map, diagArr, hstack, noiseScalar, zero_mul, mul_zero, add_zero, zero_add, fin_eq_iff]
    by_cases hij : i = j
    · subst hij
      by_cases h : (i : ℕ) < g.nEval <;> cases g.o.precon <;> simp [h]
    · have : ¬ (i : ℕ) = j := fun h => hij (Fin.ext h)
      simp [this]

/-- The diagonal of the gradient-enhanced kernel matrix, for positive hyperparameters. -/
theorem calcKern_diag {g : Gp} (hg : GpOk g) {hp : HpVals} (hh : HpAdm g hp) (hu : g.useGrad = true) {R : Arr3}
    (hR : calcRtensor g.x g.x = .ok R) {th : Arr1} (ht : hp.theta = some th) {A : Arr2} (hA : calcKern g R th hp.kernel = .ok A) :
    (∀ i < g.nEval, A.get i i = 1) ∧ ∀ j < g.dim, ∀ a < g.nGrad, A.get (g.nEval + j * g.nGrad + a) (g.nEval + j * g.nGrad + a) =
      theta2gamma g.kernel (th.get j) ^ 2 := by
  obtain ⟨th', ht', hn, hpos⟩ := hh.theta
  rw [ht] at ht'; cases ht'
  have hm : maskOk g.bvec g.x.r := by rw [hg.x_r]; exact hg.mask
  have hng : g.nGrad = gN g.bvec g.nEval := by rw [hg.nGrad]; simp [hu]
  obtain ⟨R', A', hR', hA', -, hd1, hd2⟩ := C12_symmetric_with_gamma_diagonal g.kernel g.x th (by rw [hg.x_c, hn])
    (fun d hd => (hpos d (by rw [← hg.x_c]; exact hd)).le) hp.kernel hh.kernel g.bvec hm
  rw [hR] at hR'; cases hR'
  unfold calcKern at hA
  rw [if_pos hu, hA'] at hA; cases hA
  rw [hg.x_r] at hd1 hd2
  rw [hg.x_c, ← hng] at hd2
  exact ⟨hd1, hd2⟩

/-- **C31**, noise-free data (the variance is then a closed form and the kernel matrix itself is factorised). -/
theorem C31_kernel_gradient_partial {g : Gp} (hg : GpOk g) {hp : HpVals} (hh : HpAdm g hp)
    (hnoise : g.noisy = false) (hprec : g.o.precon = true → g.useGrad = true) (hne : 0 < g.nEval)
    (hc : g.o.etaConst = true) (hsupp : ∀ th, hp.theta = some th → ThSupp g th)
    {lo : LogOpts} {ok : Bool} {info : HpInfo} (hi : setupHpIdx g lo ok = .ok info) {R : Arr3} (hR : calcRtensor g.x g.x = .ok R) :
    ∃ A, calcKernGradHp g info hp R none = .ok A ∧ A.d = (gpSlots g ok).length ∧ A.r = g.nData ∧ A.c = g.nData ∧
      ∀ p s, (gpSlots g ok)[p]? = some s → CovDeriv g R (some 1) hp s (slabMat A p) := by
  have hz : g.fvalZero = true ∧ g.fgradZero = true := by
    have := hg.noisy; rw [hnoise] at this; simpa using this.symm
  have hkf : g.knownFval = true := hg.fzero hz.1
  have hkg : (g.useGrad && !g.knownFgrad) = false := by
    cases hu : g.useGrad with
    | false => rfl
    | true => simp [hg.gzero hu hz.2]
  have hslots : gpSlots g ok = hpSlots g.dim true (ok && kernelHasHp g.kernel) false false false := by
    simp only [gpSlots, hnoise, hkf, hkg, Bool.not_true]
  rw [setupHpIdx_ok, hnoise, hkf, hkg] at hi
  simp only [Bool.not_true, Except.ok.injEq] at hi
  subst hi
  obtain ⟨th, ht, hn, hθ⟩ := hh.theta
  obtain ⟨Gt, hGt, hGr, hGc, hGd, hGder⟩ := kernTheta_ok hg hh hR ht (hsupp th ht)
  have hAl : ∃ Ga, (ok && kernelHasHp g.kernel) = true → calcKernGradAlpha g R th hp.kernel = .ok Ga ∧ Ga.d = 1 ∧ Ga.r = g.nData ∧
      Ga.c = g.nData ∧ ∃ α, hp.kernel = some α ∧ IsAlphaDeriv (fun a => calcKern g R th (some a)) α Ga := by
    by_cases h : (ok && kernelHasHp g.kernel) = true
    · have hr : g.kernel = .ratQuad := by
        revert h; cases g.kernel <;> simp [kernelHasHp, hpKernelDefault]
      obtain ⟨α, hα, he⟩ := hh.kernel hr
      obtain ⟨Ga, h1, h2, h3, h4⟩ := kernAlpha_ok hg hh hR ht hr he
      exact ⟨Ga, fun _ => ⟨h1, h4.1, h2, h3, α, he, h4⟩⟩
    · exact ⟨Gt, fun h' => absurd h' h⟩
  obtain ⟨Ga, hGa⟩ := hAl
  obtain ⟨pv, pi, gp, hpc, hpn, -, -, -, hpv1, hpv2, -, hpd⟩ := C15_precon_vector g.kernel g.nEval g.nGrad th (by rw [hn]; exact hθ)
  rw [hn] at hpn hpv2 hpd
  rw [← hg.nData] at hpn
  obtain ⟨A, hA, hAd, hAr, hAc, hAs⟩ := calcKernGradHp_ok hg lo (ok && kernelHasHp g.kernel) (R := R) none ht hGt hGd hGr hGc (Ga := Ga)
    (fun h => ⟨(hGa h).1, (hGa h).2.1, (hGa h).2.2.1, (hGa h).2.2.2.1⟩) hpn hpc
  refine ⟨A, hA, by rw [hAd, hslots], hAr, hAc, ?_⟩
  intro p s hps
  have hs : s ∈ gpSlots g ok := List.mem_of_getElem? hps
  have hslab : (slabMat A p : Mat g.nData g.nData) = of fun (i j : Fin g.nData) => freeSlab g g.o.etaK Gt Ga pv gp s i j := by
    ext i j; exact hAs p s (hslots ▸ hps) i i.2 j j.2
  rw [hslab]
  have hm := mem_gpSlots hs
  cases s with
  | theta d =>
    have hd := hm.1 d rfl
    obtain ⟨F, hF, -, hFd⟩ := hGder d hd
    have hget : getSlot hp (.theta d) = some (th.get d) := by simp [getSlot, ht, hn, hd]
    have := covDeriv_kern hg hh (.inr hkf) hprec hne hc hR hs (hθ d hd) hget (v := fun _ => 1) (v' := 0) (fun _ _ => one_pos) (varKin := some 1)
      (fun _ _ => rfl) (hasDerivAt_const _ _) (A := F) (A' := Gt.get d)
      (fun t _ => ⟨setTheta th d t, by simp [setSlot, ht], hF t⟩)
      (fun i hi j hj => hFd i (by rw [hGr]; exact hi) j (by rw [hGc]; exact hj)) (N' := 0)
      (fun i => hasDerivAt_const _ (noiseV g hp i))
    convert this using 1
    ext i j
    simp only [of_apply, freeSlab, zero_mul, zero_add, one_mul, Pi.zero_apply, add_zero, fin_eq_iff]
    congr 1
    by_cases hpre : g.o.precon = true
    swap
    · simp [hpre]
    by_cases hij : (i : ℕ) = j
    swap
    · simp [hij]
    simp only [hpre, true_and, if_true, hij]
    have hu := hprec hpre
    have hder : ∀ q : Fin g.nData, HasDerivAt (fun t => (F t).get q q) (Gt.get d q q) (th.get d) :=
      fun q => hFd q (by rw [hGr]; exact q.2) q (by rw [hGc]; exact q.2)
    have hdiag : ∀ t, 0 < t → (∀ i < g.nEval, (F t).get i i = 1) ∧ ∀ j < g.dim, ∀ a < g.nGrad,
        (F t).get (g.nEval + j * g.nGrad + a) (g.nEval + j * g.nGrad + a) = theta2gamma g.kernel ((setTheta th d t).get j) ^ 2 := by
      intro t ht0
      exact calcKern_diag hg (GP.HpAdm.setSlot hh hs ht0) hu hR (by simp [setSlot, ht]) (hF t)
    have hev : ∀ᶠ t in nhds (th.get d), 0 < t := lt_mem_nhds (hθ d hd)
    have hlt : (j : ℕ) < g.nEval + g.nGrad * g.dim := by rw [← hg.nData]; exact j.2
    rcases row_cases hlt with h1 | ⟨c, a, hcd, ha, he⟩
    · have h0 : Gt.get d j j = 0 := by
        refine (hder j).unique ((hasDerivAt_const _ (1 : ℝ)).congr_of_eventuallyEq ?_)
        filter_upwards [hev] with t ht0 using (hdiag t ht0).1 j h1
      rw [if_neg (by omega), h0, mul_zero]
    · rw [if_pos ⟨by omega, trivial⟩]
      obtain ⟨P, hP, hPd⟩ := hpd d hd
      have hjn : (j : ℕ) < pv.n := by rw [hpn]; exact j.2
      have hPt : ∀ t, 0 < t → (P t).get j = theta2gamma g.kernel ((setTheta th d t).get c) := by
        intro t ht0
        obtain ⟨rest, hr⟩ := hP t
        obtain ⟨p', pi', G', e1, -, -, -, -, -, e2, -⟩ := C15_precon_vector g.kernel g.nEval g.nGrad (setTheta th d t) (by
          intro q hq
          by_cases hqd : q = d
          · subst hqd; simpa [setTheta] using ht0
          · simpa [setTheta, hqd] using hθ q (by rw [← hn]; exact hq))
        rw [hr] at e1; cases e1
        rw [he]; exact e2 c (by rw [setTheta_n, hn]; exact hcd) a ha
      have h0 : Gt.get d j j = 2 * pv.get j * gp.get j d := by
        refine (hder j).unique ?_
        have h2 := ((hPd j hjn).fun_pow 2).congr_of_eventuallyEq (f₁ := fun t => (F t).get j j) (by
          filter_upwards [hev] with t ht0
          rw [hPt t ht0, he]
          exact (hdiag t ht0).2 c hcd a ha)
        refine h2.congr_deriv ?_
        have : (P (th.get d)).get j = pv.get j := by
          rw [hPt _ (hθ d hd), he, hpv2 c hcd a ha]
          simp [setTheta]
        rw [this]; norm_num
      rw [h0]; ring
  | kernel =>
    obtain ⟨hok, hr⟩ := hm.2.1 rfl
    have hb : (ok && kernelHasHp g.kernel) = true := by simp [hok, hr, kernelHasHp, hpKernelDefault]
    obtain ⟨-, -, hgr, hgc, α, hα, -, F, hF, -, hFd⟩ := hGa hb
    rw [hgr, hgc] at hFd
    obtain ⟨α', hα0, hα'⟩ := hh.kernel hr
    rw [hα] at hα'; cases hα'
    have := covDeriv_kern hg hh (.inr hkf) hprec hne hc hR hs hα0 (show getSlot hp .kernel = some α from hα) (v := fun _ => 1) (v' := 0)
      (fun _ _ => one_pos) (varKin := some 1)
      (fun _ _ => rfl) (hasDerivAt_const _ _) (A := F) (A' := Ga.get 0)
      (fun t _ => ⟨th, ht, hF t⟩) hFd (N' := 0)
      (fun i => hasDerivAt_const _ (noiseV g hp i))
    convert this using 1
    ext i j
    simp only [of_apply, freeSlab, zero_mul, zero_add, one_mul, Pi.zero_apply, add_zero, fin_eq_iff]
    by_cases hpre : g.o.precon = true
    swap
    · simp [hpre]
    by_cases hij : (i : ℕ) = j
    swap
    · simp [hij]
    simp only [hpre, if_true, hij]
    have hu := hprec hpre
    have hev : ∀ᶠ t in nhds α, 0 < t := lt_mem_nhds hα0
    have hdiag : ∀ t, 0 < t → (∀ i < g.nEval, (F t).get i i = 1) ∧ ∀ j < g.dim, ∀ a < g.nGrad,
        (F t).get (g.nEval + j * g.nGrad + a) (g.nEval + j * g.nGrad + a) = theta2gamma g.kernel (th.get j) ^ 2 := by
      intro t ht0
      exact calcKern_diag hg (GP.HpAdm.setSlot hh hs ht0) hu hR ht (hF t)
    have hlt : (j : ℕ) < g.nEval + g.nGrad * g.dim := by rw [← hg.nData]; exact j.2
    have h0 : Ga.get 0 j j = 0 := by
      rcases row_cases hlt with h1 | ⟨c, a, hcd, ha, he⟩
      · refine (hFd j j.2 j j.2).unique ((hasDerivAt_const _ (1 : ℝ)).congr_of_eventuallyEq ?_)
        filter_upwards [hev] with t ht0 using (hdiag t ht0).1 j h1
      · refine (hFd j j.2 j j.2).unique ((hasDerivAt_const _ (theta2gamma g.kernel (th.get c) ^ 2)).congr_of_eventuallyEq ?_)
        filter_upwards [hev] with t ht0
        rw [he]; exact (hdiag t ht0).2 c hcd a ha
    rw [h0, mul_zero, add_zero]
  | varK => exact absurd (hm.2.2.1 rfl) (by simp [hnoise])
  | varFval => exact absurd (hm.2.2.2.1 rfl) (by simp [hkf])
  | varFgrad => exact absurd (hm.2.2.2.2 rfl) (by rintro ⟨h1, h2⟩; simp [h1, h2] at hkg)

/-! ### The varying nugget -/

/-- Two points on a line, no gradients, no noise, squared-exponential kernel, nugget recomputed for every matrix
(`cond_eta_is_const = False`). -/
def exGpVary (c : ℝ) : Gp := { exGpFree with
  dim := 1
  kernel := .sqExp
  x := ⟨2, 1, fun p _ => p⟩
  o := { precon := false, etaConst := false, etaK := 0, condMaxTarget := c, condMax := c, condMaxAbs := c, fro := false } }

theorem exGpVary_ok (c : ℝ) : GpOk (exGpVary c) := by
  constructor
  all_goals first
    | rfl
    | exact fun _ => rfl
    | exact fun _ => ⟨_, rfl, rfl⟩
    | (intro l h; simp [exGpVary, exGpFree, exGp] at h; done)
    | (intro h; simp [exGpVary, exGpFree, exGp] at h; done)
    | (intro _ h; simp [exGpVary, exGpFree, exGp] at h; done)

theorem exHpVary_adm (c : ℝ) {t : ℝ} (ht : 0 < t) : HpAdm (exGpVary c) { theta := some ⟨1, fun _ => t⟩ } := by
  refine ⟨⟨_, rfl, rfl, fun _ _ => ht⟩, ?_, fun _ => rfl, ?_, ?_, ?_⟩
  all_goals intro h; simp [exGpVary, exGpFree, exGp] at h

/-- **C31** fails if the nugget varies with the hyperparameters (`cond_eta_is_const = False`, which `set_wellcond_mtd` selects
for 'rescale_eta_vary'): the returned gradient leaves out the derivative of the nugget. -/
theorem C31_varying_nugget_discrepancy {c t0 : ℝ} (hc : 1 < c) (ht0 : 0 < t0) (lo : LogOpts) (ok : Bool) :
    ∃ R info A, calcRtensor (exGpVary c).x (exGpVary c).x = .ok R ∧ setupHpIdx (exGpVary c) lo ok = .ok info ∧
      calcKernGradHp (exGpVary c) info { theta := some ⟨1, fun _ => t0⟩ } R none = .ok A ∧
      (gpSlots (exGpVary c) ok)[0]? = some (.theta 0) ∧
      ¬ CovDeriv (exGpVary c) R (some 1) { theta := some ⟨1, fun _ => t0⟩ } (.theta 0) (slabMat A 0) := by
  set g := exGpVary c with hgdef
  have hg : GpOk g := exGpVary_ok c
  have p0 : 0 < g.nData := Nat.two_pos
  set hp : HpVals := { theta := some ⟨1, fun _ => t0⟩ } with hhp
  have hh : HpAdm g hp := exHpVary_adm c ht0
  obtain ⟨R, hR, -⟩ := calcRtensor_ok (X := g.x) (Y := g.x) rfl
  have hkh : (ok && kernelHasHp g.kernel) = false := by
    rw [show g.kernel = .sqExp from rfl]; simp [kernelHasHp, hpKernelDefault]
  have hth : hp.theta = some ⟨1, fun _ => t0⟩ := rfl
  have hsupp : ThSupp g ⟨1, fun _ => t0⟩ := ⟨fun _ h => (by cases h), fun h => (by cases h)⟩
  obtain ⟨Gt, hGt, hGr, hGc, hGd, hGder⟩ := kernTheta_ok hg hh hR hth hsupp
  obtain ⟨pv, pi, gp, hpc, hpn, -⟩ := C15_precon_vector g.kernel g.nEval g.nGrad ⟨1, fun _ => t0⟩ (fun _ _ => ht0)
  obtain ⟨A, hA, hAd, hAr, hAc, hAs⟩ := calcKernGradHp_ok hg lo false (R := R) none hth hGt hGd hGr hGc (Ga := Gt) (by simp) hpn hpc
  refine ⟨R, _, A, hR, setupHpIdx_ok g lo ok, ?_, rfl, ?_⟩
  · rw [hkh]; exact hA
  rintro ⟨y, hy0, hy, C, hC, hCd⟩
  have hyt : y = t0 := by
    simp only [getSlot, hhp] at hy
    simpa using hy.symm
  subst hyt
  have hs0 : Slot.theta 0 ∈ gpSlots g ok := List.mem_of_getElem? (i := 0) rfl
  -- the kernel matrix
  have hcl : ∀ t, 0 < t → C t ⟨0, p0⟩ ⟨0, p0⟩ = 1 + (1 + Real.exp (-t)) / (c - 1) := by
    intro t ht
    have hadm := GP.HpAdm.setSlot hh hs0 ht
    have e1 : (setSlot hp (.theta 0) t).theta = some (setTheta ⟨1, fun _ => y⟩ 0 t) := rfl
    obtain ⟨K, hK, -⟩ := calcKern_ok hg hadm hR e1
    obtain ⟨N, out, -, hN, hout, hsp⟩ := calcAllK_ok' hg hadm (.inr rfl) (by intro h; cases h) Nat.two_pos hR true false (some 1) false
      one_pos ⟨⟨1, rfl, fun _ => rfl⟩, by simp⟩ e1 hK
    obtain ⟨out', h1, h2⟩ := hC t ht true false
    rw [hout] at h1; cases h1
    have hKe : ∀ i j : Fin g.nData, (toMat g.nData g.nData K) i j = Real.exp (-(t * ((i : ℕ) - (j : ℕ) : ℝ) ^ 2)) := by
      intro i j
      obtain ⟨R', K', hR', hK', -, -, hent⟩ := C05_base_entries g.kernel g.x g.x rfl (setTheta ⟨1, fun _ => y⟩ 0 t) rfl hp.kernel hadm.kernel
      rw [hR] at hR'; cases hR'
      unfold calcKern at hK
      rw [if_neg (show ¬ g.useGrad = true from Bool.false_ne_true)] at hK
      have hK2 : calcKernBase g.kernel R (setTheta ⟨1, fun _ => y⟩ 0 t) hp.kernel = .ok K := hK
      rw [hK'] at hK2; cases hK2
      show K.get i j = _
      rw [hent i i.2 j j.2]
      simp [kernOf, hgdef, exGpVary, kern, kSqExp, wdist2, setTheta]
    have hrow : ∀ i : Fin g.nData, ∑ j, |(toMat g.nData g.nData K) i j| = 1 + Real.exp (-t) := by
      intro i
      simp only [hKe, abs_of_pos (Real.exp_pos _)]
      show (∑ j : Fin 2, Real.exp (-(t * ((i : ℕ) - (j : ℕ) : ℝ) ^ 2))) = _
      rw [Fin.sum_univ_two]
      rcases i with ⟨i, hi⟩
      have hi2 : i < 2 := hi
      interval_cases i
      · simp
      · simp [add_comm]
    have heta : out.etaK = (1 + Real.exp (-t)) / (c - 1) := by
      rw [hsp.eta, if_neg (show ¬ g.o.etaConst = true from Bool.false_ne_true)]
      have : (fun i => ∑ j, |(if g.o.precon = true then corr (kwn 1 (toMat g.nData g.nData K) (toVec g.nData N)) else
          toMat g.nData g.nData K) i j|) = fun _ => 1 + Real.exp (-t) := by
        funext i; rw [if_neg (show ¬ g.o.precon = true from Bool.false_ne_true)]; exact hrow i
      rw [this]
      haveI : Nonempty (Fin g.nData) := ⟨⟨0, p0⟩⟩
      rw [ciSup_const]; rfl
    rw [← h2, hsp.cov, heta, if_neg (show ¬ g.o.precon = true from Bool.false_ne_true)]
    have hN0 : toVec g.nData N ⟨0, p0⟩ = 0 := by rw [NoiseSpec.eq hg hN]; rfl
    simp only [kwn, Matrix.smul_apply, Matrix.add_apply, diagonal_apply_eq, one_apply_eq, hN0, hKe, smul_eq_mul]
    simp
  have hCder := hCd ⟨0, p0⟩ ⟨0, p0⟩
  have hslab : (slabMat A 0 : Mat g.nData g.nData) ⟨0, p0⟩ ⟨0, p0⟩ = 0 := by
    have h1 := hAs 0 (.theta 0) rfl 0 p0 0 p0
    obtain ⟨F, hF, -, hFd⟩ := hGder 0 Nat.one_pos
    have h2 := hFd 0 (by rw [hGr]; exact p0) 0 (by rw [hGc]; exact p0)
    have h3 : Gt.get 0 0 0 = 0 := by
      refine h2.unique ((hasDerivAt_const _ (1 : ℝ)).congr_of_eventuallyEq ?_)
      filter_upwards [lt_mem_nhds hy0] with t ht
      obtain ⟨K, hK, -, -, -, -, -, hone⟩ := calcKern_ok hg (GP.HpAdm.setSlot hh hs0 ht) hR
        (show (setSlot hp (.theta 0) t).theta = some (setTheta ⟨1, fun _ => y⟩ 0 t) from rfl)
      have hFK : F t = K := Except.ok.inj ((hF t).symm.trans hK)
      rw [hFK]
      exact hone ⟨0, p0⟩ Nat.two_pos
    show A.get 0 0 0 = 0
    rw [h1]
    simp only [freeSlab, h3]
    rw [if_neg (by rintro ⟨h, -⟩; cases h), add_zero]
  rw [hslab] at hCder
  have hd2 : HasDerivAt (fun t : ℝ => 1 + (1 + Real.exp (-t)) / (c - 1)) (-Real.exp (-y) / (c - 1)) y := by
    have h1 : HasDerivAt (fun t : ℝ => Real.exp (-t)) (Real.exp (-y) * -1) y := (hasDerivAt_id' y).fun_neg.exp
    refine (((h1.const_add 1).div_const (c - 1)).const_add 1).congr_deriv (by ring)
  have := (hd2.congr_of_eventuallyEq (f₁ := fun t => C t ⟨0, p0⟩ ⟨0, p0⟩) (by
    filter_upwards [lt_mem_nhds hy0] with t ht using hcl t ht)).unique hCder
  have hpos : 0 < Real.exp (-y) / (c - 1) := div_pos (Real.exp_pos _) (by linarith)
  rw [neg_div] at this
  linarith

/-! ### Non-triviality -/

/-- A noisy model with gradients, unknown noise on both, preconditioned with a constant nugget, rational quadratic kernel. -/
def exGpRq : Gp := { exGpPrec with kernel := .ratQuad, knownFval := false, stdFval := none }

def exHpRq : HpVals := { theta := some exTheta, kernel := some 2, varK := some 3, varFval := some (1 / 4), varFgrad := some (1 / 2) }

theorem exGpRq_ok : GpOk exGpRq := by
  have h := exGp_ok
  refine ⟨h.x_r, h.x_c, h.fval_n, h.mask, h.nGrad, h.noMask, h.nData, h.grad_none, h.grad_some, ?_, h.std_fgrad, ?_, h.gzero, h.noisy⟩
  all_goals intro h; cases h

theorem exHpRq_adm : HpAdm exGpRq exHpRq :=
  ⟨⟨exTheta, rfl, rfl, exTheta_pos⟩, fun _ => ⟨2, by norm_num, rfl⟩, fun h => (nomatch h), fun _ => ⟨1 / 4, rfl, by norm_num⟩,
    fun _ h => (nomatch h), fun _ _ => ⟨1 / 2, rfl, by norm_num⟩⟩

-- C31, noisy: six slabs, each the derivative along its hyperparameter
example : ∃ R info A out, calcRtensor exGpRq.x exGpRq.x = .ok R ∧ setupHpIdx exGpRq ⟨true, true, true⟩ true = .ok info ∧
    calcAllK exGpRq R exHpRq none true false none false = .ok out ∧
    calcKcovGradHp exGpRq info exHpRq (ofMat out.Kern) R = .ok A ∧ A.d = 6 ∧
    CovDeriv exGpRq R none exHpRq (.theta 1) (slabMat A 1) ∧ CovDeriv exGpRq R none exHpRq .kernel (slabMat A 2) ∧
    CovDeriv exGpRq R none exHpRq .varK (slabMat A 3) ∧ CovDeriv exGpRq R none exHpRq .varFval (slabMat A 4) ∧
    CovDeriv exGpRq R none exHpRq .varFgrad (slabMat A 5) := by
  obtain ⟨R, hR, -⟩ := calcRtensor_ok (X := exGpRq.x) (Y := exGpRq.x) rfl
  obtain ⟨N, K, out, -, -, -, -, -, -, hout, -⟩ := calcAllK_ok exGpRq_ok exHpRq_adm (.inl rfl) (fun _ => rfl) (by decide) hR true false none false
    (v := 3) (by norm_num) ⟨⟨3, rfl, fun _ => rfl⟩, by simp⟩
  obtain ⟨A, h1, h2, -, -, h3⟩ := C31_covariance_gradient_partial exGpRq_ok exHpRq_adm (.inl rfl) (fun _ => rfl) (by decide) rfl
    (fun th _ => ⟨fun h => (nomatch h), fun _ => .inr rfl⟩) (v := 3) (by norm_num) rfl (lo := ⟨true, true, true⟩) (ok := true) (by
      intro s hs
      have : s ∈ [Slot.theta 0, .theta 1, .kernel, .varK, .varFval, .varFgrad] := hs
      simp only [List.mem_cons, List.not_mem_nil, or_false] at this
      rcases this with rfl | rfl | rfl | rfl | rfl | rfl
      · exact ⟨_, rfl, exTheta_pos 0 (by decide)⟩
      · exact ⟨_, rfl, exTheta_pos 1 (by decide)⟩
      · exact ⟨_, rfl, by norm_num⟩
      · exact ⟨_, rfl, by norm_num⟩
      · exact ⟨_, rfl, by norm_num⟩
      · exact ⟨_, rfl, by norm_num⟩) (setupHpIdx_ok _ _ _) hR hout
  exact ⟨R, _, A, out, hR, setupHpIdx_ok _ _ _, hout, h1, h2, h3 1 _ rfl, h3 2 _ rfl, h3 3 _ rfl, h3 4 _ rfl, h3 5 _ rfl⟩

-- C31, noise-free: hypotheses met by the squared-exponential variant of the gradient-free example
example : GpOk { exGpFree with kernel := .sqExp } ∧ HpAdm { exGpFree with kernel := .sqExp } exHpFree ∧
    ThSupp { exGpFree with kernel := .sqExp } exTheta := by
  have h := exGpFree_ok
  refine ⟨⟨h.x_r, h.x_c, h.fval_n, h.mask, h.nGrad, h.noMask, h.nData, h.grad_none, h.grad_some, h.std_fval, h.std_fgrad, h.fzero,
    h.gzero, h.noisy⟩, ⟨⟨exTheta, rfl, rfl, exTheta_pos⟩, fun h => (nomatch h), fun _ => rfl, fun h => (nomatch h),
    fun h => (nomatch h), fun h => (nomatch h)⟩, fun _ h => (nomatch h), fun h => (nomatch h)⟩

/-! C31 applied to a noise-free object. -/
example : ∃ R info A, calcRtensor exGpFree.x exGpFree.x = .ok R ∧ setupHpIdx { exGpFree with kernel := .sqExp } ⟨true, true, true⟩ true = .ok info ∧
    calcKernGradHp { exGpFree with kernel := .sqExp } info exHpFree R none = .ok A ∧
    CovDeriv { exGpFree with kernel := .sqExp } R (some 1) exHpFree (.theta 1) (slabMat A 1) := by
  have h := exGpFree_ok
  obtain ⟨R, hR, -⟩ := calcRtensor_ok (X := exGpFree.x) (Y := exGpFree.x) rfl
  obtain ⟨A, h1, -, -, -, h2⟩ := C31_kernel_gradient_partial (g := { exGpFree with kernel := .sqExp }) (hp := exHpFree)
    ⟨h.x_r, h.x_c, h.fval_n, h.mask, h.nGrad, h.noMask, h.nData, h.grad_none, h.grad_some, h.std_fval, h.std_fgrad, h.fzero,
      h.gzero, h.noisy⟩ ⟨⟨exTheta, rfl, rfl, exTheta_pos⟩, fun h => (nomatch h), fun _ => rfl, fun h => (nomatch h),
      fun h => (nomatch h), fun h => (nomatch h)⟩ rfl (fun h => (nomatch h)) (by decide) rfl
    (fun _ _ => ⟨fun _ h => (nomatch h), fun h => (nomatch h)⟩) (lo := ⟨true, true, true⟩) (ok := true) (setupHpIdx_ok _ _ _) hR
  exact ⟨R, _, A, hR, setupHpIdx_ok _ _ _, h1, h2 1 _ rfl⟩
example := C31_varying_nugget_discrepancy (c := 10) (t0 := 2) (by norm_num) two_pos ⟨true, true, true⟩ true

end Props
