import Verif.Spec.CondPlotSpec
import Verif.Props.Sweep

/-! Claim theorems for C134: the marked point of the script that plots condition number and likelihood over pairs of length scales. -/

open Np GP Spec Matrix

noncomputable section

namespace Props

/-- A two-dimensional object with known noise, as the script makes it. -/
structure PairOk (g : Gp) : Prop where
  ok : GpOk g
  dim : g.dim = 2
  knownF : g.knownFval = true
  knownG : g.useGrad = true → g.knownFgrad = true
  prec : g.o.precon = true → g.useGrad = true
  ne : 0 < g.nEval
  eta : if g.o.etaConst then 0 < g.o.etaK else 1 < g.o.condMaxTarget

theorem pair_adm {g : Gp} (h : PairOk g) {s t : ℝ} (hs : 0 < s) (ht : 0 < t) : HpAdm g (condHp g s t) where
  theta := ⟨_, rfl, h.dim.symm, fun d _ => by dsimp only; split <;> assumption⟩
  kernel := fun hk => ⟨2, two_pos, by show hpKernelDefault g.kernel = _; rw [hk]; rfl⟩
  vf_none := fun _ => rfl
  vf_some := fun hk => by rw [h.knownF] at hk; cases hk
  vg_none := fun _ _ => rfl
  vg_some := fun hu hk => by rw [h.knownG hu] at hk; cases hk

theorem condHp_eq (g : Gp) (s t : ℝ) : condHp g s t = { pairHp g s t with varK := some (1 / 10) } := by
  unfold condHp pairHp condVarK
  cases g.kernel <;> rfl

theorem pair_kern {g : Gp} {s t : ℝ} {K : Mat g.nData g.nData} : IsKern g (condHp g s t) K ↔ IsKern g (pairHp g s t) K := by
  rw [condHp_eq]; exact Iff.rfl

theorem pair_noise {g : Gp} {s t : ℝ} {N : Vec g.nData} : IsNoise g (condHp g s t) N ↔ IsNoise g (pairHp g s t) N := by
  rw [condHp_eq]
  exact ⟨fun ⟨Na, h, e⟩ => ⟨Na, ⟨h.1, h.2, h.3⟩, e⟩, fun ⟨Na, h, e⟩ => ⟨Na, ⟨h.1, h.2, h.3⟩, e⟩⟩

theorem refVar_pos (g : Gp) : 0 < refVar g := by unfold refVar; split <;> norm_num

theorem pair_vk (g : Gp) (s t : ℝ) : (vkArg g).or (condHp g s t).varK = some (refVar g) := by
  unfold vkArg refVar
  cases hn : g.noisy <;> rfl

theorem nugget_unique {o : CondOpts} {n : ℕ} {v : ℝ} {K : Mat n n} {N : Vec n} {η η' : ℝ} (a : IsNugget o v K N η) (b : IsNugget o v K N η') : η = η' := by
  unfold IsNugget at a b
  split at a
  · rename_i hc; rw [if_pos hc] at b; rw [a, b]
  · rename_i hc; rw [if_neg hc] at b
    obtain ⟨m, e1, g1⟩ := a
    obtain ⟨m', e2, g2⟩ := b
    rw [e1, e2, g1.unique g2]

theorem pairData_unique {g : Gp} (h : PairOk g) {s t : ℝ} (hs : 0 < s) (ht : 0 < t) {K K' : Mat g.nData g.nData} {N N' : Vec g.nData} {η η' : ℝ}
    (a : PairData g s t K N η) (b : PairData g s t K' N' η') : K = K' ∧ N = N' ∧ η = η' := by
  obtain rfl := isKern_unique h.ok (pair_adm h hs ht) (pair_kern.mpr a.kern) (pair_kern.mpr b.kern)
  obtain rfl := isNoise_unique h.ok a.noise b.noise
  exact ⟨rfl, rfl, nugget_unique a.nugget b.nugget⟩

/-- Without a factorisation there is no likelihood. -/
theorem lkd_bad {g : Gp} {env : LkdEnv} {hp : HpVals} {cc : Bool} {li : LkdInfo nBetaCoeff env.info.nHp}
    (h : calcLkdAll g env hp cc false = .ok (li, false)) : li.lnLkd = none := by
  unfold calcLkdAll at h
  obtain ⟨R, -, h⟩ := bind_eq_ok h
  obtain ⟨out, -, h⟩ := bind_eq_ok h
  obtain ⟨dK, -, h⟩ := bind_eq_ok h
  cases hf : out.chofac with
  | none =>
    rw [hf] at h
    dsimp only at h
    obtain ⟨c, -, h⟩ := bind_eq_ok h
    split at h
    · obtain ⟨li', h1, h⟩ := bind_eq_ok h
      simp only [setCond, Bool.and_false, Bool.false_eq_true, if_false] at h1
      cases h1; cases h; rfl
    · cases h; rfl
  | some F =>
    rw [hf] at h
    dsimp only at h
    obtain ⟨d, -, h⟩ := bind_eq_ok h
    obtain ⟨l1, -, h⟩ := bind_eq_ok h
    obtain ⟨l2, -, h⟩ := bind_eq_ok h
    cases h

/-- The constant by which the computed likelihoods differ from the log-likelihood. -/
def lkdConst (g : Gp) : ℝ := if g.noisy then g.nData / 2 * Real.log (2 * Real.pi) else g.nData / 2 * (1 + Real.log (2 * Real.pi))

theorem condNum_pos {fro : Bool} {n : ℕ} (hn : 0 < n) {A : Mat n n} {κ : ℝ} (h : IsCondNum fro A κ) : 0 < κ := by
  have hne : ∀ {A B : Mat n n}, A * B = 1 → 0 < ∑ i, ∑ j, A i j ^ 2 := by
    intro A B hAB
    refine lt_of_le_of_ne (Finset.sum_nonneg fun i _ => Finset.sum_nonneg fun j _ => sq_nonneg _) fun h0 => ?_
    have hz : A = 0 := by
      ext i j
      have h1 := (Finset.sum_eq_zero_iff_of_nonneg (fun i _ => Finset.sum_nonneg fun j _ => sq_nonneg (A i j))).mp h0.symm i (Finset.mem_univ _)
      have h2 := (Finset.sum_eq_zero_iff_of_nonneg (fun j _ => sq_nonneg (A i j))).mp h1 j (Finset.mem_univ _)
      exact pow_eq_zero_iff two_ne_zero |>.mp h2
    rw [hz, zero_mul] at hAB
    have := congrFun (congrFun hAB ⟨0, hn⟩) ⟨0, hn⟩
    simp at this
  unfold IsCondNum at h
  split at h
  · obtain ⟨B, h1, h2, rfl⟩ := h
    exact mul_pos (Real.sqrt_pos.mpr (hne h1)) (Real.sqrt_pos.mpr (hne h2))
  · obtain ⟨lo, hi, h1, h2, h3, rfl⟩ := h
    obtain ⟨⟨x, hx, -⟩, h1⟩ := h1
    have hxx : 0 < x ⬝ᵥ x := by
      have := dotProduct_star_self_pos_iff.mpr hx
      simpa using this
    have := (h1 x).trans (h2.2 x)
    exact div_pos (h3.trans_le (le_of_mul_le_mul_right this hxx)) h3

/-- One cell of the grid. -/
theorem pair_cell {g : Gp} (h : PairOk g) (env : LkdEnv) (hp : g.noisy = false → env.lkd.pnltUse = false) {s t : ℝ} (hs : 0 < s) (ht : 0 < t) {y : Vec g.nData}
    (hy : DataSpec g y)
    (hfl : g.noisy = false → ∀ K N η, PairData g s t K N η → ∀ c, varKMin < maha (noisyCov g.o.precon 1 K 0 η) (y - priorMean g c) / g.nData) :
    ∃ K N η κ, ∃ l : Fl, PairData g s t K N η ∧ 0 < κ ∧ cellLkd g env s t = .ok l ∧ cellCond g env s t = .ok (some κ) ∧ (l = none ↔ ¬ Usable g K N η) ∧
      (Usable g K N η ∨ g.noisy = true → IsCondNum g.o.fro (condMat g.o.precon (refVar g) K N η) κ) ∧
      (¬ Usable g K N η → g.noisy = false → IsCondNum false (noisyCov g.o.precon 1 K N η) κ) ∧
      ∀ x, l = some x → ∃ β v, VarAllowed g v ∧ x = pairLog g K N η y β v + lkdConst g ∧
        ∀ c w, VarAllowed g w → pairLog g K N η y c w ≤ pairLog g K N η y β v := by
  have hadm := pair_adm h hs ht
  obtain ⟨Na, K, out, y', V, li, h1, h2, h3, h4, h5, h6, h7, h8, h9, h10, h11, h12, h13, h14, h15⟩ := lkd_form h.ok hadm (.inr h.knownF) h.prec h.ne h.eta env true
    (refVar_pos g) (pair_vk g s t)
  obtain rfl := dataSpec_unique h.ok h9 hy
  have hn : 0 < g.nData := by have := h.ne; rw [h.ok.nData]; omega
  have hVm := basis_mulVec h11
  have hc : out.Kcov = noisyCov g.o.precon (refVar g) K (toVec g.nData Na) out.etaK := cov_noisyCov (refVar_pos g) h6
  have hnug := cov_nugget (refVar_pos g) hn h6
  have hPD : PairData g s t K (toVec g.nData Na) out.etaK := ⟨pair_kern.mp h2, pair_noise.mp ⟨Na, h1, fun i => rfl⟩, hnug⟩
  set N := toVec g.nData Na with hN
  have hU : out.chofac.isSome = true ↔ Usable g K N out.etaK := by
    rw [h13]
    unfold Usable
    constructor
    · intro hx hpc
      refine ⟨_, ?_, hx rfl hpc⟩
      have := isCondNum_condNum (o := g.o) hn h8
      rw [hc, hpc] at this
      rw [hc, hpc]
      exact this
    · intro hx _ hpc
      obtain ⟨κ, a, b⟩ := hx hpc
      have := isCondNum_condNum (o := g.o) hn h8
      rw [hc, hpc] at this ⊢
      rw [isCondNum_unique this a]
      exact b
  obtain ⟨κ0, k1, k2⟩ := cov_cond (refVar_pos g) hn h6 h3 h4 h5 h7
  have hcond : ∃ κ, 0 < κ ∧ li.cond = some κ ∧ (Usable g K N out.etaK ∨ g.noisy = true → IsCondNum g.o.fro (condMat g.o.precon (refVar g) K N out.etaK) κ) ∧
      (¬ Usable g K N out.etaK → g.noisy = false → IsCondNum false (noisyCov g.o.precon 1 K N out.etaK) κ) := by
    by_cases hg : (out.chofac.isSome || g.noisy) = true
    · rw [hg, if_pos rfl, k1] at h14
      refine ⟨κ0, condNum_pos hn k2, h14, fun _ => k2, fun hu hno => ?_⟩
      rw [hno, Bool.or_false] at hg
      exact absurd (hU.mp hg) hu
    · rw [if_neg hg] at h14
      have hg' : ¬ (out.chofac.isSome = true) ∧ g.noisy = false := by simpa using hg
      have hk : IsCondNum false out.Kcov (cond2 out.Kcov) := isCondNum_condNum (o := { g.o with fro := false }) hn h8
      refine ⟨_, condNum_pos hn hk, h14, fun hu => ?_, fun _ _ => ?_⟩
      · rcases hu with hu | hu
        · exact absurd (hU.mpr hu) hg'.1
        · rw [hg'.2] at hu; cases hu
      · have e : refVar g = 1 := by unfold refVar; rw [hg'.2]; rfl
        rw [e] at hc
        rw [← hc]; exact hk
  obtain ⟨κ, c1, c2, c3, c4⟩ := hcond
  refine ⟨K, N, out.etaK, κ, li.lnLkd, hPD, c1, ?_, ?_, ?_, c3, c4, ?_⟩
  · unfold cellLkd; rw [h12]; rfl
  · unfold cellCond; rw [h12, ← c2]; rfl
  · rw [← hU]
    constructor
    · intro hl hs
      obtain ⟨-, q1, q2⟩ := h15 hs
      cases hno : g.noisy with
      | true => rw [q1 hno] at hl; cases hl
      | false => rw [(q2 hno).2] at hl; cases hl
    · intro hs
      refine lkd_bad (g := g) (env := env) (hp := condHp g s t) (cc := true) ?_
      rw [h12]
      simpa using hs
  · intro x hx
    have hfs : out.chofac.isSome = true := by
      by_contra hs
      have : li.lnLkd = none := by
        refine lkd_bad (g := g) (env := env) (hp := condHp g s t) (cc := true) ?_
        rw [h12]
        simpa using hs
      rw [this] at hx; cases hx
    obtain ⟨F, hF⟩ := Option.isSome_iff_exists.mp hfs
    obtain ⟨f1, f2, f3⟩ := h6.fac F hF
    have hFo : FacOf F out.Kcov := ⟨f1, f3, f2⟩
    obtain ⟨-, q1, q2⟩ := h15 hfs
    cases hno : g.noisy with
    | true =>
      obtain ⟨r, β, l, e1, e2, e3, e4, e5⟩ := C27_gaussian_likelihood (m := env.info.nHp) hFo h10 y' none env.lkd.useAdj
      obtain ⟨r', e1', -, -, b3, -⟩ := lkdWNoise_ok (m := env.info.nHp) hFo h10 y' none env.lkd.useAdj
      rw [e1] at e1'
      cases e1'
      have hl : some l = some x := by rw [← hx, q1 hno, ← b3, e3]
      obtain rfl : l = x := Option.some.inj hl
      have hr : refVar g = 1 / 10 := by unfold refVar; rw [hno]; rfl
      refine ⟨β ⟨0, Nat.one_pos⟩, 1 / 10, by unfold VarAllowed; rw [hno]; rfl, ?_, fun c w hw => ?_⟩
      · unfold pairLog lkdConst
        rw [← hr, ← hc, ← hVm, hno]
        exact e4
      · have hw' : w = 1 / 10 := by unfold VarAllowed at hw; rw [hno] at hw; exact hw
        subst hw'
        unfold pairLog
        rw [← hr, ← hc, ← hVm]
        have := e5 (fun _ => c)
        rw [hVm (fun _ => c)] at this
        by_cases hcb : (fun _ => c) = β
        · rw [← hcb, hVm (fun _ => c)]
        · exact (this hcb).le
    | false =>
      obtain ⟨r, β, v, l, e1, e2, e3, e4, e5, e6⟩ := C26_closed_form_variance (m := env.info.nHp) env.lkd g.fval hFo h10 y' none env.lkd.useAdj
      obtain ⟨r', e1', b1, b2, -, b4, -⟩ := lkdWoNoise_ok (m := env.info.nHp) env.lkd g.fval hFo h10 y' none env.lkd.useAdj
      rw [e1] at e1'
      cases e1'
      have hl : some l = some x := by rw [← hx, (q2 hno).2, ← b4, e4]
      obtain rfl : l = x := Option.some.inj hl
      have hr : refVar g = 1 := by unfold refVar; rw [hno]; rfl
      have h0 : N = 0 := noise_zero h.ok hno h1
      rw [hr, h0] at hc
      have hsm : ∀ w, noisyCov g.o.precon w K N out.etaK = w • out.Kcov := fun w => by rw [h0, noisyCov_smul0, ← hc]
      have hlim := hfl hno K N out.etaK hPD (β ⟨0, Nat.one_pos⟩)
      rw [← hc, ← hVm] at hlim
      obtain ⟨g1, g2⟩ := e6 hlim
      have hz : ∀ x, (varKPnlt env.lkd x g.fval).1 = 0 := fun x => by unfold varKPnlt; rw [hp hno]; rfl
      refine ⟨β ⟨0, Nat.one_pos⟩, v, by unfold VarAllowed; rw [hno]; exact e5, ?_, fun c w hw => ?_⟩
      · unfold pairLog lkdConst
        rw [hsm, ← hVm, hno, g2, hz]
        simp
      · have hw' : 0 < w := by unfold VarAllowed at hw; rw [hno] at hw; exact hw
        unfold pairLog
        rw [hsm, hsm, ← hVm]
        have := g1 (fun _ => c) w hw'
        rw [hVm (fun _ => c)] at this
        by_cases hcb : ((fun _ => c), w) = (β, v)
        · obtain ⟨a, b⟩ := Prod.mk.inj hcb
          rw [← a, ← b, hVm (fun _ => c)]
        · exact (this hcb).le

/-- **C134.** The maps and the marked point, for a grid of positive length-scale parameters. Every cell holds the logarithm of the condition number of the
covariance matrix that is factorised (of the 2-norm if there is no noise and the matrix is not used). No point is marked exactly if the matrix of no cell may be
used. Otherwise the marked point is a pair of length scales, the second input's first, of a cell whose matrix may be used, and some mean and variance with
this pair are at least as likely for the data as any mean and variance with any other pair that may be used. -/
theorem C134_grid {g : Gp} (h : PairOk g) (env : LkdEnv) (hp : g.noisy = false → env.lkd.pnltUse = false) {n : ℕ} {theta : ℕ → ℝ} (ht : ∀ i < n, 0 < theta i) (gamma : ℕ → ℝ)
    {y : Vec g.nData} (hy : DataSpec g y)
    (hfl : g.noisy = false → ∀ i < n, ∀ j < n, ∀ K N η, PairData g (theta i) (theta j) K N η →
      ∀ c, varKMin < maha (noisyCov g.o.precon 1 K 0 η) (y - priorMean g c) / g.nData) :
    ∃ (K : ℕ → ℕ → Mat g.nData g.nData) (N : ℕ → ℕ → Vec g.nData) (η : ℕ → ℕ → ℝ) (C L : FMat) (r : Option (ℝ × ℝ)),
      calcCondLkd g env n theta gamma = .ok (C, L, r) ∧
      (∀ i < n, ∀ j < n, PairData g (theta i) (theta j) (K i j) (N i j) (η i j)) ∧
      (∀ i < n, ∀ j < n, ∃ κ, 0 < κ ∧ C.get i j = some (Real.logb 10 κ) ∧
        (Usable g (K i j) (N i j) (η i j) ∨ g.noisy = true → IsCondNum g.o.fro (condMat g.o.precon (refVar g) (K i j) (N i j) (η i j)) κ) ∧
        (¬ Usable g (K i j) (N i j) (η i j) → g.noisy = false → IsCondNum false (noisyCov g.o.precon 1 (K i j) (N i j) (η i j)) κ)) ∧
      (∀ i < n, ∀ j < n, (L.get i j = none ↔ ¬ Usable g (K i j) (N i j) (η i j))) ∧
      (r = none ↔ ∀ i < n, ∀ j < n, ¬ Usable g (K i j) (N i j) (η i j)) ∧
      ∀ m, r = some m → ∃ i < n, ∃ j < n, m = (gamma j, gamma i) ∧ Usable g (K i j) (N i j) (η i j) ∧ ∃ β v, VarAllowed g v ∧
        ∀ i' < n, ∀ j' < n, Usable g (K i' j') (N i' j') (η i' j') → ∀ c w, VarAllowed g w →
          pairLog g (K i' j') (N i' j') (η i' j') y c w ≤ pairLog g (K i j) (N i j) (η i j) y β v := by
  have hch : ∀ i j, ∃ K N η κ, ∃ l : Fl, i < n → j < n → PairData g (theta i) (theta j) K N η ∧ 0 < κ ∧ cellLkd g env (theta i) (theta j) = .ok l ∧
      cellCond g env (theta i) (theta j) = .ok (some κ) ∧ (l = none ↔ ¬ Usable g K N η) ∧
      (Usable g K N η ∨ g.noisy = true → IsCondNum g.o.fro (condMat g.o.precon (refVar g) K N η) κ) ∧
      (¬ Usable g K N η → g.noisy = false → IsCondNum false (noisyCov g.o.precon 1 K N η) κ) ∧
      ∀ x, l = some x → ∃ β v, VarAllowed g v ∧ x = pairLog g K N η y β v + lkdConst g ∧
        ∀ c w, VarAllowed g w → pairLog g K N η y c w ≤ pairLog g K N η y β v := by
    intro i j
    by_cases hi : i < n
    · by_cases hj : j < n
      · obtain ⟨K, N, η, κ, l, hc⟩ := pair_cell h env hp (ht i hi) (ht j hj) hy fun hno K N η hd => hfl hno i hi j hj K N η hd
        exact ⟨K, N, η, κ, l, fun _ _ => hc⟩
      · exact ⟨0, 0, 0, 0, none, fun _ h => absurd h hj⟩
    · exact ⟨0, 0, 0, 0, none, fun h => absurd h hi⟩
  choose K N η κ l hcell using hch
  obtain ⟨L, r, hL, hr, hr0, hr1⟩ := C109_grid_maximum (n := n) (theta := theta) (gamma := gamma) (ev := cellLkd g env)
    (f := fun s t => (cellLkd g env s t).toOption.getD none) (fun i hi j hj => by rw [(hcell i j hi hj).2.2.1]; rfl)
  obtain ⟨L', hL', -, -, hLv⟩ := gridLkd_ok (n := n) (theta := theta) (ev := cellLkd g env)
    (f := fun s t => (cellLkd g env s t).toOption.getD none) (fun i hi j hj => by rw [(hcell i j hi hj).2.2.1]; rfl)
  obtain ⟨C, hC, -, -, hCv⟩ := gridLkd_ok (n := n) (theta := theta) (ev := cellCond g env)
    (f := fun s t => (cellCond g env s t).toOption.getD none) (fun i hi j hj => by rw [(hcell i j hi hj).2.2.2.1]; rfl)
  rw [hL] at hL'
  cases hL'
  have hf : ∀ i < n, ∀ j < n, (cellLkd g env (theta i) (theta j)).toOption.getD none = l i j := fun i hi j hj => by
    rw [(hcell i j hi hj).2.2.1]; rfl
  refine ⟨K, N, η, ⟨C.r, C.c, fun i j => (C.get i j).map (Real.logb 10)⟩, L, r, ?_, fun i hi j hj => (hcell i j hi hj).1, fun i hi j hj => ?_, fun i hi j hj => ?_, ?_, fun m hm => ?_⟩
  · unfold calcCondLkd
    simp only [hL, hC, hr, ok_bind]
    rfl
  · obtain ⟨-, h2, -, h4, -, h6, h7, -⟩ := hcell i j hi hj
    refine ⟨κ i j, h2, ?_, h6, h7⟩
    dsimp only
    rw [hCv i hi j hj, h4]
    rfl
  · rw [hLv i hi j hj, hf i hi j hj]
    exact (hcell i j hi hj).2.2.2.2.1
  · rw [hr0]
    refine forall₂_congr fun i hi => forall₂_congr fun j hj => ?_
    rw [hf i hi j hj]
    exact (hcell i j hi hj).2.2.2.2.1
  · obtain ⟨i, hi, j, hj, hmij, v, hv, hmax⟩ := hr1 m hm
    rw [hf i hi j hj] at hv
    have hu : ∀ i' < n, ∀ j' < n, Usable g (K i' j') (N i' j') (η i' j') → ∃ x, l i' j' = some x := by
      intro i' hi' j' hj' hus
      cases hl : l i' j' with
      | none => exact absurd hus ((hcell i' j' hi' hj').2.2.2.2.1.mp hl)
      | some x => exact ⟨x, rfl⟩
    have hus : Usable g (K i j) (N i j) (η i j) := by
      by_contra hno
      rw [(hcell i j hi hj).2.2.2.2.1.mpr hno] at hv
      cases hv
    obtain ⟨β, w0, hw0, hx, -⟩ := (hcell i j hi hj).2.2.2.2.2.2.2 v hv
    refine ⟨i, hi, j, hj, hmij, hus, β, w0, hw0, fun i' hi' j' hj' hus' c w hw => ?_⟩
    obtain ⟨x', hx'⟩ := hu i' hi' j' hj' hus'
    obtain ⟨β', w', hw', e1, e2⟩ := (hcell i' j' hi' hj').2.2.2.2.2.2.2 x' hx'
    have := hmax i' hi' j' hj' x' (by rw [hf i' hi' j' hj']; exact hx')
    rw [hx, e1] at this
    have := e2 c w hw
    linarith

/-- **C134.** Without noise the variance is above its lower limit if two of the values differ enough; for a constant nugget that does not depend on the
length scales. -/
theorem C134_above_limit {g : Gp} (h : PairOk g) (hno : g.noisy = false) {s t : ℝ} (hs : 0 < s) (ht : 0 < t) {y : Vec g.nData} (hy : DataSpec g y)
    {K : Mat g.nData g.nData} {N : Vec g.nData} {η : ℝ} (hd : PairData g s t K N η) {a b : ℕ} (ha : a < g.nEval) (hb : b < g.nEval)
    (hlt : varKMin * g.nData * (4 + 2 * η) < (g.fval.get a - g.fval.get b) ^ 2) (c : ℝ) :
    varKMin < maha (noisyCov g.o.precon 1 K 0 η) (y - priorMean g c) / g.nData := by
  have hadm := pair_adm h hs ht
  obtain ⟨R, hR, -⟩ := calcRtensor_ok (X := g.x) (Y := g.x) rfl
  obtain ⟨Na, K', out, h1, h2, h3, h4, h5, h6, h7, h8⟩ := calcAllK_ok h.ok hadm (.inr h.knownF) h.prec h.ne hR true true (some 1) false
    (v := 1) one_pos ⟨⟨1, rfl, fun _ => rfl⟩, fun h => by cases h⟩
  have hn : 0 < g.nData := by have := h.ne; rw [h.ok.nData]; omega
  have hNn := NoiseSpec.nonneg h.ok hadm h2
  have hr : refVar g = 1 := by unfold refVar; rw [hno]; rfl
  have hnug := cov_nugget one_pos hn h8
  have hpos := nugget_pos one_pos hn h5 hNn h.eta hnug
  have hc := cov_noisyCov one_pos h8
  have hpd := h8.posDef one_pos h4 h5 hNn hpos
  obtain ⟨rfl, -, rfl⟩ := pairData_unique h hs ht hd ⟨pair_kern.mp h3, pair_noise.mp ⟨Na, h2, fun i => rfl⟩, hr ▸ hnug⟩
  rw [hc, noise_zero h.ok hno h2] at hpd
  exact above_limit_of h.ok hadm h.knownF h.prec h.ne hy h3 hpd ha hb hpos.le hlt c

/-- Two evaluations with gradients, without noise, in the plane; rational quadratic kernel. -/
def exGpPair : Gp := { exGp with
  kernel := .ratQuad
  nGrad := 2
  nData := 6
  bvec := none
  o := { exGp.o with etaConst := true, etaK := 1 }
  knownFgrad := true
  fvalZero := true
  fgradZero := true
  noisy := false
  stdFval := some ⟨2, fun _ => 0⟩
  grad := some ⟨2, 2, fun p d => p + d⟩
  stdGrad := some ⟨2, 2, fun _ _ => 0⟩ }

theorem exPair_ok : PairOk exGpPair where
  ok := by
    constructor
    all_goals first
      | rfl
      | exact fun _ => rfl
      | exact fun _ _ => rfl
      | exact fun _ => ⟨_, rfl, rfl⟩
      | exact fun _ => ⟨_, rfl, rfl, rfl⟩
      | exact fun _ _ => ⟨_, rfl, rfl, rfl⟩
      | (intro h; simp [exGpPair, exGp] at h; done)
      | (intro _ h; simp [exGpPair, exGp] at h; done)
      | (simp [exGpPair, exGp]; done)
  dim := rfl
  knownF := rfl
  knownG := fun _ => rfl
  prec := fun _ => rfl
  ne := by simp [exGpPair, exGp]
  eta := by norm_num [exGpPair]

-- the hypotheses of `C134_grid` are met for any grid
example (env : LkdEnv) (hp : env.lkd.pnltUse = false) {n : ℕ} {theta : ℕ → ℝ} (ht : ∀ i < n, 0 < theta i) (gamma : ℕ → ℝ) {y : Vec exGpPair.nData}
    (hy : DataSpec exGpPair y) :=
  C134_grid exPair_ok env (fun _ => hp) ht gamma hy fun hno i hi j hj K N η hd => C134_above_limit exPair_ok hno (ht i hi) (ht j hj) hy hd (a := 0) (b := 1)
    (by simp [exGpPair, exGp]) (by simp [exGpPair, exGp]) (by
      have h1 : η = 1 := by have := hd.nugget; simpa [IsNugget, exGpPair] using this
      rw [h1]
      norm_num [exGpPair, exGp, varKMin])

/-- Two evaluations in the plane with noise of known size, without preconditioning and gradients. -/
def exGpPairNoisy : Gp := { exGp with
  useGrad := false
  nGrad := 0
  nData := 2
  bvec := none
  grad := none
  o := { exGp.o with precon := false } }

theorem exPairNoisy_ok : PairOk exGpPairNoisy where
  ok := by
    constructor
    all_goals first
      | rfl
      | exact fun _ => rfl
      | exact fun _ _ => rfl
      | exact fun _ => ⟨_, rfl, rfl⟩
      | (intro h; simp [exGpPairNoisy, exGp] at h; done)
      | (intro _ h; simp [exGpPairNoisy, exGp] at h; done)
      | (simp [exGpPairNoisy, exGp]; done)
  dim := rfl
  knownF := rfl
  knownG := fun h => (nomatch h)
  prec := fun h => (nomatch h)
  ne := by simp [exGpPairNoisy, exGp]
  eta := by norm_num [exGpPairNoisy, exGp]

example (env : LkdEnv) {n : ℕ} {theta : ℕ → ℝ} (ht : ∀ i < n, 0 < theta i) (gamma : ℕ → ℝ) {y : Vec exGpPairNoisy.nData}
    (hy : DataSpec exGpPairNoisy y) := C134_grid exPairNoisy_ok env (fun h => (nomatch h)) ht gamma hy fun h => (nomatch h)

end Props
