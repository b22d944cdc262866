import Verif.Props.LkdAll

/-! The hypotheses of C32, C34 and C35 are met by concrete objects. -/

open Np GP Spec Matrix MD

noncomputable section

namespace Props

/-! ### Noisy data with gradients at some points, preconditioning, rational quadratic kernel -/

theorem exGpRq_lkd : LkdHyp exGpRq := by
  refine ⟨exGpRq_ok, .inl rfl, fun _ => rfl, Nat.two_pos, rfl, ?_⟩
  show 0 < (1 + preconUb .matern 2 2) / (10 - 1)
  have : 0 ≤ preconUb .matern 2 2 := by
    unfold preconUb
    dsimp only
    have h6 : 1 ≤ Real.sqrt (3 * (2 : ℕ)) := by
      rw [Real.one_le_sqrt]; norm_num
    have : 0 ≤ Real.sqrt (3 * (2 : ℕ)) - 1 := by linarith
    have h1 : (0 : ℝ) ≤ ((2 : ℕ) : ℝ) - 1 := by norm_num
    positivity
  linarith [div_pos (show 0 < 1 + preconUb .matern 2 2 by linarith) (show (0 : ℝ) < 10 - 1 by norm_num)]

-- C32
example (eig : EigFun) (r0 : ∀ m, LkdRes m) : ∃ (env : LkdEnv) (gr : Vec env.info.nHp) (st st' : OptzState env.info.nHp),
    env.eig = eig ∧ env.info.nHp = 6 ∧ st.last = none ∧
    returnOptzGrad exGpRq env st ⟨6, fun i => (i : ℝ) - 2⟩ = .ok (gr, st') ∧ ∀ p : Fin env.info.nHp, ∃ f : ℝ → ℝ,
      (∀ᶠ u in nhds ((p : ℝ) - 2), ∃ st', returnOptzVal exGpRq env st (setEntry ⟨6, fun i => (i : ℝ) - 2⟩ p u) = .ok (f u, st')) ∧
        HasDerivAt f (gr p) ((p : ℝ) - 2) := by
  have hi := setupHpIdx_ok exGpRq ⟨true, true, true⟩ true
  set info : HpInfo := hpInfoOf ⟨true, true, true⟩ exGpRq.dim true (true && kernelHasHp exGpRq.kernel) exGpRq.noisy (!exGpRq.knownFval)
      (exGpRq.useGrad && !exGpRq.knownFgrad) with hinfo
  set env : LkdEnv := { lkd := ⟨true, 1, 10, 0, true⟩, info := info, useCstr := false, eig := eig } with henv
  have hlen : info.nHp = 6 := rfl
  have hlog : ∀ s, slotLog ⟨true, true, true⟩ s = true := by intro s; cases s <;> rfl
  obtain ⟨hp, hdec, hadm, hall⟩ := decode_adm (g := exGpRq) (x := ⟨6, fun i => (i : ℝ) - 2⟩) hi rfl (fun _ => rfl)
    (fun p s _ h => by rw [hlog s] at h; cases h)
  obtain ⟨R, hR, -⟩ := calcRtensor_ok (X := exGpRq.x) (Y := exGpRq.x) rfl
  obtain ⟨gr, st', h1, h2⟩ := C32_optimiser_gradient exGpRq_lkd (env := env) hi (fun _ => rfl) (x := ⟨6, fun i => (i : ℝ) - 2⟩) rfl
    (fun p s _ h => by rw [hlog s] at h; cases h) hdec (fun th _ => ⟨fun h => (nomatch h), fun _ => .inr rfl⟩)
    (fun h => (nomatch h)) hR (fun h => (nomatch h)) (fun h => (nomatch h)) (CacheReach.init (r0 _))
  exact ⟨env, gr, ⟨none, r0 _⟩, st', rfl, hlen, rfl, h1, h2⟩

/-! ### Two noise-free values with a condition-number constraint -/

/-- Values 0 and 1 at the points 0 and 1, nugget 1, failure threshold `c` of the condition number. -/
def exGpTwo (c : ℝ) : Gp := { exGpVary 3 with
  fval := ⟨2, fun i => i⟩
  o := { precon := false, etaConst := true, etaK := 1, condMaxTarget := c, condMax := c, condMaxAbs := c, fro := false } }

theorem exGpTwo_ok (c : ℝ) : GpOk (exGpTwo c) := by
  have h := exGpVary_ok 3
  exact ⟨h.x_r, h.x_c, rfl, h.mask, h.nGrad, h.noMask, h.nData, h.grad_none, h.grad_some, h.std_fval, h.std_fgrad, h.fzero,
    h.gzero, h.noisy⟩

theorem exGpTwo_lkd (c : ℝ) : LkdHyp (exGpTwo c) :=
  ⟨exGpTwo_ok c, .inr rfl, fun h => (nomatch h), Nat.two_pos, rfl, one_pos⟩

/-- Its covariance matrix is that of two correlated observations. -/
theorem exGpTwo_cov (c : ℝ) {hp : HpVals} (hh : HpAdm (exGpTwo c) hp) {th : Arr1} (hth : hp.theta = some th) {R : Arr3}
    (hR : calcRtensor (exGpTwo c).x (exGpTwo c).x = .ok R) {out : CovOut (exGpTwo c).nData} {cc : Bool}
    (hout : lkdCov (exGpTwo c) hp R cc = .ok out) : out.Kcov = exK (Real.exp (-th.get 0)) := by
  rw [lkdCov_eq] at hout
  obtain ⟨N, K, out', -, hN, ⟨A, hA, hKA⟩, -, -, -, ho', hs⟩ := calcAllK_ok (exGpTwo_ok c) hh (.inr rfl) (fun h => (nomatch h)) Nat.two_pos hR true cc
    (vkArg (exGpTwo c)) false (v := 1) one_pos ⟨⟨1, rfl, fun _ => rfl⟩, fun h => by cases h⟩
  rw [hout] at ho'; cases ho'
  have heta : out.etaK = 1 := by rw [hs.eta]; rfl
  have hpre : (exGpTwo c).o.precon = false := rfl
  have hent : ∀ i j : Fin 2, K i j = Real.exp (-(th.get 0 * ((i : ℕ) - (j : ℕ) : ℝ) ^ 2)) := by
    intro i j
    refine (hKA i j).trans ((hA.val_val i i.2 j j.2).trans ?_)
    simp [gpKern, kernOf, hth, exGpTwo, exGpVary, kern, kSqExp, wdist2]
  have hN0 : ∀ i : Fin 2, toVec (exGpTwo c).nData N i = 0 := by
    intro i
    show N.get i = 0
    rw [hN.val i i.2]; rfl
  have hcov : ∀ i j : Fin 2, out.Kcov i j = K i j + if i = j then 1 else 0 := by
    intro i j
    rw [hs.cov, heta, hpre, one_smul]
    simp only [Bool.false_eq_true, if_false, kwn, Matrix.add_apply, Matrix.smul_apply, one_smul]
    show K i j + (diagonal fun k : Fin 2 => toVec (exGpTwo c).nData N k / 1) i j + (1 : Mat 2 2) i j = _
    rw [diagonal_apply, one_apply]
    by_cases h : i = j <;> simp [h, hN0]
  have hfin : ∀ i j : Fin 2, Real.exp (-(th.get 0 * ((i : ℕ) - (j : ℕ) : ℝ) ^ 2)) + (if i = j then 1 else 0) = exK (Real.exp (-th.get 0)) i j := by
    intro i j
    fin_cases i <;> fin_cases j <;> norm_num [exK]
  ext i j
  exact (hcov i j).trans ((congrArg (· + _) (hent i j)).trans (hfin i j))

theorem exK_top {a : ℝ} (ha : 0 < a) : IsMaxEig (exK a) (2 + a) ∧ SimpleEig (exK a) (2 + a) := by
  refine ⟨⟨⟨![1, 1], by simp, ?_⟩, ?_⟩, ?_⟩
  · funext i; fin_cases i <;> simp [exK, mulVec, dotProduct, Fin.sum_univ_two]; ring
  · intro x
    simp only [exK, mulVec, dotProduct, Fin.sum_univ_two, of_apply, cons_val_zero, cons_val_one]
    nlinarith [mul_nonneg ha.le (sq_nonneg (x 0 - x 1))]
  · intro u w hu h1 h2
    have e : ∀ x : Vec 2, exK a *ᵥ x = (2 + a) • x → x 0 = x 1 := by
      intro x hx
      have := congrFun hx 0
      simp only [exK, mulVec, dotProduct, Fin.sum_univ_two, of_apply, cons_val_zero, cons_val_one, Pi.smul_apply, smul_eq_mul] at this
      exact (mul_left_cancel₀ ha.ne' (by linarith)).symm
    have hu0 : u 0 ≠ 0 := by
      intro h0
      exact hu (funext fun i => by fin_cases i; exacts [h0, (e u h1).symm.trans h0])
    refine ⟨w 0 / u 0, funext fun i => ?_⟩
    fin_cases i
    · simp [hu0]
    · show w 1 = w 0 / u 0 * u 1
      rw [← e u h1, ← e w h2]; field_simp

theorem exK_bot {a : ℝ} (ha : 0 < a) : IsMinEig (exK a) (2 - a) ∧ SimpleEig (exK a) (2 - a) := by
  refine ⟨⟨⟨![1, -1], by simp, ?_⟩, ?_⟩, ?_⟩
  · funext i; fin_cases i <;> simp [exK, mulVec, dotProduct, Fin.sum_univ_two] <;> ring
  · intro x
    simp only [exK, mulVec, dotProduct, Fin.sum_univ_two, of_apply, cons_val_zero, cons_val_one]
    nlinarith [mul_nonneg ha.le (sq_nonneg (x 0 + x 1))]
  · intro u w hu h1 h2
    have e : ∀ x : Vec 2, exK a *ᵥ x = (2 - a) • x → x 1 = -x 0 := by
      intro x hx
      have := congrFun hx 0
      simp only [exK, mulVec, dotProduct, Fin.sum_univ_two, of_apply, cons_val_zero, cons_val_one, Pi.smul_apply, smul_eq_mul] at this
      exact mul_left_cancel₀ ha.ne' (by linarith)
    have hu0 : u 0 ≠ 0 := by
      intro h0
      refine hu (funext fun i => by fin_cases i; exacts [h0, by simpa [h0] using e u h1])
    refine ⟨w 0 / u 0, funext fun i => ?_⟩
    fin_cases i
    · simp [hu0]
    · show w 1 = w 0 / u 0 * u 1
      rw [e u h1, e w h2]; field_simp

theorem exK_cond {a : ℝ} (h0 : 0 < a) (h1 : a < 1) : cond2 (exK a) = (2 + a) / (2 - a) := by
  obtain ⟨l1, l2, k1, k2, -, k4⟩ := cond2_quot Nat.two_pos (exK_posDef (s := a) (by linarith) (by linarith))
  rw [k4, maxEig_unique k1 (exK_top h0).1, minEig_unique k2 (exK_bot h0).1]

/-- An eigenvalue routine that is right for these matrices. -/
def exEigTwo : EigFun
  | 2, K => (![2 + K 0 1, 2 - K 0 1], !![1 / Real.sqrt 2, 1 / Real.sqrt 2; 1 / Real.sqrt 2, -(1 / Real.sqrt 2)])
  | _, _ => (0, 0)

theorem exEigTwo_ok (a : ℝ) : EigOk (exK a) (exEigTwo 2 (exK a)) := by
  have h2 : Real.sqrt 2 ≠ 0 := by positivity
  have hs : Real.sqrt 2 ^ 2 = 2 := Real.sq_sqrt (by norm_num)
  refine ⟨?_, ?_, ?_⟩
  · intro j; funext i
    fin_cases j <;> fin_cases i <;> simp [exEigTwo, exK, mulVec, dotProduct, Fin.sum_univ_two] <;> ring
  · intro j
    fin_cases j <;> simp [exEigTwo, Fin.sum_univ_two, hs] <;> norm_num
  · simp only [exEigTwo, det_fin_two_of]
    field_simp
    rw [hs]; norm_num

/-- Residuals of the values 0 and 1 keep the variance above its floor. -/
theorem exK_floor {a : ℝ} (h0 : 0 < a) (h1 : a < 1) (β : ℝ) : varKMin < maha (exK a) ![-β, 1 - β] / 2 := by
  have hK := exK_posDef (s := a) (by linarith) (by linarith)
  have hd : 0 < 4 - a ^ 2 := by nlinarith
  set w : Vec 2 := ![(-2 * β - a * (1 - β)) / (4 - a ^ 2), (2 * (1 - β) + a * β) / (4 - a ^ 2)] with hw
  have key : exK a *ᵥ w = ![-β, 1 - β] := by
    funext i
    fin_cases i <;> simp [exK, mulVec, dotProduct, Fin.sum_univ_two, hw] <;> field_simp <;> ring
  have hm : maha (exK a) ![-β, 1 - β] = (2 - (4 - 2 * a) * (β * (1 - β))) / (4 - a ^ 2) := by
    unfold maha
    rw [← key, mulVec_mulVec, Matrix.nonsing_inv_mul _ (isUnit_iff_ne_zero.mpr (posDef_detne hK)), one_mulVec, key]
    simp only [dotProduct, Fin.sum_univ_two, hw, cons_val_zero, cons_val_one]
    field_simp
    ring
  rw [hm]
  have hb : β * (1 - β) ≤ 1 / 4 := by nlinarith [sq_nonneg (β - 1 / 2)]
  have hq : 1 ≤ 2 - (4 - 2 * a) * (β * (1 - β)) := by nlinarith
  have : (1 : ℝ) / 4 ≤ (2 - (4 - 2 * a) * (β * (1 - β))) / (4 - a ^ 2) := by
    rw [div_le_div_iff₀ (by norm_num) hd]; nlinarith
  unfold varKMin
  norm_num
  linarith

/-- The environment: the length scale is optimised through its logarithm, the condition number is a constraint. -/
def exEnvTwo (c : ℝ) : LkdEnv where
  lkd := ⟨true, 1, 10, 0, true⟩
  info := hpInfoOf ⟨true, true, true⟩ 1 true (true && kernelHasHp (exGpTwo c).kernel) (exGpTwo c).noisy (!(exGpTwo c).knownFval)
      ((exGpTwo c).useGrad && !(exGpTwo c).knownFgrad)
  useCstr := true
  eig := exEigTwo

theorem exTwo_log : ∀ s, slotLog ⟨true, true, true⟩ s = true := by intro s; cases s <;> rfl

/-- The setting of the examples at a one-entry vector of logarithms. -/
theorem exTwo_vec (c : ℝ) {x : Arr1} (hx : x.n = 1) : ∃ hp R, hpVec2Dataclass (exGpTwo c) (exEnvTwo c).info x = .ok hp ∧
    calcRtensor (exGpTwo c).x (exGpTwo c).x = .ok R ∧ (∀ th, hp.theta = some th → KernSupp (exGpTwo c) th) ∧
    ∃ a, 0 < a ∧ a < 1 ∧ (∀ cc out, lkdCov (exGpTwo c) hp R cc = .ok out → out.Kcov = exK a) ∧ a = Real.exp (-(10 : ℝ) ^ x.get 0) := by
  have hi : setupHpIdx (exGpTwo c) ⟨true, true, true⟩ true = .ok (exEnvTwo c).info := setupHpIdx_ok _ _ _
  obtain ⟨hp, hdec, hadm, hall⟩ := decode_adm (x := x) hi hx (fun h => (nomatch h))
    (fun p s _ h => by rw [exTwo_log s] at h; cases h)
  obtain ⟨R, hR, -⟩ := calcRtensor_ok (X := (exGpTwo c).x) (Y := (exGpTwo c).x) rfl
  obtain ⟨th, hth, -, hpos⟩ := hadm.theta
  have h0 := hpos 0 Nat.one_pos
  have hget : th.get 0 = (10 : ℝ) ^ x.get 0 := by
    obtain ⟨hp2, h1, -, -, h2, -⟩ := C55_decode (exGpTwo c) ⟨true, true, true⟩ true hi x hx
    rw [hdec] at h1; cases h1
    have h3 := h2 0 (.theta 0) rfl
    have h4 : 0 < th.n ∧ th.get 0 = (10 : ℝ) ^ x.get 0 := by simpa [getSlot, hth, natural, exTwo_log] using h3
    exact h4.2
  exact ⟨hp, R, hdec, hR, fun th _ => ⟨fun _ h => (nomatch h), fun h => (nomatch h)⟩, Real.exp (-th.get 0), Real.exp_pos _,
    Real.exp_lt_one_iff.mpr (by linarith), fun cc out ho => exGpTwo_cov c hadm hth hR ho, by rw [hget]⟩

/-- The setting of the examples at a logarithm `x0`. -/
theorem exTwo_setup (c x0 : ℝ) : ∃ hp R, hpVec2Dataclass (exGpTwo c) (exEnvTwo c).info ⟨1, fun _ => x0⟩ = .ok hp ∧
    calcRtensor (exGpTwo c).x (exGpTwo c).x = .ok R ∧ (∀ th, hp.theta = some th → KernSupp (exGpTwo c) th) ∧
    ∃ a, 0 < a ∧ a < 1 ∧ (∀ cc out, lkdCov (exGpTwo c) hp R cc = .ok out → out.Kcov = exK a) ∧ a = Real.exp (-(10 : ℝ) ^ x0) :=
  exTwo_vec c rfl

theorem exTwo_small {a : ℝ} (h0 : 0 < a) (h1 : a < 1) : (2 + a) / (2 - a) < 3 := by
  rw [div_lt_iff₀ (by linarith)]; linarith

-- C32 (with the variance above its floor and the constraint active) and the constraint part of C35
example (x0 : ℝ) (r0) : (∃ gr st', returnOptzGrad (exGpTwo 3) (exEnvTwo 3) ⟨none, r0⟩ ⟨1, fun _ => x0⟩ = .ok (gr, st') ∧
      ∀ p, ∃ f : ℝ → ℝ, (∀ᶠ u in nhds x0, ∃ st', returnOptzVal (exGpTwo 3) (exEnvTwo 3) ⟨none, r0⟩ (setEntry ⟨1, fun _ => x0⟩ (p : Fin (exEnvTwo 3).info.nHp) u) = .ok (f u, st')) ∧
        HasDerivAt f (gr p) x0) ∧
    ∃ gr st', returnCondGrad (exGpTwo 3) (exEnvTwo 3) ⟨none, r0⟩ ⟨1, fun _ => x0⟩ = .ok (some gr, st') ∧
      ∀ p, ∃ f : ℝ → ℝ, (∀ᶠ u in nhds x0, ∃ st', returnCondVal (exGpTwo 3) (exEnvTwo 3) ⟨none, r0⟩ (setEntry ⟨1, fun _ => x0⟩ (p : Fin (exEnvTwo 3).info.nHp) u) = .ok (some (f u), st')) ∧
        HasDerivAt f (gr p) x0 := by
  obtain ⟨hp, R, hdec, hR, hsupp, a, h0, h1, hcov, -⟩ := exTwo_setup 3 x0
  have hi : setupHpIdx (exGpTwo 3) ⟨true, true, true⟩ true = .ok (exEnvTwo 3).info := setupHpIdx_ok _ _ _
  have hc : ∀ out, lkdCov (exGpTwo 3) hp R true = .ok out → condNum (exGpTwo 3).o out.Kcov < (exGpTwo 3).o.condMaxAbs := by
    intro out ho
    rw [hcov _ out ho]
    show cond2 (exK a) < 3
    rw [exK_cond h0 h1]; exact exTwo_small h0 h1
  constructor
  · refine C32_optimiser_gradient (exGpTwo_lkd 3) (env := exEnvTwo 3) hi (fun h => (nomatch h)) rfl
      (fun p s _ h => by rw [exTwo_log s] at h; cases h) hdec hsupp (fun _ => rfl) hR
      (fun _ out ho => ⟨hc out ho, fun h => (nomatch h)⟩) ?_ (CacheReach.init r0)
    intro _ li v hcl hv
    -- the variance reported
    obtain ⟨r, out, A, y, V, hr, hout, hA, hd, hV, F0, li0, gr, hF0, hli0, hgr, hr2, ⟨li1, hcl1, e3⟩, -⟩ :=
      optz_path (exGpTwo_lkd 3) (env := exEnvTwo 3) hi (fun h => (nomatch h)) rfl
        (fun p s _ h => by rw [exTwo_log s] at h; cases h) hdec hsupp (fun _ => rfl) hR (fun _ out ho => ⟨hc out ho, fun h => (nomatch h)⟩)
    rw [hcl] at hcl1; cases hcl1
    obtain ⟨y', V', hd', -, hy', hV'⟩ := lkdData_ok (exGpTwo_ok 3) Nat.two_pos
    rw [hd] at hd'; cases hd'
    obtain ⟨r2, k1, k2, k3, -⟩ := lkdWoNoise_ok (exEnvTwo 3).lkd (exGpTwo 3).fval hF0 hV y
      (some (toSlabs (exEnvTwo 3).info.nHp (exGpTwo 3).nData A)) (exEnvTwo 3).lkd.useAdj
    have hb : lkdBody (exGpTwo 3) (exEnvTwo 3) y V F0 (some (toSlabs (exEnvTwo 3).info.nHp (exGpTwo 3).nData A)) = .ok r2 := k1
    rw [hli0] at hb; cases hb
    rw [e3, k3] at hv
    cases hv
    have hco := hcov _ out hout
    have hz : y - V *ᵥ gls out.Kcov V y = (![-(gls out.Kcov V y ⟨0, Nat.one_pos⟩), 1 - gls out.Kcov V y ⟨0, Nat.one_pos⟩] : Vec 2) := by
      have hVe : ∀ i : Fin 2, (V *ᵥ gls out.Kcov V y) i = gls out.Kcov V y ⟨0, Nat.one_pos⟩ := by
        intro i
        have : (V *ᵥ gls out.Kcov V y) i = ∑ j : Fin 1, V i j * gls out.Kcov V y j := rfl
        rw [this, Fin.sum_univ_one, show V i (0 : Fin 1) = 1 from (hV' i _).trans (if_pos i.2), one_mul]
        rfl
      have hye : ∀ i : Fin 2, y i = (i : ℕ) := fun i => hy'.val i i.2
      funext i
      have hfin : ∀ (b : ℝ) (i : Fin 2), ((i : ℕ) : ℝ) - b = ![-b, 1 - b] i := by intro b i; fin_cases i <;> simp
      exact (congrArg₂ (· - ·) (hye i) (hVe i)).trans (hfin _ i)
    refine lt_max_of_lt_right ?_
    have := exK_floor h0 h1 (gls out.Kcov V y ⟨0, Nat.one_pos⟩)
    unfold rss
    rw [hz]
    rw [hco] at this ⊢
    exact this
  · refine C35_constraint_gradient (exGpTwo_lkd 3) (env := exEnvTwo 3) hi (fun h => (nomatch h)) rfl
      (fun p s _ h => by rw [exTwo_log s] at h; cases h) hdec hsupp rfl rfl hR ?_ (CacheReach.init r0)
    intro out ho
    refine ⟨hc out ho, ?_⟩
    rw [if_neg (show ¬ (exGpTwo 3).o.fro = true from Bool.false_ne_true), hcov _ out ho]
    exact ⟨exEigTwo_ok a, 2 + a, 2 - a, (exK_top h0).1, (exK_bot h0).1, (exK_top h0).2, (exK_bot h0).2, by norm_num; linarith⟩

-- C34: with threshold 1 the factorisation is refused everywhere
example (x0 : ℝ) (r0) : ∃ gr c st1 st2, 1 < c ∧ returnOptzVal (exGpTwo 1) (exEnvTwo 1) ⟨none, r0⟩ ⟨1, fun _ => x0⟩ = .ok (c, st1) ∧
    returnOptzGrad (exGpTwo 1) (exEnvTwo 1) ⟨none, r0⟩ ⟨1, fun _ => x0⟩ = .ok (gr, st2) ∧
    ∀ p : Fin (exEnvTwo 1).info.nHp, ∃ f : ℝ → ℝ,
      (∀ᶠ u in nhds x0, ∃ st', returnOptzVal (exGpTwo 1) (exEnvTwo 1) ⟨none, r0⟩ (setEntry ⟨1, fun _ => x0⟩ p u) = .ok (f u, st')) ∧
        HasDerivAt f (gr p * ((10 : ℝ) ^ x0 * Real.log 10)) x0 := by
  obtain ⟨hp, R, hdec, hR, hsupp, a, h0, h1, hcov, -⟩ := exTwo_setup 1 x0
  have hi : setupHpIdx (exGpTwo 1) ⟨true, true, true⟩ true = .ok (exEnvTwo 1).info := setupHpIdx_ok _ _ _
  obtain ⟨hp', hdec', hadm, hall⟩ := decode_adm (x := ⟨1, fun _ => x0⟩) hi rfl (fun h => (nomatch h))
    (fun p s _ h => by rw [exTwo_log s] at h; cases h)
  have hpe : hp' = hp := Except.ok.inj (hdec'.symm.trans hdec)
  subst hpe
  obtain ⟨out, -, hout, -⟩ := lkd_pieces (exGpTwo_lkd 1) hi hadm hall (fun th ht => GP.KernSupp.thSupp (hsupp th ht)) hR true
  have hc : 1 < condNum (exGpTwo 1).o out.Kcov := by
    rw [hcov _ out hout]
    show 1 < cond2 (exK a)
    rw [exK_cond h0 h1, lt_div_iff₀ (by linarith)]; linarith
  obtain ⟨gr, st1, st2, k1, k2, k3⟩ := C34_failing_objective_partial (exGpTwo_lkd 1) (env := exEnvTwo 1) hi (fun h => (nomatch h)) rfl
    (fun p s _ h => by rw [exTwo_log s] at h; cases h) hdec hsupp rfl rfl rfl hR hout hc (CacheReach.init r0)
  refine ⟨gr, _, st1, st2, hc, k1, k2, fun p => ?_⟩
  have hlog : logFactor (exEnvTwo 1).info ⟨1, fun _ => x0⟩ p = (10 : ℝ) ^ x0 * Real.log 10 := by
    have hp0 : (p : ℕ) = 0 := Nat.lt_one_iff.mp p.2
    rw [hp0, logFactor_eq hi (s := .theta 0) rfl, exTwo_log, if_pos rfl]
  obtain ⟨f, f1, f2⟩ := k3 (by rw [hcov _ out hout]; exact exEigTwo_ok a) (2 + a) (2 - a) (by rw [hcov _ out hout]; exact (exK_top h0).1)
    (by rw [hcov _ out hout]; exact (exK_bot h0).1) (by rw [hcov _ out hout]; exact (exK_top h0).2)
    (by rw [hcov _ out hout]; exact (exK_bot h0).2) (by norm_num; linarith) p
  rw [hlog] at f2
  exact ⟨f, f1, f2⟩

-- C34: at `log10 θ = 0` the gradient callback's answer is not the derivative of the objective callback's
example (r0) : ∃ gr st2, returnOptzGrad (exGpTwo 1) (exEnvTwo 1) ⟨none, r0⟩ ⟨1, fun _ => 0⟩ = .ok (gr, st2) ∧
    ∀ p : Fin (exEnvTwo 1).info.nHp, ∀ f : ℝ → ℝ,
      (∀ᶠ u in nhds 0, ∃ st', returnOptzVal (exGpTwo 1) (exEnvTwo 1) ⟨none, r0⟩ (setEntry ⟨1, fun _ => 0⟩ p u) = .ok (f u, st')) →
        ¬ HasDerivAt f (gr p) 0 := by
  have hi : setupHpIdx (exGpTwo 1) ⟨true, true, true⟩ true = .ok (exEnvTwo 1).info := setupHpIdx_ok _ _ _
  have hl10 : 1 < Real.log 10 := by
    rw [Real.lt_log_iff_exp_lt (by norm_num)]; have := Real.exp_one_lt_d9; linarith
  -- the objective at any one-entry vector
  have hobj : ∀ x : Arr1, x.n = 1 → ∃ hp R out a, 0 < a ∧ a < 1 ∧ a = Real.exp (-(10 : ℝ) ^ x.get 0) ∧
      hpVec2Dataclass (exGpTwo 1) (exEnvTwo 1).info x = .ok hp ∧ (∀ th, hp.theta = some th → KernSupp (exGpTwo 1) th) ∧
      calcRtensor (exGpTwo 1).x (exGpTwo 1).x = .ok R ∧ lkdCov (exGpTwo 1) hp R true = .ok out ∧ out.Kcov = exK a ∧
      1 < condNum (exGpTwo 1).o out.Kcov ∧ condNum (exGpTwo 1).o out.Kcov = (2 + a) / (2 - a) := by
    intro x hx
    obtain ⟨hp, R, hdec, hR, hsupp, a, h0, h1, hcov, ha⟩ := exTwo_vec 1 hx
    obtain ⟨hp', hdec', hadm, hall⟩ := decode_adm (x := x) hi hx (fun h => (nomatch h))
      (fun p s _ h => by rw [exTwo_log s] at h; cases h)
    have hpe : hp' = hp := Except.ok.inj (hdec'.symm.trans hdec)
    subst hpe
    obtain ⟨out, -, hout, -⟩ := lkd_pieces (exGpTwo_lkd 1) hi hadm hall (fun th ht => GP.KernSupp.thSupp (hsupp th ht)) hR true
    have hc : condNum (exGpTwo 1).o out.Kcov = (2 + a) / (2 - a) := by
      rw [hcov _ out hout]
      show cond2 (exK a) = _
      exact exK_cond h0 h1
    refine ⟨hp', R, out, a, h0, h1, ha, hdec, hsupp, hR, hout, hcov _ out hout, ?_, hc⟩
    rw [hc, lt_div_iff₀ (by linarith)]; linarith
  obtain ⟨hp, R, out, a, h0, h1, ha, hdec, hsupp, hR, hout, hcov, hfail, -⟩ := hobj ⟨1, fun _ => 0⟩ rfl
  obtain ⟨gr, st1, st2, k1, k2, k3⟩ := C34_failing_objective_partial (exGpTwo_lkd 1) (env := exEnvTwo 1) hi (fun h => (nomatch h)) rfl
    (fun p s _ h => by rw [exTwo_log s] at h; cases h) hdec hsupp rfl rfl rfl hR hout hfail (CacheReach.init r0)
  have e1 : EigOk out.Kcov ((exEnvTwo 1).eig (exGpTwo 1).nData out.Kcov) := by rw [hcov]; exact exEigTwo_ok a
  have e2 : IsMaxEig out.Kcov (2 + a) := by rw [hcov]; exact (exK_top h0).1
  have e3 : IsMinEig out.Kcov (2 - a) := by rw [hcov]; exact (exK_bot h0).1
  have e4 : SimpleEig out.Kcov (2 + a) := by rw [hcov]; exact (exK_top h0).2
  have e5 : SimpleEig out.Kcov (2 - a) := by rw [hcov]; exact (exK_bot h0).2
  have e6 : 1 / 10 ^ 16 ≤ 2 - a := by norm_num; linarith
  refine ⟨gr, st2, k2, fun p f hf => ?_⟩
  have hp0 : (p : ℕ) = 0 := Nat.lt_one_iff.mp p.2
  have hps : (gpSlots (exGpTwo 1) true)[(p : ℕ)]? = some (.theta 0) := by rw [hp0]; rfl
  refine C34_gradient_discrepancy (exGpTwo_lkd 1) (env := exEnvTwo 1) hi (fun h => (nomatch h)) (x := ⟨1, fun _ => 0⟩) rfl
    (fun p s _ h => by rw [exTwo_log s] at h; cases h) hdec hsupp rfl rfl rfl hR hout hfail (CacheReach.init r0) e1 e2 e3 e4 e5 e6 k2 p
    hps (exTwo_log _) ?_ ?_ hf
  · -- the entry returned is not zero: the objective is `(2 + a) / (2 - a)` with `a = exp (-10 ^ u)`
    obtain ⟨F, f1, f2⟩ := k3 e1 _ _ e2 e3 e4 e5 e6 p
    intro hz
    rw [hz, zero_mul] at f2
    have hA : HasDerivAt (fun u : ℝ => Real.exp (-(10 : ℝ) ^ u)) (Real.exp (-(10 : ℝ) ^ (0 : ℝ)) * -((10 : ℝ) ^ (0 : ℝ) * Real.log 10)) 0 := by
      have h1 := (Real.hasStrictDerivAt_const_rpow (a := 10) (by norm_num) 0).hasDerivAt
      exact h1.neg.exp
    have hB : HasDerivAt (fun u : ℝ => (2 + Real.exp (-(10 : ℝ) ^ u)) / (2 - Real.exp (-(10 : ℝ) ^ u))) _ 0 :=
      (hA.const_add 2).div (hA.const_sub 2) (by rw [← ha]; linarith)
    have hC : HasDerivAt (fun u : ℝ => (2 + Real.exp (-(10 : ℝ) ^ u)) / (2 - Real.exp (-(10 : ℝ) ^ u))) 0 0 := by
      refine f2.congr_of_eventuallyEq ?_
      filter_upwards [f1] with u ⟨st', hu⟩
      obtain ⟨hp', R', out', a', g0, g1, ga, gdec, gsupp, gR, gout, -, gfail, gc⟩ := hobj (setEntry ⟨1, fun _ => 0⟩ p u) rfl
      obtain ⟨_, _, _, m1, -⟩ := C34_failing_objective_partial (exGpTwo_lkd 1) (env := exEnvTwo 1) hi (fun h => (nomatch h)) rfl
        (fun p s _ h => by rw [exTwo_log s] at h; cases h) gdec gsupp rfl rfl rfl gR gout gfail (CacheReach.init r0)
      rw [hu] at m1
      have m2 := (Prod.mk.inj (Except.ok.inj m1)).1
      have m3 : (setEntry ⟨1, fun _ => 0⟩ p u).get 0 = u := by simp [setEntry, hp0]
      rw [m3] at ga
      rw [m2, gc, ga]
    have := hB.unique hC
    rw [div_eq_zero_iff] at this
    have ha' : Real.exp (-(10 : ℝ) ^ (0 : ℝ)) = a := ha.symm
    rw [ha', Real.rpow_zero] at this
    rcases this with h | h
    · have : a * Real.log 10 = 0 := by linear_combination (-1 / 4) * h
      exact (mul_pos h0 (by linarith)).ne' this
    · exact (pow_pos (by linarith : 0 < 2 - a) 2).ne' h
  · show (10 : ℝ) ^ (0 : ℝ) * Real.log 10 ≠ 1
    rw [Real.rpow_zero, one_mul]; exact hl10.ne'

-- C34: with threshold 3 no factorisation is refused, with threshold 1 all are
example (c x0 : ℝ) : ∃ hp R out, hpVec2Dataclass (exGpTwo c) (exEnvTwo c).info ⟨1, fun _ => x0⟩ = .ok hp ∧
    lkdCov (exGpTwo c) hp R true = .ok out ∧ (out.chofac = none ↔ c < condNum (exGpTwo c).o out.Kcov) := by
  have hi : setupHpIdx (exGpTwo c) ⟨true, true, true⟩ true = .ok (exEnvTwo c).info := setupHpIdx_ok _ _ _
  obtain ⟨hp, R, hdec, hR, -⟩ := exTwo_setup c x0
  obtain ⟨hp', hdec', hadm, -⟩ := decode_adm (x := ⟨1, fun _ => x0⟩) hi rfl (fun h => (nomatch h))
    (fun p s _ h => by rw [exTwo_log s] at h; cases h)
  have hpe : hp' = hp := Except.ok.inj (hdec'.symm.trans hdec)
  subst hpe
  have H := exGpTwo_lkd c
  obtain ⟨out, h1, h2⟩ := C34_failure_iff H.ok hadm H.noise H.precon H.ne (by rw [if_pos H.const]; exact H.eta) (fun h => (nomatch h)) hR true
  exact ⟨hp', R, out, hdec, h1, h2.trans ⟨fun h => h.2.2, fun h => ⟨rfl, rfl, h⟩⟩⟩

end Props
