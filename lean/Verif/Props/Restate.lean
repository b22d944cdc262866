import Verif.Proofs.Restate
import Verif.Props.LkdAll
import Verif.Props.LkdAllEx

/-! Property C100: the likelihood does not depend on the order, the origin or the units of the data. -/

open Np GP Spec Matrix

noncomputable section

namespace Props

/-- What `calc_lkd_all` returns without gradients. -/
theorem lkd_form {g : Gp} (hg : GpOk g) {hp : HpVals} (hh : HpAdm g hp) (hk : g.useGrad = true ∨ g.knownFval = true)
    (hprec : g.o.precon = true → g.useGrad = true) (hne : 0 < g.nEval) (hη : if g.o.etaConst then 0 < g.o.etaK else 1 < g.o.condMaxTarget)
    (env : LkdEnv) (cc : Bool) {v : ℝ} (hv : 0 < v) (hvk : (vkArg g).or hp.varK = some v) :
    ∃ Na K out y V li, NoiseSpec g hp Na ∧ IsKern g hp K ∧ K.PosSemidef ∧ (∀ i, 0 < K i i) ∧ (∀ i, 0 ≤ toVec g.nData Na i) ∧
      CovSpec g.o v K (toVec g.nData Na) true cc out ∧ 0 < out.etaK ∧ out.Kcov.PosDef ∧ DataSpec g y ∧ FullRank V ∧
      (∀ (q : Fin g.nData) (j : Fin nBetaCoeff), V q j = if (q : ℕ) < g.nEval then 1 else 0) ∧
      calcLkdAll g env hp cc false = .ok (li, out.chofac.isSome) ∧
      (out.chofac.isSome = true ↔ (cc = true → g.o.precon = false → condNum g.o out.Kcov ≤ g.o.condMaxAbs)) ∧
      li.cond = (if out.chofac.isSome || g.noisy then out.condK else some (cond2 out.Kcov)) ∧
      (out.chofac.isSome = true → li.beta = some (gls out.Kcov V y) ∧
        (g.noisy = true → li.lnLkd = some (-(Real.log out.Kcov.det + rss out.Kcov V y) / 2)) ∧
        (g.noisy = false → li.varK = some (varOf out.Kcov V y) ∧ li.lnLkd = some (lkdOf env.lkd g.fval out.Kcov V y))) := by
  obtain ⟨R, hR, -⟩ := calcRtensor_ok (X := g.x) (Y := g.x) rfl
  obtain ⟨Na, K, out, h1, h2, h3, h4, h5, h6, h7, h8⟩ := calcAllK_ok hg hh hk hprec hne hR true cc (vkArg g) false hv
    ⟨⟨v, hvk, fun _ => rfl⟩, fun h => by cases h⟩
  rw [← lkdCov_eq] at h7
  obtain ⟨y, V, hd, hV, hy, hVe⟩ := lkdData_ok hg hne
  have hn : 0 < g.nData := by rw [hg.nData]; omega
  have hNn := NoiseSpec.nonneg hg hh h2
  have hpos := nugget_pos hv hn h5 hNn hη (cov_nugget hv hn h8)
  have hpd := h8.posDef hv h4 h5 hNn hpos
  have hiff : out.chofac.isSome = true ↔ (cc = true → g.o.precon = false → condNum g.o out.Kcov ≤ g.o.condMaxAbs) := by
    constructor
    · intro h hc hp
      obtain ⟨F, hF⟩ := Option.isSome_iff_exists.mp h
      exact h8.facCond hp F hF hc
    · intro h
      obtain ⟨F, hF⟩ := h8.facSome rfl h hpd
      rw [hF]; rfl
  cases hf : out.chofac with
  | none =>
    refine ⟨Na, K, out, y, V, if g.noisy then { cond := out.condK } else { cond := some (cond2 out.Kcov) }, h2, h3, h4, h5, hNn, h8, hpos, hpd, hy, hV, hVe, ?_, ?_, ?_, ?_⟩
    · unfold calcLkdAll
      simp only [hR, ok_bind, h7, kcovGradIf, Bool.false_eq_true, if_false, hf, condL2WGrad, setCond, Bool.and_false, pure_eq_ok]
      cases g.noisy <;> simp
    · exact hiff
    · rw [hf]; cases g.noisy <;> simp
    · rw [hf]; intro h; cases h
  | some F =>
    obtain ⟨f1, f2, f3⟩ := h8.fac F hf
    have hF : FacOf F out.Kcov := ⟨f1, f3, f2⟩
    have hbody : ∃ li : LkdInfo nBetaCoeff env.info.nHp, lkdBody g env y V F none = .ok li ∧ li.beta = some (gls out.Kcov V y) ∧
        (g.noisy = true → li.lnLkd = some (-(Real.log out.Kcov.det + rss out.Kcov V y) / 2)) ∧
        (g.noisy = false → li.varK = some (varOf out.Kcov V y) ∧ li.lnLkd = some (lkdOf env.lkd g.fval out.Kcov V y)) := by
      unfold lkdBody
      cases hno : g.noisy with
      | true =>
        obtain ⟨r, h1, h2, -, h3, -⟩ := lkdWNoise_ok (m := env.info.nHp) hF hV y none env.lkd.useAdj
        exact ⟨r, by simpa using h1, h2, fun _ => h3, fun h => by cases h⟩
      | false =>
        obtain ⟨r, h1, h2, h3, -, h4, -⟩ := lkdWoNoise_ok (m := env.info.nHp) env.lkd g.fval hF hV y none env.lkd.useAdj
        exact ⟨r, by simpa using h1, h2, fun h => (by cases h), fun _ => ⟨h3, h4⟩⟩
    obtain ⟨li, l1, l2, l3, l4⟩ := hbody
    refine ⟨Na, K, out, y, V, { li with cond := out.condK }, h2, h3, h4, h5, hNn, h8, hpos, hpd, hy, hV, hVe, ?_, ?_, ?_, ?_⟩
    · unfold calcLkdAll
      simp only [hR, ok_bind, h7, kcovGradIf, Bool.false_eq_true, if_false, hf, hd, l1, setCond, Bool.and_false, pure_eq_ok, Option.isSome_some]
    · exact hiff
    · rw [hf]; simp
    · intro _; exact ⟨l2, l3, l4⟩

section
variable {n n' k : ℕ} (ρ : Fin n ≃ Fin n') {K : Mat n n} {K' : Mat n' n'} {V : Mat n k} {V' : Mat n' k} {y : Vec n} {y' : Vec n'} {u : ℝ} {c : Vec k}

theorem noisy_restated (hu : u ≠ 0) (hK : K'.submatrix ρ ρ = u ^ 2 • K) (hpd : K.PosDef) (hV : V'.submatrix ρ id = V) (hr : FullRank V)
    (hy : y' ∘ ρ = u • y + V *ᵥ c) :
    -(Real.log K'.det + rss K' V' y') / 2 = -(Real.log K.det + rss K V y) / 2 - n * Real.log |u| := by
  have hu2 : 0 < u ^ 2 := by positivity
  rw [rss_perm ρ hu2 hpd hK hV hr hy, det_perm ρ hK, div_self hu2.ne', one_mul, Real.log_mul (by positivity) hpd.det_pos.ne', Real.log_pow,
    Real.log_pow, ← Real.log_abs u]
  push_cast
  ring

theorem varOf_restated (hK : K'.submatrix ρ ρ = (1 : ℝ) • K) (hpd : K.PosDef) (hV : V'.submatrix ρ id = V) (hr : FullRank V)
    (hy : y' ∘ ρ = u • y + V *ᵥ c) (h : |u| = 1 ∨ varKMin < varOf K V y ∧ varKMin ≤ u ^ 2 * varOf K V y) :
    varOf K' V' y' = u ^ 2 * varOf K V y := by
  have hnn : n' = n := by simpa using (Fintype.card_congr ρ).symm
  have hrss := rss_perm ρ one_pos hpd hK hV hr hy
  have hvar : varOf K' V' y' = max varKMin (u ^ 2 * (rss K V y / n)) := by
    unfold varOf
    rw [hrss, div_one, mul_div_assoc, hnn]
  rw [hvar]
  rcases h with h1 | ⟨h1, h2⟩
  · have h2 : u ^ 2 = 1 := by rw [← sq_abs, h1, one_pow]
    unfold varOf
    rw [h2, one_mul, one_mul]
  · have e : varOf K V y = rss K V y / n := by
      unfold varOf at h1 ⊢
      rcases lt_max_iff.mp h1 with h | h
      · exact absurd h (lt_irrefl _)
      · exact max_eq_right h.le
    rw [e] at h2 ⊢
    exact max_eq_right h2

theorem lkdOf_restated (hu : u ≠ 0) (hK : K'.submatrix ρ ρ = (1 : ℝ) • K) (hpd : K.PosDef) (hV : V'.submatrix ρ id = V) (hr : FullRank V)
    (hy : y' ∘ ρ = u • y + V *ᵥ c) {o : LkdOpts} {f f' : Arr1} (hf : npVar f' = u ^ 2 * npVar f)
    (h : |u| = 1 ∨ o.pnltUse = false ∧ varKMin < varOf K V y ∧ varKMin ≤ u ^ 2 * varOf K V y) :
    lkdOf o f' K' V' y' = lkdOf o f K V y - n * Real.log |u| := by
  have hu2 : 0 < u ^ 2 := by positivity
  have hnn : n' = n := by simpa using (Fintype.card_congr ρ).symm
  have e1 := varOf_restated ρ hK hpd hV hr hy (h.imp_right And.right)
  have e2 : (varKPnlt o (varOf K' V' y') f').1 = (varKPnlt o (varOf K V y) f).1 := by
    rcases h with h | ⟨h, -⟩
    · have h2 : u ^ 2 = 1 := by rw [← sq_abs, h, one_pow]
      unfold varKPnlt
      rw [e1, hf, h2, one_mul, one_mul]
    · unfold varKPnlt
      rw [h]; rfl
  unfold lkdOf
  rw [e2, e1, det_perm ρ hK, one_pow, one_mul, Real.log_mul hu2.ne' (varOf_pos _ _ _).ne', Real.log_pow, ← Real.log_abs u, hnn]
  push_cast
  ring

end

theorem noise_zero {g : Gp} (hg : GpOk g) {hp : HpVals} (hno : g.noisy = false) {Na : Arr1} (h : NoiseSpec g hp Na) : toVec g.nData Na = 0 := by
  have hzero : (g.fvalZero && g.fgradZero) = true := by
    have := hg.noisy
    rw [hno] at this
    simpa using this.symm
  funext q
  obtain ⟨hs1, hq⟩ := dIx_spec hg q
  show Na.get q = 0
  cases hx : dIx g q with
  | v p => rw [hx] at hs1 hq; rw [← hq]; exact (h.val p hs1).trans (by simp only [valVar, hzero, if_true])
  | g i a => rw [hx] at hs1 hq; rw [← hq]; exact (h.grad i hs1.1 a hs1.2).trans (by simp only [gradVar, hzero, if_true])

theorem beta_const (w : Vec nBetaCoeff) (u b : ℝ) : ∃ β, some w = some (fun _ => β) ∧ some (u • w + fun _ => b) = some (fun _ => u * β + b) := by
  have h : ∀ i : Fin nBetaCoeff, w i = w ⟨0, Nat.one_pos⟩ := fun i => congrArg w (Subsingleton.elim (α := Fin 1) i _)
  refine ⟨w ⟨0, Nat.one_pos⟩, congrArg some (funext h), congrArg some (funext fun i => ?_)⟩
  rw [Pi.add_apply, Pi.smul_apply, h i, smul_eq_mul]

/-- **C100.** The same data in another order, with all points shifted, and with the values in other units and from another zero (factor
`u`, offset `b`), and the hyperparameters in the new units: the covariance matrix can be factorised in both cases or in neither, the
condition number is the same, the fitted mean is the old one in the new units, and the log likelihood changes by `-n log |u|` where `n` is
the number of data; without noise the fitted process variance is the old one in the new units.
Without noise and if the units change (`|u| ≠ 1`), the statement on the likelihood needs that the variance penalty is off and that the
fitted variances are above the floor `varKMin` of the code (see `C100_penalty_units_discrepancy`). -/
theorem C100_likelihood {π τ : Equiv.Perm ℕ} {c : Pt} {u b : ℝ} {g : Gp} {D : DataSet} (hg : GpOk g) (hg' : GpOk (withData g D)) (hu : u ≠ 0)
    (h : Restated π τ c u b g D) {hp : HpVals} (hh : HpAdm g hp) (hk : g.useGrad = true ∨ g.knownFval = true)
    (hprec : g.o.precon = true → g.useGrad = true) (hne : 0 < g.nEval) (hη : if g.o.etaConst then 0 < g.o.etaK else 1 < g.o.condMaxTarget)
    (hv : g.noisy = true → ∃ v, hp.varK = some v ∧ 0 < v) (env : LkdEnv) (cc : Bool) :
    ∃ li li' ok, calcLkdAll g env hp cc false = .ok (li, ok) ∧ calcLkdAll (withData g D) env (unitsHp u hp) cc false = .ok (li', ok) ∧
      li'.cond = li.cond ∧ (cc = false → ok = true) ∧ (ok = true → ∃ l β, li.lnLkd = some l ∧ li.beta = some (fun _ => β) ∧
        li'.beta = some (fun _ => u * β + b) ∧
        (g.noisy = false → ∃ w, li.varK = some w ∧ (|u| = 1 ∨ varKMin < w ∧ varKMin ≤ u ^ 2 * w → li'.varK = some (u ^ 2 * w))) ∧
        (g.noisy = true ∨ |u| = 1 ∨ env.lkd.pnltUse = false ∧ (∀ w, li.varK = some w → varKMin < w ∧ varKMin ≤ u ^ 2 * w) →
          li'.lnLkd = some (l - g.nData * Real.log |u|))) := by
  have hu2 : 0 < u ^ 2 := by positivity
  have hnd : 0 < g.nData := by rw [hg.nData]; omega
  -- effective variances
  obtain ⟨v, s, hv0, hs0, hvk, hvk', hsN⟩ : ∃ v s, 0 < v ∧ 0 < s ∧ (vkArg g).or hp.varK = some v ∧
      (vkArg (withData g D)).or (unitsHp u hp).varK = some (s * v) ∧ s = if g.noisy then u ^ 2 else 1 := by
    cases hno : g.noisy with
    | true =>
      obtain ⟨v, h1, h2⟩ := hv hno
      have e : (withData g D).noisy = true := hno
      exact ⟨v, u ^ 2, h2, hu2, by simp [vkArg, hno, h1], by simp [vkArg, e, unitsHp, h1], by simp⟩
    | false =>
      have e : (withData g D).noisy = false := hno
      exact ⟨1, 1, one_pos, one_pos, by simp [vkArg, hno], by simp [vkArg, e], by simp⟩
  obtain ⟨Na, K, out, y, V, li, a1, a2, a3, a4, a5, a6, a7, a8, a9, a10, a11, a12, a13, a14, a15⟩ :=
    lkd_form hg hh hk hprec hne hη env cc hv0 hvk
  obtain ⟨Na', K', out', y', V', li', b1, b2, b3, b4, b5, b6, b7, b8, b9, b10, b11, b12, b13, b14, b15⟩ :=
    lkd_form hg' (unitsHp_adm hu hh) hk hprec hne hη env cc (mul_pos hs0 hv0) hvk'
  set ρ := rowEq hg hu h with hρ
  have hK : K'.submatrix ρ ρ = K := kern_restated hg hg' hu h hh a2 b2
  have hN : (toVec (withData g D).nData Na') ∘ ρ = s • toVec g.nData Na := by
    rw [hρ, noise_restated hg hg' hu h hh a1 b1, hsN]
    cases hno : g.noisy with
    | true => simp
    | false => rw [noise_zero hg hno a1]; simp
  obtain ⟨hE, hC⟩ := cov_restated (o := g.o) ρ hv0 hs0 hK hN a6 b6
  have hcK : out'.condK = out.condK := condK_restated (o := g.o) ρ hv0 hs0 hnd hK hN a6 b6 a3 a4 a5 a7
  have hcN : ∀ o : CondOpts, condNum o out'.Kcov = condNum o out.Kcov := fun o => condNum_restated ρ hs0 hnd a8 hC
  have hc2 : cond2 out'.Kcov = cond2 out.Kcov := by
    have := hcN { g.o with fro := false }
    simpa [condNum] using this
  have hok : out'.chofac.isSome = out.chofac.isSome := by
    rw [Bool.eq_iff_iff, a13, b13]
    show (cc = true → g.o.precon = false → condNum g.o out'.Kcov ≤ g.o.condMaxAbs) ↔ _
    rw [hcN]
  obtain ⟨hVV, hyy⟩ := vec_restated hg hg' hu h a9 b9 a11 b11
  rw [← hρ] at hVV hyy
  refine ⟨li, li', out.chofac.isSome, a12, by rw [← hok]; exact b12, ?_, fun hc => a13.mpr fun hc' => (by rw [hc] at hc'; cases hc'), fun hS => ?_⟩
  · rw [a14, b14, hok, hcK, hc2]; rfl
  obtain ⟨p1, p2, p3⟩ := a15 hS
  obtain ⟨q1, q2, q3⟩ := b15 (by rw [hok]; exact hS)
  have hgls := gls_perm ρ hs0 a8 hC hVV a10 hyy
  have hbeta : ∃ β, li.beta = some (fun _ => β) ∧ li'.beta = some (fun _ => u * β + b) := by
    rw [p1, q1, hgls]
    exact beta_const _ _ _
  obtain ⟨β, hβ, hβ'⟩ := hbeta
  cases hno : g.noisy with
  | true =>
    rw [hno, if_pos rfl] at hsN
    refine ⟨_, _, p2 hno, hβ, hβ', fun h => by (cases h), fun _ => ?_⟩
    rw [hsN] at hC
    rw [q2 hno, noisy_restated ρ hu hC a8 hVV a10 hyy]
  | false =>
    rw [hno] at hsN
    simp only [Bool.false_eq_true, if_false] at hsN
    rw [hsN] at hC
    obtain ⟨p4, p5⟩ := p3 hno
    obtain ⟨q4, q5⟩ := q3 hno
    have hfn : D.fval.n = g.fval.n := by rw [hg.fval_n]; exact hg'.fval_n
    have hnv : npVar (withData g D).fval = u ^ 2 * npVar g.fval := by
      refine npVar_perm (f' := D.fval) (π := π) (b := b) hfn ?_ ?_
      · rw [hg.fval_n]; exact h.pt_lt
      · rw [hg.fval_n]; exact h.fval
    refine ⟨_, _, p5, hβ, hβ', fun _ => ⟨_, p4, fun hw => ?_⟩, fun hw => ?_⟩
    · rw [q4, varOf_restated ρ hC a8 hVV a10 hyy hw]
    · rw [q5, lkdOf_restated ρ hu hC a8 hVV a10 hyy hnv (by
        rcases hw with hw | hw | hw
        · cases hw
        · exact .inl hw
        · exact .inr ⟨hw.1, hw.2 _ p4⟩)]

/-- With the variance penalty switched on the change of units is not a constant: in units `u` the penalty is `u⁶` times as large. -/
theorem C100_penalty_units_discrepancy {π τ : Equiv.Perm ℕ} {c : Pt} {u b : ℝ} {g : Gp} {D : DataSet} (hg : GpOk g) (hg' : GpOk (withData g D))
    (hu : u ≠ 0) (h : Restated π τ c u b g D) (o : LkdOpts) (ho : o.pnltUse = true) (h1 : o.pnltLbVar ≤ npVar g.fval)
    (h2 : o.pnltLbVar ≤ u ^ 2 * npVar g.fval) (w : ℝ) :
    (varKPnlt o (u ^ 2 * w) (withData g D).fval).1 = u ^ 6 * (varKPnlt o w g.fval).1 := by
  have hu2 : 0 < u ^ 2 := by positivity
  have hfn : D.fval.n = g.fval.n := by rw [hg.fval_n]; exact hg'.fval_n
  have hnv : npVar (withData g D).fval = u ^ 2 * npVar g.fval := by
    refine npVar_perm (f' := D.fval) (π := π) (b := b) hfn ?_ ?_
    · rw [hg.fval_n]; exact h.pt_lt
    · rw [hg.fval_n]; exact h.fval
  unfold varKPnlt
  rw [ho, hnv]
  simp only [if_true]
  rw [max_eq_left h1, max_eq_left h2, show u ^ 2 * w - o.pnltC2 * (u ^ 2 * npVar g.fval) = u ^ 2 * (w - o.pnltC2 * npVar g.fval) by ring]
  have : max (u ^ 2 * (w - o.pnltC2 * npVar g.fval)) 0 = u ^ 2 * max (w - o.pnltC2 * npVar g.fval) 0 := by
    rw [mul_max_of_nonneg _ _ hu2.le, mul_zero]
  rw [this]
  ring

/-! ### The objective of the optimiser -/

theorem lkdWNoise_varK {n k m : ℕ} {y : Vec n} {V : Mat n k} {F : ChoFac n} {dK : Option (Fin m → Mat n n)} {adj : Bool} {r : LkdInfo k m}
    (h : lkdWNoise y V F dK true adj = .ok r) : r.varK = none := by
  unfold lkdWNoise at h
  obtain ⟨fit, -, h⟩ := bind_eq_ok h
  simp only [if_true] at h
  split at h <;> cases h <;> rfl

/-- Asking for gradients changes no value. -/
theorem lkd_true_false {g : Gp} (hg : GpOk g) {hp : HpVals} (hh : HpAdm g hp) (hk : g.useGrad = true ∨ g.knownFval = true)
    (hprec : g.o.precon = true → g.useGrad = true) (hne : 0 < g.nEval) (hη : if g.o.etaConst then 0 < g.o.etaK else 1 < g.o.condMaxTarget)
    (hv : g.noisy = true → ∃ v, hp.varK = some v ∧ 0 < v) (env : LkdEnv) {cc : Bool} {li : LkdInfo nBetaCoeff env.info.nHp} {okk : Bool}
    (h : calcLkdAll g env hp cc true = .ok (li, okk)) :
    ∃ li', calcLkdAll g env hp cc false = .ok (li', okk) ∧ li'.lnLkd = li.lnLkd ∧ li'.varK = li.varK ∧ li'.beta = li.beta ∧
      (okk = false → li'.cond = li.cond) := by
  obtain ⟨v, hv0, hvk⟩ : ∃ v, 0 < v ∧ (vkArg g).or hp.varK = some v := by
    cases hno : g.noisy with
    | true => obtain ⟨v, h1, h2⟩ := hv hno; exact ⟨v, h2, by simp [vkArg, hno, h1]⟩
    | false => exact ⟨1, one_pos, by simp [vkArg, hno]⟩
  obtain ⟨R, hR, -⟩ := calcRtensor_ok (X := g.x) (Y := g.x) rfl
  obtain ⟨Na, K, out, h1, h2, h3, h4, h5, h6, h7, h8⟩ := calcAllK_ok hg hh hk hprec hne hR true cc (vkArg g) false hv0
    ⟨⟨v, hvk, fun _ => rfl⟩, fun h => by cases h⟩
  rw [← lkdCov_eq] at h7
  obtain ⟨y, V, hd, hV, hy, hVe⟩ := lkdData_ok hg hne
  have hn : 0 < g.nData := by rw [hg.nData]; omega
  have hNn := NoiseSpec.nonneg hg hh h2
  have hpos := nugget_pos hv0 hn h5 hNn hη (cov_nugget hv0 hn h8)
  have hpd := h8.posDef hv0 h4 h5 hNn hpos
  unfold calcLkdAll at h ⊢
  simp only [hR, ok_bind, h7, kcovGradIf, Bool.false_eq_true, if_false, if_true, bind_assoc] at h ⊢
  obtain ⟨A, hA, h⟩ := bind_eq_ok h
  simp only [pure_eq_ok, ok_bind] at h
  cases hf : out.chofac with
  | none =>
    have hcc : cc = true ∧ g.o.precon = false := by
      by_contra hc
      obtain ⟨F, hF⟩ := h8.facSome rfl (fun h1 h2 => absurd ⟨h1, h2⟩ hc) hpd
      rw [hF] at hf; cases hf
    obtain ⟨rfl, hpr⟩ := hcc
    rw [hf] at h
    dsimp only at h ⊢
    obtain ⟨gr, e1, -⟩ := condL2_val env.eig g.o.precon hn out.Kcov (some (toSlabs env.info.nHp g.nData A))
    rw [e1] at h
    simp only [ok_bind, condL2WGrad] at h ⊢
    cases hno : g.noisy with
    | false =>
      rw [hno] at h
      simp only [Bool.false_eq_true, if_false] at h ⊢
      cases h
      exact ⟨_, rfl, rfl, rfl, rfl, fun _ => rfl⟩
    | true =>
      rw [hno] at h
      simp only [if_true, setCond, Bool.and_true, Bool.and_false, Bool.false_eq_true, if_false, ok_bind] at h ⊢
      obtain ⟨q, hq, h⟩ := bind_eq_ok h
      cases h
      obtain ⟨c, hc, hq⟩ := bind_eq_ok hq
      cases hq
      refine ⟨_, rfl, rfl, rfl, rfl, fun _ => ?_⟩
      show out.condK = some c.1
      rw [h8.cond, hpr]
      simp only [Bool.false_eq_true, if_true, if_false]
      unfold condWGrad at hc
      unfold condNum
      cases hfr : g.o.fro with
      | true =>
        rw [hfr, if_pos rfl] at hc
        unfold condFroWGrad at hc
        obtain ⟨_, -, hc⟩ := bind_eq_ok hc
        cases hc
      | false =>
        rw [hfr] at hc
        simp only [Bool.false_eq_true, if_false] at hc ⊢
        rw [e1] at hc
        cases hc; rfl
  | some F =>
    obtain ⟨f1, f2, f3⟩ := h8.fac F hf
    have hF : FacOf F out.Kcov := ⟨f1, f3, f2⟩
    rw [hf] at h
    dsimp only at h ⊢
    rw [hd] at h ⊢
    simp only [ok_bind] at h ⊢
    obtain ⟨l0, hl0, h⟩ := bind_eq_ok h
    obtain ⟨l1, hl1, h⟩ := bind_eq_ok h
    cases h
    have e1 : li.lnLkd = l0.lnLkd ∧ li.varK = l0.varK ∧ li.beta = l0.beta := by
      unfold setCond at hl1
      split at hl1
      · obtain ⟨c, -, e⟩ := bind_eq_ok hl1
        cases e; exact ⟨rfl, rfl, rfl⟩
      · cases hl1; exact ⟨rfl, rfl, rfl⟩
    have e2 : ∃ l2 : LkdInfo nBetaCoeff env.info.nHp, lkdBody g env y V F none = .ok l2 ∧ l2.lnLkd = l0.lnLkd ∧ l2.varK = l0.varK ∧ l2.beta = l0.beta := by
      unfold lkdBody at hl0 ⊢
      cases hno : g.noisy with
      | true =>
        rw [hno, if_pos rfl] at hl0
        obtain ⟨r, k1, k2, -, k3, -⟩ := lkdWNoise_ok (m := env.info.nHp) hF hV y none env.lkd.useAdj
        obtain ⟨r', k1', k2', -, k3', -⟩ := lkdWNoise_ok (m := env.info.nHp) hF hV y (some (toSlabs env.info.nHp g.nData A)) env.lkd.useAdj
        rw [hl0] at k1'; cases k1'
        refine ⟨r, by simpa using k1, by rw [k3, k3'], ?_, by rw [k2, k2']⟩
        rw [lkdWNoise_varK k1, lkdWNoise_varK hl0]
      | false =>
        rw [hno] at hl0
        simp only [Bool.false_eq_true, if_false] at hl0
        obtain ⟨r, k1, k2, k3, -, k4, -⟩ := lkdWoNoise_ok (m := env.info.nHp) env.lkd g.fval hF hV y none env.lkd.useAdj
        obtain ⟨r', k1', k2', k3', -, k4', -⟩ := lkdWoNoise_ok (m := env.info.nHp) env.lkd g.fval hF hV y (some (toSlabs env.info.nHp g.nData A)) env.lkd.useAdj
        rw [hl0] at k1'; cases k1'
        exact ⟨r, by simpa using k1, by rw [k4, k4'], by rw [k3, k3'], by rw [k2, k2']⟩
    obtain ⟨l2, e2, e3, e4, e5⟩ := e2
    rw [e2]
    simp only [ok_bind, setCond, Bool.and_false, Bool.false_eq_true, if_false]
    exact ⟨_, rfl, e3.trans e1.1.symm, e4.trans e1.2.1.symm, e5.trans e1.2.2.symm, fun h => by cases h⟩

theorem pow_units {u : ℝ} (hu : u ≠ 0) (x : ℝ) : (10 : ℝ) ^ (x + 2 * Real.logb 10 |u|) = u ^ 2 * (10 : ℝ) ^ x := by
  rw [Real.rpow_add (by norm_num), mul_comm 2, Real.rpow_mul (by norm_num), Real.rpow_logb (by norm_num) (by norm_num) (abs_pos.mpr hu)]
  rw [show ((2 : ℝ)) = ((2 : ℕ) : ℝ) by norm_num, Real.rpow_natCast, sq_abs, mul_comm]

/-- Decoding the vector in the new units. -/
theorem decode_units {g : Gp} {D : DataSet} {lo : LogOpts} {ok : Bool} {info : HpInfo} (hi : setupHpIdx g lo ok = .ok info) (hlo : lo.var = true)
    {u : ℝ} (hu : u ≠ 0) {x : Arr1} (hn : x.n = info.nHp) {hp : HpVals} (hd : hpVec2Dataclass g info x = .ok hp) :
    hpVec2Dataclass (withData g D) info (unitsVec (gpSlots g ok) u x) = .ok (unitsHp u hp) := by
  obtain ⟨hp1, h1, hb1, ⟨th1, ht1, hn1⟩, hs1, hno1⟩ := C55_decode g lo ok hi x hn
  rw [hd] at h1; cases h1
  obtain ⟨hp2, h2, hb2, ⟨th2, ht2, hn2⟩, hs2, hno2⟩ := C55_decode (withData g D) lo ok hi (unitsVec (gpSlots g ok) u x) hn
  have hslots : gpSlots (withData g D) ok = gpSlots g ok := rfl
  rw [hslots] at hs2 hno2
  rw [h2]
  congr 1
  refine hpVals_ext hb2 hb1 ht2 ht1 (by rw [hn2, hn1]; rfl) (decode_junk h2 th2 ht2) (decode_junk hd th1 ht1) ?_
  intro s
  by_cases hm : s ∈ gpSlots g ok
  · obtain ⟨p, hps⟩ := List.mem_iff_getElem?.mp hm
    have e1 := hs1 p s hps
    rw [hs2 p s hps]
    cases s with
    | theta d =>
      rw [show getSlot (unitsHp u hp) (.theta d) = getSlot hp (.theta d) from rfl, e1]
      simp only [unitsVec, hps]
    | kernel =>
      rw [show getSlot (unitsHp u hp) .kernel = getSlot hp .kernel from rfl, e1]
      simp only [unitsVec, hps]
    | varK =>
      rw [show getSlot (unitsHp u hp) .varK = (getSlot hp .varK).map (u ^ 2 * ·) from rfl, e1]
      simp only [unitsVec, hps, natural, slotLog, hlo, if_true, pow_units hu, Option.map_some]
    | varFval =>
      rw [show getSlot (unitsHp u hp) .varFval = (getSlot hp .varFval).map (u ^ 2 * ·) from rfl, e1]
      simp only [unitsVec, hps, natural, slotLog, hlo, if_true, pow_units hu, Option.map_some]
    | varFgrad =>
      rw [show getSlot (unitsHp u hp) .varFgrad = (getSlot hp .varFgrad).map (u ^ 2 * ·) from rfl, e1]
      simp only [unitsVec, hps, natural, slotLog, hlo, if_true, pow_units hu, Option.map_some]
  · rw [hno2 s hm]
    have e1 := hno1 s hm
    cases s with
    | theta d => rw [show getSlot (unitsHp u hp) (.theta d) = getSlot hp (.theta d) from rfl, e1]
    | kernel => rw [show getSlot (unitsHp u hp) .kernel = getSlot hp .kernel from rfl, e1]
    | varK => rw [show getSlot (unitsHp u hp) .varK = (getSlot hp .varK).map (u ^ 2 * ·) from rfl, e1]; rfl
    | varFval => rw [show getSlot (unitsHp u hp) .varFval = (getSlot hp .varFval).map (u ^ 2 * ·) from rfl, e1]; rfl
    | varFgrad => rw [show getSlot (unitsHp u hp) .varFgrad = (getSlot hp .varFgrad).map (u ^ 2 * ·) from rfl, e1]; rfl

theorem objective_inv {g : Gp} {env : LkdEnv} {st : OptzState env.info.nHp} (hst : CacheReach g env st) {x : Arr1} {hp : HpVals}
    (hdec : hpVec2Dataclass g env.info x = .ok hp) {f : ℝ} {s1 : OptzState env.info.nHp} (h : returnOptzVal g env st x = .ok (f, s1)) :
    ∃ li okk, calcLkdAll g env hp env.useCstr true = .ok (li, okk) ∧ if okk then li.lnLkd = some (-f) else li.cond = some f := by
  unfold returnOptzVal at h
  obtain ⟨r, hr, h⟩ := bind_eq_ok h
  rw [calcStore_fresh hst] at hr
  obtain ⟨r1, hr1, e⟩ := bind_eq_ok hr
  cases e
  cases h
  unfold computeLkd at hr1
  rw [hdec] at hr1
  simp only [ok_bind, Bool.or_false] at hr1
  obtain ⟨q, hq, hr1⟩ := bind_eq_ok hr1
  obtain ⟨li, okk⟩ := q
  refine ⟨li, okk, hq, ?_⟩
  cases okk with
  | true =>
    simp only [if_true] at hr1 ⊢
    obtain ⟨l, hl, hr1⟩ := bind_eq_ok hr1
    obtain ⟨_, -, hr1⟩ := bind_eq_ok hr1
    obtain ⟨_, -, hr1⟩ := bind_eq_ok hr1
    cases hr1
    cases hll : li.lnLkd with
    | none => rw [hll] at hl; cases hl
    | some l' => rw [hll] at hl; cases hl; simp
  | false =>
    simp only [Bool.false_eq_true, if_false] at hr1 ⊢
    obtain ⟨l, hl, hr1⟩ := bind_eq_ok hr1
    obtain ⟨_, -, hr1⟩ := bind_eq_ok hr1
    cases hr1
    cases hll : li.cond with
    | none => rw [hll] at hl; cases hl
    | some l' => rw [hll] at hl; cases hl; simp

/-- **C100**, objective of the optimiser. At corresponding vectors (the same except that logarithms of variances move by `2 log₁₀ |u|`),
whatever was evaluated before, the objective for the restated data is the one for the original data plus the constant `n log |u|`, and, where
the covariance matrix cannot be factorised, the same. (Any success of the callbacks; see C32 and C34 for when they succeed.) -/
theorem C100_objective {π τ : Equiv.Perm ℕ} {c : Pt} {u b : ℝ} {g : Gp} {D : DataSet} (hg : GpOk g) (hg' : GpOk (withData g D)) (hu : u ≠ 0)
    (h : Restated π τ c u b g D) (hk : g.useGrad = true ∨ g.knownFval = true)
    (hprec : g.o.precon = true → g.useGrad = true) (hne : 0 < g.nEval) (hη : if g.o.etaConst then 0 < g.o.etaK else 1 < g.o.condMaxTarget)
    {lo : LogOpts} {ok : Bool} {env : LkdEnv} (hi : setupHpIdx g lo ok = .ok env.info) (hlo : lo.var = true)
    (hker : g.kernel = .ratQuad → ok = true) {x : Arr1} (hn : x.n = env.info.nHp)
    (hpos : ∀ p s, (gpSlots g ok)[p]? = some s → slotLog lo s = false → 0 < x.get p)
    {st st' : OptzState env.info.nHp} (hst : CacheReach g env st) (hst' : CacheReach (withData g D) env st') {f f' : ℝ} {s1 s1' : OptzState env.info.nHp}
    (h1 : returnOptzVal g env st x = .ok (f, s1)) (h2 : returnOptzVal (withData g D) env st' (unitsVec (gpSlots g ok) u x) = .ok (f', s1')) :
    ∃ hp li okk, hpVec2Dataclass g env.info x = .ok hp ∧ calcLkdAll g env hp env.useCstr true = .ok (li, okk) ∧ (okk = false → f' = f) ∧
      (okk = true → (g.noisy = true ∨ |u| = 1 ∨ env.lkd.pnltUse = false ∧ (∀ w, li.varK = some w → varKMin < w ∧ varKMin ≤ u ^ 2 * w)) →
        f' = f + g.nData * Real.log |u|) := by
  obtain ⟨hp, hdec, hadm, hall⟩ := decode_adm hi hn hker hpos
  have hv : g.noisy = true → ∃ v, hp.varK = some v ∧ 0 < v := fun hno => hall .varK (by simp [gpSlots, hpSlots, hno])
  have hv' : (withData g D).noisy = true → ∃ v, (unitsHp u hp).varK = some v ∧ 0 < v := by
    intro hno
    obtain ⟨v, e1, e2⟩ := hv hno
    exact ⟨u ^ 2 * v, by simp [unitsHp, e1], by positivity⟩
  have hdec' := decode_units (D := D) hi hlo hu hn hdec
  obtain ⟨li, okk, k1, k2⟩ := objective_inv hst hdec h1
  obtain ⟨li', okk', k1', k2'⟩ := objective_inv hst' hdec' h2
  obtain ⟨lf, m1, m2, m3, -, m4⟩ := lkd_true_false hg hadm hk hprec hne hη hv env k1
  obtain ⟨lf', m1', m2', m3', -, m4'⟩ := lkd_true_false hg' (unitsHp_adm hu hadm) hk hprec hne hη hv' env k1'
  obtain ⟨l0, l0', ok0, n1, n2, n3, -, n5⟩ := C100_likelihood hg hg' hu h hadm hk hprec hne hη hv env env.useCstr
  rw [m1] at n1; cases n1
  rw [m1'] at n2; cases n2
  refine ⟨hp, li, okk, hdec, k1, fun hf => ?_, fun hf hw => ?_⟩
  · subst hf
    simp only [Bool.false_eq_true, if_false] at k2 k2'
    have e := m4' rfl
    rw [n3, m4 rfl, k2, k2'] at e
    exact (Option.some.inj e).symm
  · subst hf
    simp only [if_true] at k2 k2'
    obtain ⟨l, β, o1, -, -, -, o5⟩ := n5 rfl
    have o6 := o5 (hw.imp_right (Or.imp_right fun hw => ⟨hw.1, fun w hw' => hw.2 w (by rw [← m3]; exact hw')⟩))
    rw [m2, k2] at o1
    rw [m2', k2'] at o6
    have e1 := Option.some.inj o1
    have e2 := Option.some.inj o6
    linarith

/-- **C100.** Without a condition-number constraint, and with noise (or units of size one, or neither the penalty nor the variance floor
active), the objective ranks any two candidates the same way before and after the restatement, so that its minimisers over any set of
candidates correspond. -/
theorem C100_ranking {π τ : Equiv.Perm ℕ} {c : Pt} {u b : ℝ} {g : Gp} {D : DataSet} (hg : GpOk g) (hg' : GpOk (withData g D)) (hu : u ≠ 0)
    (h : Restated π τ c u b g D) (hk : g.useGrad = true ∨ g.knownFval = true)
    (hprec : g.o.precon = true → g.useGrad = true) (hne : 0 < g.nEval) (hη : if g.o.etaConst then 0 < g.o.etaK else 1 < g.o.condMaxTarget)
    {lo : LogOpts} {ok : Bool} {env : LkdEnv} (hi : setupHpIdx g lo ok = .ok env.info) (hlo : lo.var = true)
    (hker : g.kernel = .ratQuad → ok = true) (hcc : env.useCstr = false)
    (hcase : g.noisy = true ∨ |u| = 1 ∨ env.lkd.pnltUse = false ∧ ∀ hp li okk w, calcLkdAll g env hp false true = .ok (li, okk) →
      li.varK = some w → varKMin < w ∧ varKMin ≤ u ^ 2 * w)
    {st st' : OptzState env.info.nHp} (hst : CacheReach g env st) (hst' : CacheReach (withData g D) env st')
    {x1 x2 : Arr1} (hn1 : x1.n = env.info.nHp) (hn2 : x2.n = env.info.nHp)
    (hpos1 : ∀ p s, (gpSlots g ok)[p]? = some s → slotLog lo s = false → 0 < x1.get p)
    (hpos2 : ∀ p s, (gpSlots g ok)[p]? = some s → slotLog lo s = false → 0 < x2.get p)
    {f1 f2 f1' f2' : ℝ} {s1 s2 s1' s2' : OptzState env.info.nHp}
    (h1 : returnOptzVal g env st x1 = .ok (f1, s1)) (h2 : returnOptzVal g env st x2 = .ok (f2, s2))
    (h1' : returnOptzVal (withData g D) env st' (unitsVec (gpSlots g ok) u x1) = .ok (f1', s1'))
    (h2' : returnOptzVal (withData g D) env st' (unitsVec (gpSlots g ok) u x2) = .ok (f2', s2')) :
    f1 ≤ f2 ↔ f1' ≤ f2' := by
  have key : ∀ x : Arr1, x.n = env.info.nHp → (∀ p s, (gpSlots g ok)[p]? = some s → slotLog lo s = false → 0 < x.get p) →
      ∀ f f' s s', returnOptzVal g env st x = .ok (f, s) →
      returnOptzVal (withData g D) env st' (unitsVec (gpSlots g ok) u x) = .ok (f', s') → f' = f + g.nData * Real.log |u| := by
    intro x hn hpos f f' s s' k1 k2
    obtain ⟨hp, li, okk, hdec, e2, -, e4⟩ := C100_objective hg hg' hu h hk hprec hne hη hi hlo hker hn hpos hst hst' k1 k2
    obtain ⟨hp', hdec', hadm, hall⟩ := decode_adm hi hn hker hpos
    rw [hdec] at hdec'; cases hdec'
    have hv : g.noisy = true → ∃ v, hp.varK = some v ∧ 0 < v := fun hno => hall .varK (by simp [gpSlots, hpSlots, hno])
    obtain ⟨l0, l0', ok0, n1, -, -, n4, -⟩ := C100_likelihood hg hg' hu h hadm hk hprec hne hη hv env env.useCstr
    obtain ⟨lf, m1, -⟩ := lkd_true_false hg hadm hk hprec hne hη hv env e2
    rw [m1] at n1; cases n1
    rw [hcc] at e2
    exact e4 (n4 hcc) (hcase.imp_right (Or.imp_right fun hw => ⟨hw.1, fun w hw' => hw.2 hp li okk w e2 hw'⟩))
  rw [key x1 hn1 hpos1 _ _ _ _ h1 h1', key x2 hn2 hpos2 _ _ _ _ h2 h2']
  exact (add_le_add_iff_right _).symm

/-! ### Concrete case: the noisy, masked, preconditioned data in the opposite order, shifted, in units of minus one half and from another zero -/

def exRestated : DataSet where
  x := ⟨2, 2, fun p d => exX.get (Equiv.swap 0 1 p) d + (d + 1)⟩
  fval := ⟨2, fun p => -2 * exGp.fval.get (Equiv.swap 0 1 p) + 5⟩
  bvec := some [true, false]
  grad := some ⟨1, 2, fun _ d => -2 * d⟩
  stdFval := none
  stdGrad := none

theorem exRestated_ok : GpOk (withData exGpRq exRestated) := by
  have h := exGpRq_ok
  exact ⟨rfl, rfl, rfl, (by intro l h; cases h; rfl), rfl, (by intro h; cases h), h.nData, (by intro h; cases h), fun _ => ⟨_, rfl, rfl, rfl⟩,
    (by intro h; cases h), (by intro h; cases h), (by intro h; cases h), (by intro _ h; cases h), h.noisy⟩

theorem exRestated_of : Restated (Equiv.swap 0 1) 1 (fun d => d + 1) (-2) 5 exGpRq exRestated where
  pt_lt := by
    intro p hp
    have : p = 0 ∨ p = 1 := by have : p < 2 := hp; omega
    rcases this with rfl | rfl <;> simp [exGpRq, exGpPrec, exGp]
  gr_lt := fun _ h => h
  x := by intro p _ d _; simp [exRestated, exGpRq, exGpPrec, exGp]
  fval := by intro p _; simp [exRestated, exGpRq, exGpPrec, exGp]
  gsel := by
    intro a ha
    have : a = 0 := by have : a < 1 := ha; omega
    subst this
    simp [exRestated, exGpRq, exGpPrec, exGp, gSel]
    decide
  grad := by
    intro G G' h h' a _ i _
    cases h; cases h'
    rfl
  stdF := by intro s s' h; cases h
  stdG := by intro s s' h; cases h

-- C100, the likelihood: four observations, so the log-likelihood falls by 4 log 2
example (env : LkdEnv) : ∃ li li' l β, calcLkdAll exGpRq env exHpRq false false = .ok (li, true) ∧
    calcLkdAll (withData exGpRq exRestated) env { exHpRq with varK := some ((-2) ^ 2 * 3), varFval := some ((-2) ^ 2 * (1 / 4)), varFgrad := some ((-2) ^ 2 * (1 / 2)) }
      false false = .ok (li', true) ∧ li.lnLkd = some l ∧ li'.lnLkd = some (l - 4 * Real.log 2) ∧ li.beta = some (fun _ => β) ∧
    li'.beta = some (fun _ => -2 * β + 5) := by
  obtain ⟨li, li', ok, h1, h2, -, h3, h4⟩ := C100_likelihood exGpRq_ok exRestated_ok (by norm_num) exRestated_of exHpRq_adm (.inl rfl) (fun _ => rfl)
    Nat.two_pos exGpRq_lkd.eta (fun _ => ⟨3, rfl, by norm_num⟩) env false
  rw [h3 rfl] at h1 h2 h4
  obtain ⟨l, β, k1, k2, k3, -, k4⟩ := h4 rfl
  refine ⟨li, li', l, β, h1, h2, k1, ?_, k2, k3⟩
  rw [k4 (.inl rfl)]
  norm_num [exGpRq, exGpPrec, exGp]

-- C100, the objective: it is evaluated at every vector, before and after
example (eig : EigFun) (r0 : ∀ m, LkdRes m) (x : Arr1) (hx : x.n = 6) : ∃ (env : LkdEnv) (st st' s1 s1' : OptzState env.info.nHp) (f f' : ℝ),
    env.eig = eig ∧ CacheReach exGpRq env st ∧ returnOptzVal exGpRq env st x = .ok (f, s1) ∧
    returnOptzVal (withData exGpRq exRestated) env st' (unitsVec (gpSlots exGpRq true) (-2) x) = .ok (f', s1') ∧ f' = f + 4 * Real.log 2 := by
  have hi := setupHpIdx_ok exGpRq ⟨true, true, true⟩ true
  have hi' := setupHpIdx_ok (withData exGpRq exRestated) ⟨true, true, true⟩ true
  set info : HpInfo := hpInfoOf ⟨true, true, true⟩ exGpRq.dim true (true && kernelHasHp exGpRq.kernel) exGpRq.noisy (!exGpRq.knownFval)
      (exGpRq.useGrad && !exGpRq.knownFgrad) with hinfo
  set env : LkdEnv := { lkd := ⟨true, 1, 10, 0, true⟩, info := info, useCstr := false, eig := eig } with henv
  have hlog : ∀ s, slotLog ⟨true, true, true⟩ s = true := by intro s; cases s <;> rfl
  have hH : LkdHyp (withData exGpRq exRestated) := ⟨exRestated_ok, .inl rfl, fun _ => rfl, Nat.two_pos, rfl, exGpRq_lkd.eta⟩
  have run : ∀ g : Gp, LkdHyp g → g.kernel = .ratQuad → g.useGrad = true → g.noisy = true → setupHpIdx g ⟨true, true, true⟩ true = .ok info → ∀ z : Arr1, z.n = 6 →
      ∃ st : OptzState env.info.nHp, CacheReach g env st ∧ ∃ f s1, returnOptzVal g env st z = .ok (f, s1) := by
    intro g hg hgk hgu hgn hgi z hz
    obtain ⟨hp, hdec, hadm, hall⟩ := decode_adm (g := g) (x := z) hgi (by rw [hz]; rfl) (fun _ => rfl) (fun p s _ h => by rw [hlog s] at h; cases h)
    obtain ⟨R, hR, -⟩ := calcRtensor_ok (X := g.x) (Y := g.x) rfl
    obtain ⟨gr, st', h1, h2⟩ := C32_optimiser_gradient hg (env := env) hgi (fun _ => rfl) (x := z) (by rw [hz]; rfl)
      (fun p s _ h => by rw [hlog s] at h; cases h) hdec (fun th _ => ⟨fun h => (by rw [hgu] at h; cases h), fun _ => .inr hgk⟩)
      (fun h => (nomatch h)) hR (fun h => (nomatch h)) (fun h => (by rw [hgn] at h; cases h)) (CacheReach.init (r0 _))
    obtain ⟨f, hf, -⟩ := h2 ⟨0, by show 0 < 6; norm_num⟩
    obtain ⟨s1, hs⟩ := hf.self_of_nhds
    refine ⟨_, CacheReach.init (r0 _), f (z.get 0), s1, ?_⟩
    have e : setEntry z 0 (z.get 0) = z := by
      obtain ⟨n, a⟩ := z
      simp only [setEntry, Function.update_eq_self]
    have hs' : returnOptzVal g env ⟨none, r0 _⟩ (setEntry z 0 (z.get 0)) = .ok (f (z.get 0), s1) := hs
    rw [e] at hs'
    exact hs'
  obtain ⟨st, k1, f, s1, k2⟩ := run exGpRq exGpRq_lkd rfl rfl rfl hi x hx
  obtain ⟨st', k1', f', s1', k2'⟩ := run (withData exGpRq exRestated) hH rfl rfl rfl hi' (unitsVec (gpSlots exGpRq true) (-2) x) hx
  refine ⟨env, st, st', s1, s1', f, f', rfl, k1, k2, k2', ?_⟩
  obtain ⟨hp, li, okk, d1, d2, -, d4⟩ := C100_objective exGpRq_ok exRestated_ok (by norm_num) exRestated_of (.inl rfl) (fun _ => rfl) Nat.two_pos
    exGpRq_lkd.eta (env := env) hi rfl (fun _ => rfl) (x := x) (by rw [hx]; rfl) (fun p s _ h => by rw [hlog s] at h; cases h) k1 k1' k2 k2'
  obtain ⟨hp', hdec', hadm, hall⟩ := decode_adm (g := exGpRq) (x := x) hi (by rw [hx]; rfl) (fun _ => rfl) (fun p s _ h => by rw [hlog s] at h; cases h)
  rw [d1] at hdec'; cases hdec'
  have hv : exGpRq.noisy = true → ∃ v, hp.varK = some v ∧ 0 < v := fun _ => hall .varK (by simp [gpSlots, hpSlots, exGpRq, exGpPrec, exGp])
  obtain ⟨l0, l0', ok0, n1, -, -, n4, -⟩ := C100_likelihood exGpRq_ok exRestated_ok (by norm_num) exRestated_of hadm (.inl rfl) (fun _ => rfl)
    Nat.two_pos exGpRq_lkd.eta hv env env.useCstr
  obtain ⟨lf, m1, -⟩ := lkd_true_false exGpRq_ok hadm (.inl rfl) (fun _ => rfl) Nat.two_pos exGpRq_lkd.eta hv env d2
  rw [m1] at n1; cases n1
  rw [d4 (n4 rfl) (.inl rfl)]
  norm_num [exGpRq, exGpPrec, exGp]

-- the penalty: with a positive penalty the factor is not one
example : (varKPnlt ⟨true, 1, 10, 0, true⟩ (2 ^ 2 * 3) ⟨2, fun p => 2 * p⟩).1 = 2 ^ 6 * (varKPnlt ⟨true, 1, 10, 0, true⟩ 3 ⟨2, fun p => p⟩).1 ∧
    0 < (varKPnlt ⟨true, 1, 10, 0, true⟩ 3 ⟨2, fun p => p⟩).1 := by
  have e1 : npVar ⟨2, fun p => (p : ℝ)⟩ = 1 / 4 := by norm_num [npVar, Finset.sum_range_succ]
  have e2 : npVar ⟨2, fun p => 2 * (p : ℝ)⟩ = 1 := by norm_num [npVar, Finset.sum_range_succ]
  simp only [varKPnlt, e1, e2]
  norm_num

end Props
