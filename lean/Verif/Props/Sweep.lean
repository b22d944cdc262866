import Verif.Spec.SweepSpec
import Verif.Props.PlainCond
import Verif.Props.Restate
import Verif.Props.Blup
import Verif.Props.HpX0
import Verif.Props.PlotData
import Verif.Proofs.Native

/-! Claim theorems for C132: the script that scans the length scale of a one-dimensional model. -/

open Np GP Spec Matrix

noncomputable section

namespace Props

/-- A one-dimensional object with noise-free data, as the script makes it. The condition number can only fail to be small enough without preconditioning. -/
structure ScanOk (g : Gp) : Prop where
  ok : GpOk g
  dim : g.dim = 1
  kern : g.kernel ≠ .ratQuad
  quiet : g.noisy = false
  knownF : g.knownFval = true
  knownG : g.useGrad = true → g.knownFgrad = true
  ne : 0 < g.nEval
  eta : if g.o.etaConst then 0 < g.o.etaK else 1 < g.o.condMaxTarget
  fac : (g.o.precon = true ∧ g.useGrad = true) ∨ (PlainOk g ∧ g.o.condMaxTarget ≤ g.o.condMaxAbs)

theorem ScanOk.prec {g : Gp} (h : ScanOk g) : g.o.precon = true → g.useGrad = true := by
  intro hp
  rcases h.fac with h | h
  · exact h.2
  · rw [h.1.precon] at hp; cases hp

theorem scan_adm {g : Gp} (h : ScanOk g) {t : ℝ} (ht : 0 < t) (b : Option Arr1) (vk : Option ℝ) :
    HpAdm g { beta := b, theta := some ⟨1, fun _ => t⟩, varK := vk } where
  theta := ⟨_, rfl, h.dim.symm, fun _ _ => ht⟩
  kernel := by
    have := h.kern
    cases hk : g.kernel <;> rw [hk] at this <;> simp_all [HpOk]
  vf_none := fun _ => rfl
  vf_some := fun hk => by rw [h.knownF] at hk; cases hk
  vg_none := fun _ _ => rfl
  vg_some := fun hu hk => by rw [h.knownG hu] at hk; cases hk

theorem noisyCov_smul0 {n : ℕ} (p : Bool) (v : ℝ) (K : Mat n n) (η : ℝ) : noisyCov p v K 0 η = v • noisyCov p 1 K 0 η := by
  ext i j
  simp only [noisyCov, of_apply, Matrix.smul_apply, smul_eq_mul, Pi.zero_apply]
  cases p <;> by_cases hij : i = j <;> simp [hij] <;> ring

theorem basis_mulVec {g : Gp} {V : Mat g.nData nBetaCoeff} (hV : ∀ (q : Fin g.nData) (j : Fin nBetaCoeff), V q j = if (q : ℕ) < g.nEval then 1 else 0)
    (c : Vec nBetaCoeff) : V *ᵥ c = priorMean g (c ⟨0, Nat.one_pos⟩) := by
  funext q
  show ∑ j, V q j * c j = _
  have : ∀ j : Fin nBetaCoeff, j = ⟨0, Nat.one_pos⟩ := fun j => by
    have := j.2; unfold nBetaCoeff at this; ext; simp; omega
  rw [Finset.sum_eq_single (⟨0, Nat.one_pos⟩ : Fin nBetaCoeff) (fun j _ h => absurd (this j) h) (fun h => absurd (Finset.mem_univ _) h), hV]
  unfold priorMean
  split <;> simp

/-- The likelihood of one length scale. -/
theorem scan_entry {g : Gp} (h : ScanOk g) (env : LkdEnv) {t : ℝ} (ht : 0 < t) {y : Vec g.nData} (hy : DataSpec g y) :
    ∃ li K η β v l, calcLkdAll g env (sweepHp t) true false = .ok (li, true) ∧ li.beta = some (fun _ => β) ∧ li.varK = some v ∧ li.lnLkd = some l ∧
      ScanFit g t y K η β v ∧ η = quietEta g K ∧
      (varKMin < maha (noisyCov g.o.precon 1 K 0 η) (y - priorMean g β) / g.nData →
        l = scanLog g K η y β v + g.nData / 2 * (1 + Real.log (2 * Real.pi)) - (varKPnlt env.lkd v g.fval).1) := by
  have hadm : HpAdm g (sweepHp t) := scan_adm h ht none none
  obtain ⟨Na, K, out, y', V, li, h1, h2, -, -, -, h6, -, h8, h9, h10, h11, h12, h13, -, h15⟩ := lkd_form h.ok hadm (.inr h.knownF) h.prec h.ne h.eta env true
    (v := 1) one_pos (by unfold vkArg; rw [h.quiet]; rfl)
  obtain rfl := dataSpec_unique h.ok h9 hy
  have h0 := noise_zero h.ok h.quiet h1
  rw [h0] at h6
  have hn : 0 < g.nData := by have := h.ne; rw [h.ok.nData]; omega
  have hfs : out.chofac.isSome = true := by
    rw [h13]
    intro _ hp
    rcases h.fac with hf | ⟨hP, habs⟩
    · rw [hp] at hf; exact absurd hf.1 (by simp)
    · obtain ⟨R, hR, -⟩ := calcRtensor_ok (X := g.x) (Y := g.x) rfl
      obtain ⟨N', K', out', g1, g2, g3, -, -, -, g7, g8⟩ := calcAllK_ok h.ok hadm (.inr h.knownF) h.prec h.ne hR true true (vkArg g) false (v := 1) one_pos
        ⟨⟨1, by unfold vkArg; rw [h.quiet]; rfl, fun _ => rfl⟩, fun h => by cases h⟩
      obtain rfl := isKern_unique h.ok hadm h2 g3
      rw [noise_zero h.ok h.quiet g2] at g8
      have e := (plain_bound h.ok hadm h.ne hP hR true (vk := vkArg g) (v := 1) one_pos (by unfold vkArg; rw [h.quiet]; rfl) g7).1
      have e1 : out'.Kcov = out.Kcov := by rw [cov_noisyCov one_pos g8, cov_noisyCov one_pos h6, g8.eta, h6.eta]
      rw [e1] at e
      exact e.trans habs
  obtain ⟨F, hF⟩ := Option.isSome_iff_exists.mp hfs
  obtain ⟨f1, f2, f3⟩ := h6.fac F hF
  have hFo : FacOf F out.Kcov := ⟨f1, f3, f2⟩
  obtain ⟨hb, -, hq⟩ := h15 hfs
  obtain ⟨hvk, hl⟩ := hq h.quiet
  obtain ⟨r, β, v, l, e1, e2, e3, e4, e5, e6⟩ := C26_closed_form_variance (m := env.info.nHp) env.lkd g.fval hFo h10 y' none env.lkd.useAdj
  obtain ⟨r', e1', b1, b2, -, b4, -⟩ := lkdWoNoise_ok (m := env.info.nHp) env.lkd g.fval hFo h10 y' none env.lkd.useAdj
  rw [e1] at e1'
  cases e1'
  rw [e2] at b1; rw [e3] at b2; rw [e4] at b4
  have hc : out.Kcov = noisyCov g.o.precon 1 K 0 out.etaK := cov_noisyCov one_pos h6
  have hVm := basis_mulVec h11
  rw [← b1] at hb; rw [← b2] at hvk; rw [← b4] at hl
  rw [hc] at e6 h8
  refine ⟨li, K, out.etaK, β ⟨0, Nat.one_pos⟩, v, l, by rw [h12, hfs], ?_, hvk, hl, ⟨h2, cov_nugget one_pos hn h6, h8, e5, ?_⟩, h6.eta, ?_⟩
  · rw [hb]; congr 1; funext j
    have := j.2; unfold nBetaCoeff at this
    congr 1; ext; simp; omega
  · intro hfl c w hw hne
    rw [← hVm] at hfl
    have := (e6 hfl).1 (fun _ => c) w hw (fun hcon => hne (by
      have h1 := congrArg Prod.fst hcon; have h2 := congrArg Prod.snd hcon
      simp only at h1 h2
      rw [← h1, h2]))
    unfold scanLog
    rw [noisyCov_smul0 _ w, noisyCov_smul0 _ v, ← hVm]
    rw [hVm (fun _ => c)] at this
    exact this
  · intro hfl
    rw [← hVm] at hfl
    rw [(e6 hfl).2]
    unfold scanLog
    rw [noisyCov_smul0 _ v, ← hVm]

/-- What the scan stores. -/
def ScanRow (g : Gp) (env : LkdEnv) (y : Vec g.nData) (t : ℝ) (l : Fl) (β : ℝ) (vo : Fl) : Prop :=
  ∃ K η v x, l = some x ∧ vo = some v ∧ ScanFit g t y K η β v ∧ η = quietEta g K ∧
    (varKMin < maha (noisyCov g.o.precon 1 K 0 η) (y - priorMean g β) / g.nData →
      x = scanLog g K η y β v + g.nData / 2 * (1 + Real.log (2 * Real.pi)) - (varKPnlt env.lkd v g.fval).1)

theorem scan_raw {g : Gp} (h : ScanOk g) (env : LkdEnv) {theta : Arr1} (ht : ∀ i < theta.n, 0 < theta.get i) {y : Vec g.nData} (hy : DataSpec g y) :
    ∃ r, sweepRaw g env theta = .ok r ∧ r.1.n = theta.n ∧ r.2.1.n = theta.n ∧ r.2.2.n = theta.n ∧
      ∀ i < theta.n, ScanRow g env y (theta.get i) (r.1.get i) (r.2.1.get i) (r.2.2.get i) := by
  unfold sweepRaw
  refine forRange_inv (fun m (r : FVec × Arr1 × FVec) => r.1.n = theta.n ∧ r.2.1.n = theta.n ∧ r.2.2.n = theta.n ∧
      ∀ i < m, ScanRow g env y (theta.get i) (r.1.get i) (r.2.1.get i) (r.2.2.get i)) (Nat.zero_le _)
    ⟨rfl, rfl, rfl, fun i hi => absurd hi (Nat.not_lt_zero _)⟩ ?_
  rintro m r - hm ⟨h1, h2, h3, h4⟩
  obtain ⟨li, K, η, β, v, l, e1, e2, e3, e4, e5, e7, e6⟩ := scan_entry h env (ht m hm) hy
  rw [e1]
  simp only [ok_bind, e2, need]
  refine ⟨_, rfl, rfl, rfl, rfl, fun i hi => ?_⟩
  rcases Nat.lt_succ_iff_lt_or_eq.mp hi with hlt | rfl
  · have := h4 i hlt
    simpa only [Function.update_of_ne hlt.ne] using this
  · simp only [Function.update_self]
    exact ⟨K, η, v, l, e4, e3, e5, e7, e6⟩

theorem flGt_some (x y : ℝ) : flGt (some x) (some y) = true ↔ y < x := by
  unfold flGt
  simp

theorem argmax_some {s : FVec} (hn : 0 < s.n) {f : ℕ → ℝ} (hs : ∀ i < s.n, s.get i = some (f i)) :
    ∃ k, argmaxFl ((List.range s.n).map s.get) = .ok k ∧ k < s.n ∧ (∀ i < s.n, f i ≤ f k) ∧ ∀ i < k, f i < f k := by
  have hl : (List.range s.n).map s.get = (List.range s.n).map fun i => some (f i) :=
    List.map_congr_left fun i hi => hs i (List.mem_range.mp hi)
  have hg : ∀ i < s.n, ((List.range s.n).map fun i => some (f i))[i]? = some (some (f i)) := by
    intro i hi
    rw [List.getElem?_map, List.getElem?_range hi]; rfl
  unfold argmaxFl
  rw [hl]
  have h0 : ((List.range s.n).map fun i => some (f i)).findIdx? Option.isNone = none := by
    rw [List.findIdx?_eq_none_iff]
    intro x hx
    obtain ⟨i, -, rfl⟩ := List.mem_map.mp hx
    rfl
  rw [h0]
  dsimp only
  rcases nanArgmin_total (((List.range s.n).map fun i => some (f i)).map fun v => v.map fun x => -x) with ⟨k, hk⟩ | he
  · have hk' : nanArgmax ((List.range s.n).map fun i => some (f i)) = .ok k := hk
    obtain ⟨x, h1, h2, h3⟩ := nanArgmax_ok hk'
    have hkn : k < s.n := by
      by_contra hcon
      rw [List.getElem?_eq_none (by simpa using hcon)] at h1
      cases h1
    rw [hg k hkn] at h1
    obtain rfl : f k = x := by simpa using h1
    exact ⟨k, hk', hkn, fun i hi => h2 i _ (hg i hi), fun i hi => h3 i hi _ (hg i (hi.trans hkn))⟩
  · have := (nanArgmin_error.mp ⟨_, he⟩) (some (-f 0)) (List.mem_map.mpr ⟨some (f 0), List.mem_map.mpr ⟨0, List.mem_range.mpr hn, rfl⟩, rfl⟩)
    cases this

theorem argmax_none {s : FVec} (hn : 0 < s.n) (hs : ∀ i < s.n, s.get i = none) : argmaxFl ((List.range s.n).map s.get) = .ok 0 := by
  unfold argmaxFl
  have : (List.range s.n).map s.get = none :: ((List.range (s.n - 1)).map fun i => s.get (i + 1)) := by
    obtain ⟨m, hm⟩ : ∃ m, s.n = m + 1 := ⟨s.n - 1, by omega⟩
    rw [hm, List.range_succ_eq_map, List.map_cons, hs 0 hn, List.map_map]
    rfl
  rw [this]
  rfl

/-- Scaling keeps the order of the likelihoods; `np.argmax` finds the first largest. -/
theorem scan_scl {v : FVec} (hn : 0 < v.n) {f : ℕ → ℝ} (hv : ∀ i < v.n, v.get i = some (f i)) :
    ∃ s k, sweepScl v = .ok s ∧ s.n = v.n ∧ argmaxFl ((List.range s.n).map s.get) = .ok k ∧ k < v.n ∧ (∀ i < v.n, f i ≤ f k) ∧
      (∀ i < k, f i < f k) ∧ (∀ i < v.n, ∀ j < v.n, flGt (s.get i) (s.get j) = true ↔ f j < f i) ∧
      ((∃ i < v.n, f i ≠ f 0) → ∃ a b, IsLeast (f '' Set.Iio v.n) a ∧ IsGreatest (f '' Set.Iio v.n) b ∧
        ∀ i < v.n, s.get i = some ((f i - a) / (b - a))) ∧ ((∀ i < v.n, f i = f 0) → ∀ i < v.n, s.get i = none) := by
  have hl : (List.range v.n).map v.get = (List.range v.n).map fun i => some (f i) :=
    List.map_congr_left fun i hi => hv i (List.mem_range.mp hi)
  have hset : {x : ℝ | some x ∈ (List.range v.n).map v.get} = f '' Set.Iio v.n := by
    ext x
    simp [hl]
  have hfin : (Set.Iio v.n).Finite := Set.finite_Iio _
  have hne : (Set.Iio v.n).Nonempty := ⟨0, hn⟩
  obtain ⟨p, hp, ha⟩ := Set.exists_min_image _ f hfin hne
  obtain ⟨q, hq, hb⟩ := Set.exists_max_image _ f hfin hne
  have hla : IsLeast (f '' Set.Iio v.n) (f p) := ⟨⟨p, hp, rfl⟩, by rintro _ ⟨i, hi, rfl⟩; exact ha i hi⟩
  have hgb : IsGreatest (f '' Set.Iio v.n) (f q) := ⟨⟨q, hq, rfl⟩, by rintro _ ⟨i, hi, rfl⟩; exact hb i hi⟩
  have hmin : nanMinL ((List.range v.n).map v.get) = some (f p) := (nanMin_spec _ _).mpr (by rw [hset]; exact hla)
  have hmax : nanMaxL ((List.range v.n).map v.get) = some (f q) := (nanMax_spec _ _).mpr (by rw [hset]; exact hgb)
  have hany : ((List.range v.n).map v.get).any Option.isNone = false := by
    rw [hl, List.any_eq_false]
    intro x hx
    obtain ⟨i, -, rfl⟩ := List.mem_map.mp hx
    simp
  have hres : sweepScl v = .ok ⟨v.n, fun i => sclEntry (v.get i) (some (f p)) (some (f q))⟩ := by
    unfold sweepScl
    rw [if_neg hn.ne']
    dsimp only
    rw [hany, hmin, hmax]
    rfl
  by_cases hpq : f q - f p = 0
  · have hc : ∀ i < v.n, f i = f p := fun i hi => le_antisymm ((hb i hi).trans (by linarith)) (ha i hi)
    have hs : ∀ i < v.n, sclEntry (v.get i) (some (f p)) (some (f q)) = none := by
      intro i hi
      rw [hv i hi]
      simp only [sclEntry, hpq, if_true]
    refine ⟨_, 0, hres, rfl, argmax_none (s := ⟨v.n, _⟩) hn hs, hn, fun i hi => ?_, fun i hi => absurd hi (Nat.not_lt_zero _), fun i hi j hj => ?_,
      fun ⟨i, hi, hne⟩ => absurd ((hc i hi).trans (hc 0 hn).symm) hne, fun _ => hs⟩
    · rw [hc i hi, hc 0 hn]
    · dsimp only
      rw [hs i hi, hs j hj, hc i hi, hc j hj]
      simp [flGt]
  · have hpos : 0 < f q - f p := lt_of_le_of_ne (sub_nonneg.mpr (hb p hp)) (Ne.symm hpq)
    have hs : ∀ i < v.n, sclEntry (v.get i) (some (f p)) (some (f q)) = some ((f i - f p) / (f q - f p)) := by
      intro i hi
      rw [hv i hi]
      simp only [sclEntry, hpq, if_false]
    obtain ⟨k, h1, h2, h3, h4⟩ := argmax_some (s := ⟨v.n, fun i => sclEntry (v.get i) (some (f p)) (some (f q))⟩) hn hs
    have hle : ∀ i j, (f i - f p) / (f q - f p) ≤ (f j - f p) / (f q - f p) ↔ f i ≤ f j := by
      intro i j
      rw [div_le_div_iff_of_pos_right hpos, sub_le_sub_iff_right]
    refine ⟨_, k, hres, rfl, h1, h2, fun i hi => (hle i k).mp (h3 i hi), fun i hi => ?_, fun i hi j hj => ?_,
      fun _ => ⟨_, _, hla, hgb, hs⟩, fun hcon => absurd (by rw [hcon p hp, hcon q hq, sub_self]) hpq⟩
    · exact lt_of_not_ge fun hcon => absurd (h4 i hi) (not_lt.mpr ((hle k i).mpr hcon))
    · dsimp only
      rw [hs i hi, hs j hj, flGt_some, ← not_le, ← not_le, hle]

/-- The surrogate `out` at the points `X` is the posterior, given the data `y`, of a Gaussian process with length-scale parameter `t`, mean `β` and
variance `v` (and the nugget `η`): its mean and standard deviation at each point, the latter between 0 and `√v`. -/
def ScanPosterior (g : Gp) (y : Vec g.nData) (t η : ℝ) (K : Mat g.nData g.nData) (β v : ℝ) (X : Arr2) (out : EvalOut X.r g.dim) : Prop :=
  ∀ a : Fin X.r, 0 < out.sig a ∧ out.sig a ^ 2 ≤ v ∧ ∀ k, IsCross g { theta := some ⟨1, fun _ => t⟩ } (X.get a) k →
    CondNormal (noisyCov g.o.precon v K 0 η) (v • k) v (priorMean g β) β y (out.mu a) (out.sig a ^ 2)

theorem scan_ready {g : Gp} (h : ScanOk g) {theta beta : Arr1} {varK : FVec} {k : ℕ} (ht : 0 < theta.get k) {v : ℝ} (hv : 0 < v)
    (hvk : varK.get k = some v) : Ready g (pickHp theta beta varK k) v (beta.get k) where
  ok := h.ok
  adm := scan_adm h ht _ _
  noise := .inr h.knownF
  precon := h.prec
  ne := h.ne
  vpos := hv
  varK := hvk
  beta := ⟨_, rfl, rfl, rfl⟩
  eta := by
    have := h.eta
    split
    · rename_i hc; rw [if_pos hc] at this; exact this.le
    · rename_i hc; rw [if_neg hc] at this; exact this
  mask := fun hk => absurd hk h.kern

theorem scan_surr {g : Gp} (h : ScanOk g) {theta beta : Arr1} {varK : FVec} {k : ℕ} (ht : 0 < theta.get k) {y : Vec g.nData} {η v : ℝ}
    {K : Mat g.nData g.nData} (hf : ScanFit g (theta.get k) y K η (beta.get k) v) (hy : DataSpec g y) (hη : η = quietEta g K) (hvk : varK.get k = some v)
    {X : Arr2} (hX : X.c = 1) (hXr : 0 < X.r) :
    ∃ out, pickSurr g theta beta varK X k = .ok out ∧ ScanPosterior g y (theta.get k) η K (beta.get k) v X out := by
  have hr := scan_ready h (beta := beta) ht hf.pos hvk
  have hX' : X.c = g.dim := hX.trans h.dim.symm
  obtain ⟨st, hst, hF⟩ := ready_total hr.toV h.eta
  obtain ⟨out, ho, hb⟩ := C37_variance_bounds hr.toV hst hF hX' hXr true
  obtain ⟨out', ho', hc⟩ := C36_posterior_with_scaled_noise hr.toV hst hF hX' hXr true
  rw [ho] at ho'
  cases ho'
  refine ⟨out, ?_, fun a => ⟨(hb a).2.2 h.eta, (hb a).2.1, fun k' hk' => ?_⟩⟩
  · unfold pickSurr
    rw [hst, ok_bind, ho]
  · obtain ⟨N, K', hs, hN⟩ := ready_setup hr.toV hst
    have hK : IsKern g (pickHp theta beta varK k) K := hf.kern
    have hq := (quiet_setup h.ok h.quiet hr.adm hs hK).1
    obtain ⟨Na, h1, h2⟩ := hs.noise
    have h0 : N = 0 := h2.trans (noise_zero h.ok h.quiet h1)
    have := hc N hN K hK y hy a k' hk' ((hb a).2.2 h.eta)
    rw [h0, hq, ← hη, smul_zero] at this
    exact this

/-- **C132.** The computations of the script for a list of length-scale parameters `t₀ … t_{n-1}`. For each the stored mean `β i` and variance `v i` are more
likely for the data than any other pair (unless the variance is at its lower limit), and the stored likelihood `l i` is the likelihood of the fit up
to a constant and the penalty; scaling keeps their order. The surrogates for the first, one other and the last position succeed and are the
posteriors for the stored parameters: with gradients the other position has the largest likelihood in the list, without gradients it is
position 62. -/
theorem C132_scan {g : Gp} (h : ScanOk g) (env : LkdEnv) {theta : Arr1} (ht : ∀ i < theta.n, 0 < theta.get i) (hn : 0 < theta.n)
    (h62 : g.useGrad = true ∨ 62 < theta.n) {y : Vec g.nData} (hy : DataSpec g y) {X : Arr2} (hX : X.c = 1) (hXr : 0 < X.r) :
    ∃ (K : ℕ → Mat g.nData g.nData) (η β v l : ℕ → ℝ) (s : FVec) (k : ℕ) (out : ℕ → EvalOut X.r g.dim),
      surr1d g env theta X = .ok (s, [0, k, theta.n - 1], [out 0, out k, out (theta.n - 1)]) ∧ s.n = theta.n ∧ k < theta.n ∧
      (g.useGrad = true → ∀ i < theta.n, l i ≤ l k) ∧ (g.useGrad = false → k = 62) ∧
      (∀ i < theta.n, ScanFit g (theta.get i) y (K i) (η i) (β i) (v i) ∧
        (varKMin < maha (noisyCov g.o.precon 1 (K i) 0 (η i)) (y - priorMean g (β i)) / g.nData →
          l i = scanLog g (K i) (η i) y (β i) (v i) + g.nData / 2 * (1 + Real.log (2 * Real.pi)) - (varKPnlt env.lkd (v i) g.fval).1) ∧
        ScanPosterior g y (theta.get i) (η i) (K i) (β i) (v i) X (out i)) ∧
      ((∃ i < theta.n, l i ≠ l 0) → ∃ a b, IsLeast (l '' Set.Iio theta.n) a ∧ IsGreatest (l '' Set.Iio theta.n) b ∧
        ∀ i < theta.n, s.get i = some ((l i - a) / (b - a))) := by
  obtain ⟨r, hr, n1, n2, n3, hrow⟩ := scan_raw h env ht hy
  have hch : ∀ i, ∃ (K : Mat g.nData g.nData) (η v x : ℝ), i < theta.n → r.1.get i = some x ∧ r.2.2.get i = some v ∧
      ScanFit g (theta.get i) y K η (r.2.1.get i) v ∧ η = quietEta g K ∧
      (varKMin < maha (noisyCov g.o.precon 1 K 0 η) (y - priorMean g (r.2.1.get i)) / g.nData →
        x = scanLog g K η y (r.2.1.get i) v + g.nData / 2 * (1 + Real.log (2 * Real.pi)) - (varKPnlt env.lkd v g.fval).1) := by
    intro i
    by_cases hi : i < theta.n
    · obtain ⟨K, η, v, x, a, b, c, d, e⟩ := hrow i hi
      exact ⟨K, η, v, x, fun _ => ⟨a, b, c, d, e⟩⟩
    · exact ⟨0, 0, 0, 0, fun h => absurd h hi⟩
  choose K η v l hrow using hch
  have hsur : ∀ i, ∃ out : EvalOut X.r g.dim, i < theta.n → pickSurr g theta r.2.1 r.2.2 X i = .ok out ∧
      ScanPosterior g y (theta.get i) (η i) (K i) (r.2.1.get i) (v i) X out := by
    intro i
    by_cases hi : i < theta.n
    · obtain ⟨-, b, c, d, -⟩ := hrow i hi
      obtain ⟨out, h1, h2⟩ := scan_surr h (ht i hi) c hy d b hX hXr
      exact ⟨out, fun _ => ⟨h1, h2⟩⟩
    · exact ⟨⟨fun _ => 0, fun _ => 0, none, none, none, none⟩, fun h => absurd h hi⟩
  choose out hout using hsur
  obtain ⟨s, k, s1, s2, s3, s4, s5, -, -, s8, -⟩ := scan_scl (v := r.1) (n1 ▸ hn) (f := l) (fun i hi => (hrow i (n1 ▸ hi)).1)
  rw [n1] at s2 s4 s5 s8
  have hpick : ∃ k', sweepPicks g.useGrad s = .ok [0, k', theta.n - 1] ∧ k' < theta.n ∧ (g.useGrad = true → k' = k) ∧ (g.useGrad = false → k' = 62) := by
    unfold sweepPicks
    cases hu : g.useGrad with
    | true => exact ⟨k, by rw [if_pos rfl, s3, ok_bind, s2]; rfl, s4, fun _ => rfl, fun h => by cases h⟩
    | false =>
      have h62' : 62 < theta.n := by
        rcases h62 with h | h
        · rw [hu] at h; cases h
        · exact h
      exact ⟨62, by rw [if_neg (by simp), if_neg (by omega), s2]; rfl, h62', (fun h => by cases h), fun _ => rfl⟩
  obtain ⟨k', p1, p2, p3, p4⟩ := hpick
  refine ⟨K, η, fun i => r.2.1.get i, v, l, s, k', out, ?_, s2, p2, fun hu i hi => by rw [p3 hu]; exact s5 i hi, p4,
    fun i hi => ⟨(hrow i hi).2.2.1, (hrow i hi).2.2.2.2, (hout i hi).2⟩, s8⟩
  unfold surr1d
  simp only [hr, ok_bind, s1, p1, List.mapM_cons, List.mapM_nil, (hout 0 hn).1, (hout k' p2).1, (hout (theta.n - 1) (by omega)).1]
  rfl

/-- **C132.** With gradients and without the penalty the second surrogate is the posterior for the mean, variance and length scale of largest likelihood: no
other mean, variance and length scale of the list are more likely for the data. -/
theorem C132_most_likely {g : Gp} (h : ScanOk g) (env : LkdEnv) {theta : Arr1} (ht : ∀ i < theta.n, 0 < theta.get i) (hn : 0 < theta.n)
    (hu : g.useGrad = true) (hp : env.lkd.pnltUse = false) {y : Vec g.nData} (hy : DataSpec g y)
    (hfl : ∀ i < theta.n, ∀ K η β v, ScanFit g (theta.get i) y K η β v → varKMin < maha (noisyCov g.o.precon 1 K 0 η) (y - priorMean g β) / g.nData)
    {X : Arr2} (hX : X.c = 1) (hXr : 0 < X.r) :
    ∃ s k o0 o o1 K η β v, surr1d g env theta X = .ok (s, [0, k, theta.n - 1], [o0, o, o1]) ∧ k < theta.n ∧
      ScanPosterior g y (theta.get k) η K β v X o ∧ ScanFit g (theta.get k) y K η β v ∧
      ∀ i < theta.n, ∀ K' η', IsKern g { theta := some ⟨1, fun _ => theta.get i⟩ } K' → IsNugget g.o 1 K' 0 η' →
        ∀ c w, 0 < w → scanLog g K' η' y c w ≤ scanLog g K η y β v := by
  obtain ⟨K, η, β, v, l, s, k, out, h1, -, h3, h4, -, h6, -⟩ := C132_scan h env ht hn (.inl hu) hy hX hXr
  refine ⟨s, k, _, _, _, K k, η k, β k, v k, h1, h3, (h6 k h3).2.2, (h6 k h3).1, ?_⟩
  intro i hi K' η' hK hη c w hw
  obtain ⟨f1, f2, -⟩ := h6 i hi
  have hK' : K' = K i := isKern_unique h.ok (scan_adm h (ht i hi) none none) hK f1.kern
  subst hK'
  have hη' : η' = η i := by
    have a := hη; have b := f1.nugget
    unfold IsNugget at a b
    split at a
    · rename_i hc; rw [if_pos hc] at b; rw [a, b]
    · rename_i hc; rw [if_neg hc] at b
      obtain ⟨m, e1, g1⟩ := a
      obtain ⟨m', e2, g2⟩ := b
      rw [e1, e2, g1.unique g2]
  subst hη'
  have hle := h4 hu i hi
  have hb := hfl i hi _ _ _ _ f1
  rw [f2 hb, (h6 k h3).2.1 (hfl k h3 _ _ _ _ (h6 k h3).1)] at hle
  have hz : ∀ x, (varKPnlt env.lkd x g.fval).1 = 0 := fun x => by unfold varKPnlt; rw [hp]; rfl
  rw [hz, hz] at hle
  have hle' : scanLog g (K i) (η i) y (β i) (v i) ≤ scanLog g (K k) (η k) y (β k) (v k) := by linarith
  by_cases hcw : (c, w) = (β i, v i)
  · obtain ⟨rfl, rfl⟩ := Prod.mk.inj hcw
    exact hle'
  · exact (f1.best hb c w hw hcw).le.trans hle'

/-- **C132.** Without gradients and with at most 62 values the script raises, after all likelihoods were computed. -/
theorem C132_too_few {g : Gp} (h : ScanOk g) (env : LkdEnv) {theta : Arr1} (ht : ∀ i < theta.n, 0 < theta.get i) (hn : 0 < theta.n)
    (hu : g.useGrad = false) (h62 : theta.n ≤ 62) (X : Arr2) : surr1d g env theta X = .error .index := by
  obtain ⟨y, V, -, -, hy, -⟩ := lkdData_ok h.ok h.ne
  obtain ⟨r, hr, n1, n2, n3, hrow⟩ := scan_raw h env ht hy
  choose! f hf using fun i (hi : i < theta.n) => (show ∃ x, r.1.get i = some x from by obtain ⟨K, η, v, x, a, -⟩ := hrow i hi; exact ⟨x, a⟩)
  obtain ⟨s, k, s1, s2, -⟩ := scan_scl (v := r.1) (n1 ▸ hn) (f := f) (fun i hi => hf i (n1 ▸ hi))
  have hp : sweepPicks g.useGrad s = .error .index := by
    unfold sweepPicks
    rw [hu, if_neg (by simp), if_pos (by rw [s2, n1]; exact h62)]
  unfold surr1d
  simp only [hr, ok_bind, s1, hp]
  rfl

/-- **C132.** Without data the scaled likelihoods cannot be computed: an empty list of length scales raises. -/
theorem C132_empty (g : Gp) (env : LkdEnv) {theta : Arr1} (hn : theta.n = 0) (X : Arr2) : surr1d g env theta X = .error .raised := by
  have hr : sweepRaw g env theta = .ok (⟨theta.n, fun _ => some 0⟩, ⟨theta.n, fun _ => 0⟩, ⟨theta.n, fun _ => some 0⟩) := by
    unfold sweepRaw
    rw [hn]
    rfl
  unfold surr1d
  rw [hr, ok_bind]
  unfold sweepScl
  rw [if_pos hn]
  rfl


/-- **C132.** The rational quadratic kernel, which the script lists as a choice, has no value for its parameter: the script raises. -/
theorem C132_ratquad_raises {g : Gp} (hg : GpOk g) (env : LkdEnv) (hk : g.kernel = .ratQuad) (hno : g.noisy = false) (hkF : g.knownFval = true)
    (hkG : g.useGrad = true → g.knownFgrad = true) {theta : Arr1} (ht : ∀ i < theta.n, 0 < theta.get i) (hd : g.dim = 1) (hn : 0 < theta.n) (X : Arr2) :
    surr1d g env theta X = .error .typeError := by
  have step : calcLkdAll g env (sweepHp (theta.get 0)) true false = .error .typeError := by
    obtain ⟨R, hR, -, hr, hc, -⟩ := calcRtensor_ok (X := g.x) (Y := g.x) rfl
    have hadm : HpAdm g { theta := some ⟨1, fun _ => theta.get 0⟩, kernel := some 1 } :=
      ⟨⟨_, rfl, hd.symm, fun _ _ => ht 0 hn⟩, fun _ => ⟨1, one_pos, rfl⟩, fun _ => rfl, (fun h => by rw [hkF] at h; cases h), fun _ _ => rfl,
        fun hu h => by rw [hkG hu] at h; cases h⟩
    obtain ⟨N, hN, -⟩ := calcNoiseVec_ok hg hadm (.inr hkF)
    have hN' : calcNoiseVec g (sweepHp (theta.get 0)) = .ok N := hN
    have hkern : calcKern g R ⟨1, fun _ => theta.get 0⟩ none = .error .typeError := by
      unfold calcKern calcKernGrad calcKernBase
      rw [hk]
      split <;> rfl
    unfold calcLkdAll
    rw [hR, ok_bind]
    have : lkdCov g (sweepHp (theta.get 0)) R true = .error .typeError := by
      unfold lkdCov calcKernWChofac calcAllK
      rw [hno, if_neg (by simp), pyAssert_true rfl, ok_bind]
      simp only [sweepHp, need, ok_bind]
      rw [pyAssert_true (hr.trans hc.symm), ok_bind]
      have hN2 : calcNoiseVec g { theta := some ⟨1, fun _ => theta.get 0⟩ } = .ok N := hN'
      simp only [pure_eq_ok, ok_bind, Bool.false_eq_true, if_false]
      rw [pyAssert_true one_pos]
      simp only [ok_bind, hN2, hkern]
      rfl
    rw [this]
    rfl
  unfold surr1d
  have : sweepRaw g env theta = .error .typeError := by
    unfold sweepRaw forRange
    obtain ⟨m, hm⟩ : ∃ m, theta.n = m + 1 := ⟨theta.n - 1, by omega⟩
    rw [hm]
    simp only [Nat.sub_zero, List.range'_succ, List.foldlM_cons, Nat.zero_add, step]
    rfl
  rw [this]
  rfl

theorem above_limit_of {g : Gp} (hg : GpOk g) {hp : HpVals} (hh : HpAdm g hp) (hk : g.knownFval = true) (hprec : g.o.precon = true → g.useGrad = true)
    (hne : 0 < g.nEval) {y : Vec g.nData} (hy : DataSpec g y) {K : Mat g.nData g.nData} (hK : IsKern g hp K) {η : ℝ} (hpd : (noisyCov g.o.precon 1 K 0 η).PosDef)
    {a b : ℕ} (ha : a < g.nEval) (hb : b < g.nEval) (hη : 0 ≤ η) (hlt : varKMin * g.nData * (4 + 2 * η) < (g.fval.get a - g.fval.get b) ^ 2) (β : ℝ) :
    varKMin < maha (noisyCov g.o.precon 1 K 0 η) (y - priorMean g β) / g.nData := by
  obtain ⟨R, hR, -⟩ := calcRtensor_ok (X := g.x) (Y := g.x) rfl
  obtain ⟨N', K', out, -, g2, g3, gpsd, -, gone, -, -⟩ := calcAllK_ok hg hh (.inr hk) hprec hne hR true true (some 1) false
    (v := 1) one_pos ⟨⟨1, rfl, fun _ => rfl⟩, fun h => by cases h⟩
  obtain rfl : K = K' := isKern_unique hg hh hK g3
  have hnd : g.nEval ≤ g.nData := by rw [hg.nData]; omega
  set A := noisyCov g.o.precon 1 K 0 η with hA
  set p : Fin g.nData := ⟨a, ha.trans_le hnd⟩
  set q : Fin g.nData := ⟨b, hb.trans_le hnd⟩
  set r := y - priorMean g β
  by_cases hpq : p = q
  · have : a = b := congrArg Fin.val hpq
    subst this
    have h1 : (0 : ℝ) ≤ varKMin * g.nData * (4 + 2 * η) :=
      mul_nonneg (mul_nonneg varKMin_pos.le (Nat.cast_nonneg _)) (by linarith)
    rw [sub_self] at hlt
    norm_num at hlt
    linarith
  · have hnpos : (0 : ℝ) < g.nData := by exact_mod_cast (Nat.zero_le _).trans_lt p.2
    set w : Vec g.nData := Pi.single p 1 - Pi.single q 1 with hw
    have hwr : w ⬝ᵥ r = g.fval.get a - g.fval.get b := by
      rw [hw, sub_dotProduct, single_dotProduct, single_dotProduct, one_mul, one_mul]
      show y p - priorMean g β p - (y q - priorMean g β q) = _
      rw [hy.val p ha, hy.val q hb]
      simp only [priorMean, p, q, ha, hb, if_true]
      ring
    have hdiag : K p p = 1 := gone p ha
    have hdiag' : K q q = 1 := gone q hb
    have hsym : K q p = K p q := by simpa using gpsd.1.apply p q
    have hlow : -1 ≤ K p q := by
      have h2 : 0 ≤ (Pi.single p (1 : ℝ) + Pi.single q 1) ⬝ᵥ K *ᵥ (Pi.single p 1 + Pi.single q 1) := by
        have h3 := gpsd.dotProduct_mulVec_nonneg (Pi.single p (1 : ℝ) + Pi.single q 1)
        rwa [star_trivial] at h3
      rw [mulVec_add, add_dotProduct, single_dotProduct, single_dotProduct] at h2
      simp only [Pi.add_apply, mulVec_single, one_mul, MulOpposite.op_one, one_smul, col_apply, hdiag, hdiag', hsym] at h2
      linarith
    have hquad : w ⬝ᵥ A *ᵥ w = 2 * (1 + η) - 2 * K p q := by
      rw [hw, mulVec_sub, sub_dotProduct, single_dotProduct, single_dotProduct]
      simp only [Pi.sub_apply, mulVec_single, one_mul, MulOpposite.op_one, one_smul, col_apply]
      have e1 : A p p = 1 + η := by rw [hA]; simp [noisyCov, hdiag]
      have e2 : A q q = 1 + η := by rw [hA]; simp [noisyCov, hdiag']
      have e3 : A p q = K p q := by rw [hA]; simp [noisyCov, hpq]
      have e4 : A q p = K p q := by rw [hA]; simp [noisyCov, Ne.symm hpq, hsym]
      rw [e1, e2, e3, e4]
      ring
    have hcs : (w ⬝ᵥ r) ^ 2 ≤ (w ⬝ᵥ A *ᵥ w) * maha A r := by
      have hdet : IsUnit A.det := hpd.det_pos.ne'.isUnit
      have hT : Aᵀ = A := by simpa [conjTranspose_eq_transpose_of_trivial] using hpd.1.eq
      have h1 := inv_cs hpd (A *ᵥ w) r
      have e1 : (A *ᵥ w) ⬝ᵥ A⁻¹ *ᵥ r = w ⬝ᵥ r := by
        rw [dotProduct_comm, dotProduct_mulVec, ← mulVec_transpose, hT, mulVec_mulVec, mul_nonsing_inv _ hdet, one_mulVec, dotProduct_comm]
      have e2 : (A *ᵥ w) ⬝ᵥ A⁻¹ *ᵥ (A *ᵥ w) = w ⬝ᵥ A *ᵥ w := by
        rw [mulVec_mulVec, nonsing_inv_mul _ hdet, one_mulVec, dotProduct_comm]
      rw [e1, e2] at h1
      exact h1
    rw [hwr, hquad] at hcs
    have hm0 := maha_nonneg hpd r
    rw [lt_div_iff₀ hnpos]
    have h4 : (2 * (1 + η) - 2 * K p q) * maha A r ≤ (4 + 2 * η) * maha A r := mul_le_mul_of_nonneg_right (by linarith) hm0
    have h5 : 0 < 4 + 2 * η := by linarith
    nlinarith

/-- **C132.** The variance is above its lower limit if two of the values differ enough; for a constant nugget that does not depend on the length scale. -/
theorem C132_above_limit {g : Gp} (h : ScanOk g) {t : ℝ} (ht : 0 < t) {y : Vec g.nData} (hy : DataSpec g y) {K : Mat g.nData g.nData} {η β v : ℝ}
    (hf : ScanFit g t y K η β v) {a b : ℕ} (ha : a < g.nEval) (hb : b < g.nEval) (hη : 0 ≤ η)
    (hlt : varKMin * g.nData * (4 + 2 * η) < (g.fval.get a - g.fval.get b) ^ 2) :
    varKMin < maha (noisyCov g.o.precon 1 K 0 η) (y - priorMean g β) / g.nData :=
  above_limit_of h.ok (scan_adm h ht none none) h.knownF h.prec h.ne hy hf.kern hf.pd ha hb hη hlt β

/-- Two evaluations with gradients, without noise, in one dimension. -/
def exGpScan : Gp := { exGp with
  dim := 1
  kernel := .sqExp
  nGrad := 2
  nData := 4
  bvec := none
  o := { exGp.o with etaConst := true, etaK := 1 }
  knownFgrad := true
  fvalZero := true
  fgradZero := true
  noisy := false
  x := ⟨2, 1, fun p _ => p⟩
  fval := ⟨2, fun p => p⟩
  stdFval := some ⟨2, fun _ => 0⟩
  grad := some ⟨2, 1, fun p _ => p + 1⟩
  stdGrad := some ⟨2, 1, fun _ _ => 0⟩ }

theorem exScan_ok : ScanOk exGpScan where
  ok := by
    constructor
    all_goals first
      | rfl
      | exact fun _ => rfl
      | exact fun _ _ => rfl
      | exact fun _ => ⟨_, rfl, rfl⟩
      | exact fun _ => ⟨_, rfl, rfl, rfl⟩
      | exact fun _ _ => ⟨_, rfl, rfl, rfl⟩
      | (intro h; simp [exGpScan, exGp] at h; done)
      | (intro _ h; simp [exGpScan, exGp] at h; done)
      | (simp [exGpScan, exGp]; done)
  dim := rfl
  kern := by simp [exGpScan]
  quiet := rfl
  knownF := rfl
  knownG := fun _ => rfl
  ne := by simp [exGpScan, exGp]
  eta := by norm_num [exGpScan]
  fac := .inl ⟨rfl, rfl⟩

-- the hypotheses of `C132_most_likely` are met for any list of length scales
example (env : LkdEnv) (hp : env.lkd.pnltUse = false) {theta : Arr1} (ht : ∀ i < theta.n, 0 < theta.get i) (hn : 0 < theta.n) {y : Vec exGpScan.nData}
    (hy : DataSpec exGpScan y) :=
  C132_most_likely exScan_ok env ht hn rfl hp hy (fun i hi K η β v hf => C132_above_limit exScan_ok (ht i hi) hy hf (a := 0) (b := 1)
    (by simp [exGpScan, exGp]) (by simp [exGpScan, exGp]) (by have := hf.nugget; simp [IsNugget, exGpScan] at this; rw [this]; exact zero_le_one)
    (by
      have h1 : η = 1 := by have := hf.nugget; simpa [IsNugget, exGpScan] using this
      rw [h1]
      norm_num [exGpScan, exGp, varKMin])) (X := ⟨5, 1, fun p _ => p⟩) rfl (by norm_num)

/-- Two evaluations without gradients. -/
theorem exScan_plain : ScanOk { exGpVary 3 with fval := ⟨2, fun p => p⟩ } where
  ok := by
    have h := exGpVary_ok 3
    exact ⟨h.x_r, h.x_c, rfl, h.mask, h.nGrad, h.noMask, h.nData, h.grad_none, h.grad_some, h.std_fval, h.std_fgrad, h.fzero, h.gzero, h.noisy⟩
  dim := rfl
  kern := by simp [exGpVary]
  quiet := rfl
  knownF := rfl
  knownG := fun h => (nomatch h)
  ne := Nat.two_pos
  eta := by norm_num [exGpVary]
  fac := .inr ⟨⟨rfl, rfl, rfl, rfl, by norm_num [exGpVary], .inl rfl, fun hp => ⟨0, fun a _ => by simp [valVar, exGpVary, exGpFree, exGp]⟩⟩, le_refl _⟩

-- the hypotheses of `C132_scan` are met for 101 values, and those of `C132_too_few` for 4
example (env : LkdEnv) {y : Vec 2} (hy : DataSpec { exGpVary 3 with fval := ⟨2, fun p => p⟩ } y) :=
  C132_scan exScan_plain env (theta := ⟨101, fun i => i + 1⟩) (fun i _ => by positivity) (by norm_num) (.inr (by norm_num)) hy (X := ⟨5, 1, fun p _ => p⟩)
    rfl (by norm_num)
example (env : LkdEnv) := C132_too_few exScan_plain env (theta := ⟨4, fun i => i + 1⟩) (fun i _ => by positivity) (by norm_num) rfl (by norm_num)
  ⟨5, 1, fun p _ => p⟩
-- and those of `C132_ratquad_raises`
example (env : LkdEnv) := C132_ratquad_raises (g := { exGpScan with kernel := .ratQuad })
  (by have h := exScan_ok.ok; exact ⟨h.x_r, h.x_c, h.fval_n, h.mask, h.nGrad, h.noMask, h.nData, h.grad_none, h.grad_some, h.std_fval, h.std_fgrad, h.fzero, h.gzero, h.noisy⟩)
  env rfl rfl rfl (fun _ => rfl) (theta := ⟨4, fun i => i + 1⟩) (fun i _ => by positivity) rfl (by norm_num) ⟨5, 1, fun p _ => p⟩

/-- **C132.** The positions found as local maxima (the script then replaces them) are those whose likelihood is larger than at both neighbours, never an end of the
list; if there is none, the middle. -/
theorem C132_local_maxima {v : FVec} (hn : 0 < v.n) {f : ℕ → ℝ} (hv : ∀ i < v.n, v.get i = some (f i)) :
    ∃ s, sweepScl v = .ok s ∧
      ((∃ i, 0 < i ∧ i + 1 < v.n ∧ f (i - 1) < f i ∧ f (i + 1) < f i) →
        ∀ i, i ∈ localMaxima s ↔ 0 < i ∧ i + 1 < v.n ∧ f (i - 1) < f i ∧ f (i + 1) < f i) ∧
      ((¬ ∃ i, 0 < i ∧ i + 1 < v.n ∧ f (i - 1) < f i ∧ f (i + 1) < f i) → localMaxima s = [v.n / 2]) := by
  obtain ⟨s, k, s1, s2, -, -, -, -, s7, -⟩ := scan_scl hn hv
  have hmem : ∀ i, i ∈ ((List.range s.n).filter fun i =>
      (decide (i + 1 < s.n) && flGt (s.get i) (s.get (i + 1))) && (decide (0 < i) && flGt (s.get i) (s.get (i - 1)))) ↔
      0 < i ∧ i + 1 < v.n ∧ f (i - 1) < f i ∧ f (i + 1) < f i := by
    intro i
    rw [List.mem_filter, List.mem_range, s2]
    simp only [Bool.and_eq_true, decide_eq_true_eq]
    constructor
    · rintro ⟨h1, ⟨h2, h3⟩, h4, h5⟩
      exact ⟨h4, h2, (s7 i h1 (i - 1) (by omega)).mp h5, (s7 i h1 (i + 1) h2).mp h3⟩
    · rintro ⟨h1, h2, h3, h4⟩
      exact ⟨by omega, ⟨h2, (s7 i (by omega) (i + 1) h2).mpr h4⟩, h1, (s7 i (by omega) (i - 1) (by omega)).mpr h3⟩
  refine ⟨s, s1, fun ⟨j, hj⟩ i => ?_, fun hno => ?_⟩
  · unfold localMaxima
    dsimp only
    rw [if_neg (List.ne_nil_of_mem ((hmem j).mpr hj)), hmem]
  · unfold localMaxima
    dsimp only
    rw [if_pos (List.eq_nil_iff_forall_not_mem.mpr fun i hi => hno ⟨i, (hmem i).mp hi⟩), s2]

-- three values with a maximum in the middle
example : ∃ s, sweepScl ⟨3, fun i => some (if i = 1 then 1 else 0)⟩ = .ok s ∧ 1 ∈ localMaxima s := by
  obtain ⟨s, h1, h2, -⟩ := C132_local_maxima (v := ⟨3, fun i => some (if i = 1 then 1 else 0)⟩) (f := fun i => if i = 1 then 1 else 0) (by norm_num)
    (fun i _ => rfl)
  exact ⟨s, h1, (h2 ⟨1, by norm_num⟩ 1).mpr (by norm_num)⟩

end Props
