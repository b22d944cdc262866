import Verif.Props.Contin
import Verif.Props.LkdAllEx

/-! Claim theorems for C114: first-order conditions at a minimiser of the optimiser's objective. -/

open Np GP Spec Matrix Filter Topology

noncomputable section

namespace Props

/-- A derivative at a point that is smallest among the nearby points on its right. -/
theorem deriv_right {f : ℝ → ℝ} {f' a : ℝ} (h : HasDerivAt f f' a) (hf : ∀ᶠ u in 𝓝[>] a, f a ≤ f u) : 0 ≤ f' := by
  have ht := h.tendsto_slope.mono_left (nhdsWithin_mono a (show Set.Ioi a ⊆ {a}ᶜ from fun u (hu : a < u) => hu.ne'))
  refine ge_of_tendsto ht ?_
  filter_upwards [hf, self_mem_nhdsWithin] with u h1 (h2 : a < u)
  rw [slope_def_field]
  exact div_nonneg (sub_nonneg.mpr h1) (sub_nonneg.mpr h2.le)

theorem deriv_left {f : ℝ → ℝ} {f' a : ℝ} (h : HasDerivAt f f' a) (hf : ∀ᶠ u in 𝓝[<] a, f a ≤ f u) : f' ≤ 0 := by
  have ht := h.tendsto_slope.mono_left (nhdsWithin_mono a (show Set.Iio a ⊆ {a}ᶜ from fun u (hu : u < a) => hu.ne))
  refine le_of_tendsto ht ?_
  filter_upwards [hf, self_mem_nhdsWithin] with u h1 (h2 : u < a)
  rw [slope_def_field]
  exact div_nonpos_of_nonneg_of_nonpos (sub_nonneg.mpr h1) (sub_nonpos.mpr h2.le)

/-- **C114.** Let `x` respect the bounds, and let the objective at `x` be no larger than at any vector within the bounds. Then the gradient that
the gradient callback returns at `x`, in each coordinate, is not negative if `x` is below the upper bound and not positive if `x` is above the
lower bound (so it is 0 if `x` is strictly between them). -/
theorem C114_first_order {g : Gp} (H : LkdHyp g) {lo : LogOpts} {ok : Bool} {env : LkdEnv} (hi : setupHpIdx g lo ok = .ok env.info)
    (hker : g.kernel = .ratQuad → ok = true) {x : Arr1} {bl bu : ℕ → ℝ} (hx : InBox env.info.nHp bl bu x)
    (hpos : ∀ p s, (gpSlots g ok)[p]? = some s → slotLog lo s = false → 0 < x.get p) {hp : HpVals}
    (hdec : hpVec2Dataclass g env.info x = .ok hp) (hsupp : ∀ th, hp.theta = some th → KernSupp g th)
    (hpre : env.useCstr = true → g.o.precon = false) {R : Arr3} (hR : calcRtensor g.x g.x = .ok R)
    (hcond : env.useCstr = true → ∀ out, lkdCov g hp R true = .ok out → condNum g.o out.Kcov < g.o.condMaxAbs ∧
      (g.o.fro = true → ∀ h : 0 < g.nData, 1 < out.Kcov ⟨0, h⟩ ⟨0, h⟩))
    (hfl : g.noisy = false → ∀ li v, calcLkdAll g env hp env.useCstr true = .ok (li, true) → li.varK = some v → varKMin < v)
    {st : OptzState env.info.nHp} (hst : CacheReach g env st)
    (hmin : ∀ x' f f' s1 s2, InBox env.info.nHp bl bu x' → returnOptzVal g env st x = .ok (f, s1) → returnOptzVal g env st x' = .ok (f', s2) → f ≤ f') :
    ∃ gr st', returnOptzGrad g env st x = .ok (gr, st') ∧
      ∀ p : Fin env.info.nHp, (x.get p < bu p → 0 ≤ gr p) ∧ (bl p < x.get p → gr p ≤ 0) := by
  obtain ⟨gr, st', h1, h2⟩ := C32_optimiser_gradient H hi hker hx.1 hpos hdec hsupp hpre hR hcond hfl hst
  refine ⟨gr, st', h1, fun p => ?_⟩
  obtain ⟨f, hf, hd⟩ := h2 p
  have hself : setEntry x p (x.get p) = x := by
    unfold setEntry
    rw [Function.update_eq_self]
  obtain ⟨s0, h0⟩ := hf.self_of_nhds
  rw [hself] at h0
  have hbox : ∀ u, bl p ≤ u → u ≤ bu p → InBox env.info.nHp bl bu (setEntry x p u) := by
    intro u hu1 hu2
    refine ⟨hx.1, fun q hq => ?_⟩
    by_cases e : q = p
    · subst e
      simp only [setEntry, Function.update_self]
      exact ⟨hu1, hu2⟩
    · simp only [setEntry, Function.update_of_ne e]
      exact hx.2 q hq
  have hle : ∀ u, bl p ≤ u → u ≤ bu p → (∃ st', returnOptzVal g env st (setEntry x p u) = .ok (f u, st')) → f (x.get p) ≤ f u := by
    rintro u hu1 hu2 ⟨s2, hs2⟩
    exact hmin _ _ _ _ _ (hbox u hu1 hu2) h0 hs2
  have hb := hx.2 p p.2
  refine ⟨fun hlt => deriv_right hd ?_, fun hlt => deriv_left hd ?_⟩
  · filter_upwards [mem_nhdsWithin_of_mem_nhds hf, self_mem_nhdsWithin, mem_nhdsWithin_of_mem_nhds (Iio_mem_nhds hlt)] with u a1 (a2 : x.get p < u) a3
    exact hle u (hb.1.trans a2.le) (le_of_lt a3) a1
  · filter_upwards [mem_nhdsWithin_of_mem_nhds hf, self_mem_nhdsWithin, mem_nhdsWithin_of_mem_nhds (Ioi_mem_nhds hlt)] with u a1 (a2 : u < x.get p) a3
    exact hle u (le_of_lt a3) (a2.le.trans hb.2) a1

/-- **C114**, the problem has a solution. Without a condition-number constraint, for all bounds the objective is
defined within them, and there is a vector at which it is smallest and the gradient callback returns a gradient that satisfies the first-order conditions, in whatever order the callbacks
were called before. -/
theorem C114_solution {g : Gp} (H : LkdHyp g) {lo : LogOpts} {ok : Bool} {env : LkdEnv} (hi : setupHpIdx g lo ok = .ok env.info)
    (hker : g.kernel = .ratQuad → ok = true) (hcstr : env.useCstr = false) {bl bu : ℕ → ℝ} (hb : ∀ p < env.info.nHp, bl p ≤ bu p)
    (hpos : ∀ p s, (gpSlots g ok)[p]? = some s → slotLog lo s = false → 0 < bl p)
    (hsupp : ∀ x hp th, InBox env.info.nHp bl bu x → hpVec2Dataclass g env.info x = .ok hp → hp.theta = some th → KernSupp g th)
    (hfl : g.noisy = false → ∀ x hp li v, InBox env.info.nHp bl bu x → hpVec2Dataclass g env.info x = .ok hp →
      calcLkdAll g env hp false true = .ok (li, true) → li.varK = some v → varKMin < v) :
    ∃ x L, InBox env.info.nHp bl bu x ∧
      (∀ x' st, InBox env.info.nHp bl bu x' → CacheReach g env st → ∃ f s1, returnOptzVal g env st x' = .ok (f, s1) ∧ L ≤ f) ∧
      ∀ st, CacheReach g env st → (∃ s1, returnOptzVal g env st x = .ok (L, s1)) ∧
        ∃ gr st', returnOptzGrad g env st x = .ok (gr, st') ∧
          ∀ p : Fin env.info.nHp, (x.get p < bu p → 0 ≤ gr p) ∧ (bl p < x.get p → gr p ≤ 0) := by
  have hη : if g.o.etaConst then 0 < g.o.etaK else 1 < g.o.condMaxTarget := by rw [if_pos H.const]; exact H.eta
  obtain ⟨x, L, h1, -, h3, h4⟩ := C111_objective H.ok H.noise H.precon H.ne hη hi hker (fun h => by rw [hcstr] at h; cases h) hb hpos
  have hlt : ∀ {p s}, (gpSlots g ok)[p]? = some s → p < env.info.nHp := by
    intro p s hps
    obtain ⟨info', i1, i3, -⟩ := C54_object_layout g lo ok
    rw [hi] at i1; cases i1
    obtain ⟨h, -⟩ := List.getElem?_eq_some_iff.mp hps
    omega
  obtain ⟨R, hR, -⟩ := calcRtensor_ok (X := g.x) (Y := g.x) rfl
  have hpos' : ∀ x, InBox env.info.nHp bl bu x → ∀ p s, (gpSlots g ok)[p]? = some s → slotLog lo s = false → 0 < x.get p := fun x hx p s a b =>
    lt_of_lt_of_le (hpos p s a b) (hx.2 p (hlt a)).1
  have hno : ∀ {P : Prop}, env.useCstr = true → P := fun h => by rw [hcstr] at h; cases h
  have val : ∀ x st, InBox env.info.nHp bl bu x → CacheReach g env st → ∃ f s1, returnOptzVal g env st x = .ok (f, s1) := by
    intro x st hx hst
    obtain ⟨hp, hdec, -, -⟩ := decode_adm hi hx.1 hker (hpos' x hx)
    obtain ⟨gr, st', k1, -⟩ := C32_optimiser_gradient H hi hker hx.1 (hpos' x hx) hdec (fun th ht => hsupp x hp th hx hdec ht) hno hR hno
      (fun hn li v a b => hfl hn x hp li v hx hdec (by rw [hcstr] at a; exact a) b) hst
    obtain ⟨e1, e2, -, -⟩ := C64_callbacks_fresh hst x
    rw [k1] at e2
    cases hc : computeLkd g env x false true with
    | error e => rw [hc] at e2; cases e2
    | ok r =>
      rw [hc] at e1
      cases hv : returnOptzVal g env st x with
      | error e => rw [hv] at e1; cases e1
      | ok q => exact ⟨q.1, q.2, rfl⟩
  obtain ⟨hp, hdec, -, -⟩ := decode_adm hi h1.1 hker (hpos' x h1)
  refine ⟨x, -L, h1, fun x' st hx' hst => ?_, fun st hst => ⟨?_, ?_⟩⟩
  · obtain ⟨f, s1, hf⟩ := val x' st hx' hst
    exact ⟨f, s1, hf, h4 x' st f s1 hx' hst hf⟩
  · obtain ⟨f, s1, hf⟩ := val x st h1 hst
    rw [← h3 st f s1 hst hf]
    exact ⟨s1, hf⟩
  · refine C114_first_order H hi hker h1 (hpos' x h1) hdec (fun th ht => hsupp x hp th h1 hdec ht) hno hR
      hno (fun hn li v a b => hfl hn x hp li v h1 hdec (by rw [hcstr] at a; exact a) b) hst ?_
    intro x' f f' s1 s2 hx' hf hf'
    rw [h3 st f s1 hst hf]
    exact h4 x' st f' s2 hx' hst hf'

/-! ### Concrete cases -/

/-- Noisy values and gradients, rational quadratic kernel, preconditioning, all hyperparameters between `1e-3` and `1e3`. -/
example (eig : EigFun) : ∃ (env : LkdEnv) (x : Arr1) (L : ℝ), env.eig = eig ∧ env.info.nHp = 6 ∧ InBox 6 (fun _ => -3) (fun _ => 3) x ∧
    (∀ x' st, InBox 6 (fun _ => -3) (fun _ => 3) x' → CacheReach exGpRq env st → ∃ f s1, returnOptzVal exGpRq env st x' = .ok (f, s1) ∧ L ≤ f) ∧
    ∀ st, CacheReach exGpRq env st → ∃ gr st', returnOptzGrad exGpRq env st x = .ok (gr, st') ∧
      ∀ p : Fin env.info.nHp, (x.get p < 3 → 0 ≤ gr p) ∧ (-3 < x.get p → gr p ≤ 0) := by
  have hi := setupHpIdx_ok exGpRq ⟨true, true, true⟩ true
  set info : HpInfo := hpInfoOf ⟨true, true, true⟩ exGpRq.dim true (true && kernelHasHp exGpRq.kernel) exGpRq.noisy (!exGpRq.knownFval)
      (exGpRq.useGrad && !exGpRq.knownFgrad) with hinfo
  set env : LkdEnv := { lkd := ⟨true, 1, 10, 0, true⟩, info := info, useCstr := false, eig := eig } with henv
  have hlog : ∀ s, slotLog ⟨true, true, true⟩ s = true := by intro s; cases s <;> rfl
  obtain ⟨x, L, h1, h2, h3⟩ := C114_solution exGpRq_lkd (env := env) hi (fun _ => rfl) rfl (bl := fun _ => -3) (bu := fun _ => 3) (fun _ _ => by norm_num)
    (fun p s _ h => by rw [hlog s] at h; cases h) (fun _ _ th _ _ _ => ⟨fun h => (nomatch h), fun _ => .inr rfl⟩) (fun h => (nomatch h))
  exact ⟨env, x, L, rfl, rfl, h1, h2, fun st hst => (h3 st hst).2⟩

end Props
