import Verif.Proofs.LkdPath
import Verif.Proofs.CovTotal

/-! C32, C34, C64 and the constraint part of C35: what the optimiser's callbacks return. -/

open Np GP Spec Matrix MD

noncomputable section

namespace Props

/-! ### C64 -/

theorem cacheReach_last {g : Gp} {env : LkdEnv} {st : OptzState env.info.nHp} (h : CacheReach g env st) :
    st.last = none ∨ ∃ n f, st.last = some ⟨[1, n], f⟩ := by
  have step : ∀ {st st' : OptzState env.info.nHp} {x r}, (st.last = none ∨ ∃ n f, st.last = some ⟨[1, n], f⟩) →
      calcStoreLkd g env st x false true = .ok (r, st') → (st'.last = none ∨ ∃ n f, st'.last = some ⟨[1, n], f⟩) := by
    intro st st' x r ih h
    unfold calcStoreLkd at h
    split at h
    · cases h; exact ih
    · obtain ⟨a, -, h⟩ := bind_eq_ok h
      cases h; exact ih
  induction h with
  | init r => exact .inl rfl
  | val _ h ih =>
    obtain ⟨⟨r, st2⟩, h1, h2⟩ := bind_eq_ok h
    cases h2; exact step ih h1
  | grad _ h ih =>
    obtain ⟨⟨r, st2⟩, h1, h2⟩ := bind_eq_ok h
    obtain ⟨_, -, h3⟩ := bind_eq_ok h2
    cases h3; exact step ih h1
  | condVal _ h ih =>
    obtain ⟨⟨r, st2⟩, h1, h2⟩ := bind_eq_ok h
    cases h2; exact step ih h1
  | condGrad _ h ih =>
    obtain ⟨⟨r, st2⟩, h1, h2⟩ := bind_eq_ok h
    cases h2; exact step ih h1
  | reset n _ _ => exact .inr ⟨n, _, rfl⟩

theorem calcStore_fresh {g : Gp} {env : LkdEnv} {st : OptzState env.info.nHp} (h : CacheReach g env st) (x : Arr1) :
    calcStoreLkd g env st x false true = (computeLkd g env x false true).map fun r => (r, { st with res := r }) := by
  unfold calcStoreLkd
  rw [if_neg]
  · cases computeLkd g env x false true <;> rfl
  · rcases cacheReach_last h with h1 | ⟨n, f, h1⟩ <;> rw [h1] <;> simp [arrayEq]

/-- **C64**: after any history of callback calls and resets, each callback returns (or fails with) what computing the
likelihood of its own argument from scratch gives. -/
theorem C64_callbacks_fresh {g : Gp} {env : LkdEnv} {st : OptzState env.info.nHp} (h : CacheReach g env st) (x : Arr1) :
    (returnOptzVal g env st x).map Prod.fst = (computeLkd g env x false true).map (fun r => -r.lkd) ∧
    (returnOptzGrad g env st x).map Prod.fst = (computeLkd g env x false true).bind (fun r => (need r.grad).map fun gr k => -gr k) ∧
    (returnCondVal g env st x).map Prod.fst = (computeLkd g env x false true).map (·.cond) ∧
    (returnCondGrad g env st x).map Prod.fst = (computeLkd g env x false true).map (·.condGrad) := by
  unfold returnOptzVal returnOptzGrad returnCondVal returnCondGrad
  rw [calcStore_fresh h]
  cases computeLkd g env x false true with
  | error e => exact ⟨rfl, rfl, rfl, rfl⟩
  | ok r =>
    refine ⟨rfl, ?_, rfl, rfl⟩
    cases hr : r.grad with
    | none => simp [Except.map, hr, need, bind, Except.bind]
    | some gr => simp [Except.map, hr, need, bind, Except.bind]

/-- In particular the history does not matter. -/
theorem C64_history_independent {g : Gp} {env : LkdEnv} {st st' : OptzState env.info.nHp} (h : CacheReach g env st)
    (h' : CacheReach g env st') (x : Arr1) :
    (returnOptzVal g env st x).map Prod.fst = (returnOptzVal g env st' x).map Prod.fst ∧
    (returnOptzGrad g env st x).map Prod.fst = (returnOptzGrad g env st' x).map Prod.fst ∧
    (returnCondVal g env st x).map Prod.fst = (returnCondVal g env st' x).map Prod.fst ∧
    (returnCondGrad g env st x).map Prod.fst = (returnCondGrad g env st' x).map Prod.fst := by
  obtain ⟨a1, a2, a3, a4⟩ := C64_callbacks_fresh h x
  obtain ⟨b1, b2, b3, b4⟩ := C64_callbacks_fresh h' x
  exact ⟨a1.trans b1.symm, a2.trans b2.symm, a3.trans b3.symm, a4.trans b4.symm⟩

theorem returnVal_of_compute {g : Gp} {env : LkdEnv} {st : OptzState env.info.nHp} (h : CacheReach g env st) {x : Arr1} {r}
    (hc : computeLkd g env x false true = .ok r) : returnOptzVal g env st x = .ok (-r.lkd, { st with res := r }) := by
  unfold returnOptzVal; rw [calcStore_fresh h, hc]; rfl

theorem returnGrad_of_compute {g : Gp} {env : LkdEnv} {st : OptzState env.info.nHp} (h : CacheReach g env st) {x : Arr1} {r}
    (hc : computeLkd g env x false true = .ok r) {gr} (hg : r.grad = some gr) :
    returnOptzGrad g env st x = .ok (fun k => -gr k, { st with res := r }) := by
  unfold returnOptzGrad; rw [calcStore_fresh h, hc]
  simp [Except.map, hg, need, bind, Except.bind]

theorem returnCond_of_compute {g : Gp} {env : LkdEnv} {st : OptzState env.info.nHp} (h : CacheReach g env st) {x : Arr1} {r}
    (hc : computeLkd g env x false true = .ok r) : returnCondVal g env st x = .ok (r.cond, { st with res := r }) := by
  unfold returnCondVal; rw [calcStore_fresh h, hc]; rfl

theorem returnCondGrad_of_compute {g : Gp} {env : LkdEnv} {st : OptzState env.info.nHp} (h : CacheReach g env st) {x : Arr1} {r}
    (hc : computeLkd g env x false true = .ok r) : returnCondGrad g env st x = .ok (r.condGrad, { st with res := r }) := by
  unfold returnCondGrad; rw [calcStore_fresh h, hc]; rfl

/-! ### C32 -/

/-- `compute` when the factorisation succeeds. -/
theorem computeLkd_good {g : Gp} {env : LkdEnv} {x : Arr1} {hp : HpVals} (hd : hpVec2Dataclass g env.info x = .ok hp)
    {li : LkdInfo nBetaCoeff env.info.nHp} (hc : calcLkdAll g env hp env.useCstr true = .ok (li, true)) {l : ℝ} (hl : li.lnLkd = some l)
    {gr : Vec env.info.nHp} (hg : li.lnLkdGrad = some gr) (hcg : env.useCstr = true → ∃ c, li.condGrad = some c) :
    ∃ r, computeLkd g env x false true = .ok r ∧ r.lkd = l ∧ r.grad = some (fun k => gr k * logFactor env.info x k) ∧ r.cond = li.cond ∧
      (env.useCstr = true → r.condGrad = li.condGrad.map fun c (k : Fin env.info.nHp) => c k * logFactor env.info x k) := by
  unfold computeLkd
  simp only [hd, ok_bind, Bool.or_false, hc, if_true, hl, need, hg, scaleGradIf, Bool.true_and, pure_eq_ok]
  cases hu : env.useCstr with
  | false => exact ⟨_, rfl, rfl, rfl, rfl, fun h => by cases h⟩
  | true =>
    obtain ⟨c, hc'⟩ := hcg hu
    simp only [hc', if_true, ok_bind]
    exact ⟨_, rfl, rfl, rfl, rfl, fun _ => rfl⟩

/-- Everything the optimiser sees at `x`, as a path in coordinate `p`. -/
theorem optz_path {g : Gp} (H : LkdHyp g) {lo : LogOpts} {ok : Bool} {env : LkdEnv} (hi : setupHpIdx g lo ok = .ok env.info)
    (hker : g.kernel = .ratQuad → ok = true) {x : Arr1} (hn : x.n = env.info.nHp)
    (hpos : ∀ p s, (gpSlots g ok)[p]? = some s → slotLog lo s = false → 0 < x.get p) {hp : HpVals}
    (hdec : hpVec2Dataclass g env.info x = .ok hp) (hsupp : ∀ th, hp.theta = some th → KernSupp g th)
    (hpre : env.useCstr = true → g.o.precon = false) {R : Arr3} (hR : calcRtensor g.x g.x = .ok R)
    (hcond : env.useCstr = true → ∀ out, lkdCov g hp R true = .ok out → condNum g.o out.Kcov < g.o.condMaxAbs ∧
      (g.o.fro = true → ∀ h : 0 < g.nData, 1 < out.Kcov ⟨0, h⟩ ⟨0, h⟩)) :
    ∃ r out A y V, computeLkd g env x false true = .ok r ∧ lkdCov g hp R env.useCstr = .ok out ∧ kcovGradArr g env hp out.Kern R = .ok A ∧
      lkdData g = .ok (y, V) ∧ FullRank V ∧ ∃ (F0 : ChoFac g.nData) (li0 : LkdInfo nBetaCoeff env.info.nHp) (gr : Vec env.info.nHp),
      FacOf F0 out.Kcov ∧ lkdBody g env y V F0 (some (toSlabs env.info.nHp g.nData A)) = .ok li0 ∧ li0.lnLkdGrad = some gr ∧
      r.grad = some (fun k => gr k * logFactor env.info x k) ∧
      (∃ li1, calcLkdAll g env hp env.useCstr true = .ok (li1, true) ∧ li1.varK = li0.varK) ∧
      (env.useCstr = true → ∃ c cg, condWGrad env.eig g.o out.Kcov (some F0) (some (toSlabs env.info.nHp g.nData A)) = .ok (c, some cg) ∧
        r.condGrad = some (fun k => cg k * logFactor env.info x k)) ∧
      ∀ (p : Fin env.info.nHp), ∃ s, (gpSlots g ok)[(p : ℕ)]? = some s ∧ ∃ y0, natural lo s (x.get p) = y0 ∧
        ∃ (C : ℝ → Mat g.nData g.nData) (F : ℝ → ChoFac g.nData) (As : ℝ → Arr3), MDeriv C (slabMat A p) y0 ∧ out.Kcov = C y0 ∧ F y0 = F0 ∧
          (∀ᶠ t in nhds y0, FacOf (F t) (C t)) ∧ As y0 = A ∧ ∀ᶠ u in nhds (x.get p), ∃ li ru,
            lkdBody g env y V (F (natural lo s u)) (some (toSlabs env.info.nHp g.nData (As (natural lo s u)))) = .ok li ∧
            computeLkd g env (setEntry x p u) false true = .ok ru ∧ li.lnLkd = some ru.lkd ∧
            (env.useCstr = true → ru.cond = some (condNum g.o (C (natural lo s u)))) := by
  obtain ⟨hp', hdec', hadm, hall⟩ := decode_adm hi hn hker hpos
  rw [hdec] at hdec'; cases hdec'
  obtain ⟨y, V, hd, hV, -, -⟩ := lkdData_ok H.ok H.ne
  have hnd : 0 < g.nData := by rw [H.ok.nData]; have := H.ne; omega
  obtain ⟨out, A, hout, hA, hpd, hfacOf, hfac, hfc, hck, hder⟩ := lkd_pieces H hi hadm hall (fun th ht => GP.KernSupp.thSupp (hsupp th ht)) hR env.useCstr
  have hcond' : env.useCstr = true → g.o.precon = false → condNum g.o out.Kcov < g.o.condMaxAbs := by
    intro h _; rw [h] at hout; exact (hcond h out hout).1
  have h00' : env.useCstr = true → g.o.fro = true → ∀ h : 0 < g.nData, 1 < out.Kcov ⟨0, h⟩ ⟨0, h⟩ := by
    intro h hf; rw [h] at hout; exact (hcond h out hout).2 hf
  obtain ⟨F0, hF0⟩ := hfac fun h1 h2 => (hcond' h1 h2).le
  have hF0' := hfacOf F0 hF0
  obtain ⟨li0, hli0, ⟨l0, hl0⟩, hg0⟩ := lkdBody_ok env (y := y) hV hF0' (some (toSlabs env.info.nHp g.nData A))
  obtain ⟨gr, hgr⟩ := hg0 _ rfl
  obtain ⟨li1, hsc, e1, e2, e3, -, hc1, -⟩ := setCond_ok env g.o li0 hF0' (toSlabs env.info.nHp g.nData A) out.condK env.useCstr hnd hpre
    (fun h hf => h00' h hf hnd)
  have hcl := calcLkdAll_eval H env hR hout hA hF0 hF0' hd hli0 hsc
  obtain ⟨r, hr, hr1, hr2, hr3, hr4⟩ := computeLkd_good hdec hcl (by rw [e1]; exact hl0) (by rw [e2]; exact hgr)
    (fun h => by obtain ⟨c, -, -, -, h1, gr, h2⟩ := hc1 h; exact ⟨gr, by rw [h1, h2]⟩)
  refine ⟨r, out, A, y, V, hr, hout, hA, hd, hV, F0, li0, gr, hF0', hli0, hgr, hr2, ⟨li1, hcl, e3⟩, ?_, ?_⟩
  · intro h
    obtain ⟨⟨c1, c2⟩, h1, -, -, h2, cg, h3⟩ := hc1 h
    dsimp only at h2 h3
    refine ⟨c1, cg, by rw [h1, h3], ?_⟩
    rw [hr4 h, h2, h3]; rfl
  · intro p
    have hlen : (gpSlots g ok).length = env.info.nHp := by
      obtain ⟨info', h1, h2, -⟩ := C54_object_layout g lo ok
      rw [hi] at h1; cases h1; exact h2.symm
    obtain ⟨s, hps⟩ : ∃ s, (gpSlots g ok)[(p : ℕ)]? = some s := ⟨_, List.getElem?_eq_getElem (by rw [hlen]; exact p.2)⟩
    have hget : getSlot hp s = some (natural lo s (x.get p)) := by
      obtain ⟨hp2, h1, -, -, h2, -⟩ := C55_decode g lo ok hi x hn
      rw [hdec] at h1; cases h1
      exact h2 p s hps
    obtain ⟨C, outs, F, As, hCd, hCy, hoy, hAy, hev⟩ := lkd_path H hi hadm hall hsupp hR env.useCstr hout hA hcond' h00' hps hget
    have hFy : F (natural lo s (x.get p)) = F0 := by
      have := hev.self_of_nhds.2.2.2.1
      rw [hoy, hF0] at this; cases this; rfl
    refine ⟨s, hps, _, rfl, C, F, As, hCd, hCy, hFy, hev.mono fun t ht => ht.1, hAy, ?_⟩
    have hcontn : ContinuousAt (natural lo s) (x.get p) := (natural_deriv lo s _).continuousAt
    filter_upwards [hcontn.eventually hev] with u hu
    obtain ⟨hFu, h1, h2, h3, h4, h5⟩ := hu
    set t := natural lo s u with ht
    have hFu' : FacOf (F t) (outs t).Kcov := by rw [h2]; exact hFu
    obtain ⟨li, hli, ⟨l, hl⟩, hg⟩ := lkdBody_ok env (y := y) hV hFu (some (toSlabs env.info.nHp g.nData (As t)))
    obtain ⟨gru, hgru⟩ := hg _ rfl
    obtain ⟨li2, hsc2, f1, f2, -, -, hc2, -⟩ := setCond_ok env g.o li hFu' (toSlabs env.info.nHp g.nData (As t)) (outs t).condK env.useCstr hnd hpre
      (fun h hf => by rw [h2]; exact h5 h hf hnd)
    have hcl2 := calcLkdAll_eval H env hR h1 h4 h3 hFu' hd hli hsc2
    obtain ⟨ru, hru, k1, -, k3, -⟩ := computeLkd_good (decode_set hi hn hdec hps u) hcl2 (by rw [f1]; exact hl) (by rw [f2]; exact hgru)
      (fun h => by obtain ⟨c, -, -, -, h1, gr, h2⟩ := hc2 h; exact ⟨gr, by rw [h1, h2]⟩)
    refine ⟨li, ru, hli, hru, by rw [hl, k1], fun h => ?_⟩
    obtain ⟨c, -, h6, h7, -⟩ := hc2 h
    rw [k3, h7, h6, h2]

/-- **C32.** At every vector `x` of the optimiser, whatever was called before: the gradient callback succeeds, and for each
coordinate `p` its `p`-th entry is the derivative of the objective callback's value as a function of the `p`-th entry of
`x` (the logarithm of the hyperparameter where that is how it is optimised).
Assumptions: consistent data and a constant positive nugget (`LkdHyp`); a kernel/mask combination whose length-scale
derivative is right (`KernSupp`, see C06-C08); positive entries where the value itself is optimised; with a condition-number
constraint, a condition number strictly below the failure threshold (and, for the Frobenius norm, the code's own assertion);
without noise, a variance estimate above the floor `varKMin` (at the floor the objective has a kink). -/
theorem C32_optimiser_gradient {g : Gp} (H : LkdHyp g) {lo : LogOpts} {ok : Bool} {env : LkdEnv} (hi : setupHpIdx g lo ok = .ok env.info)
    (hker : g.kernel = .ratQuad → ok = true) {x : Arr1} (hn : x.n = env.info.nHp)
    (hpos : ∀ p s, (gpSlots g ok)[p]? = some s → slotLog lo s = false → 0 < x.get p) {hp : HpVals}
    (hdec : hpVec2Dataclass g env.info x = .ok hp) (hsupp : ∀ th, hp.theta = some th → KernSupp g th)
    (hpre : env.useCstr = true → g.o.precon = false) {R : Arr3} (hR : calcRtensor g.x g.x = .ok R)
    (hcond : env.useCstr = true → ∀ out, lkdCov g hp R true = .ok out → condNum g.o out.Kcov < g.o.condMaxAbs ∧
      (g.o.fro = true → ∀ h : 0 < g.nData, 1 < out.Kcov ⟨0, h⟩ ⟨0, h⟩))
    (hfl : g.noisy = false → ∀ li v, calcLkdAll g env hp env.useCstr true = .ok (li, true) → li.varK = some v → varKMin < v)
    {st : OptzState env.info.nHp} (hst : CacheReach g env st) :
    ∃ gr st', returnOptzGrad g env st x = .ok (gr, st') ∧ ∀ p : Fin env.info.nHp, ∃ f : ℝ → ℝ,
      (∀ᶠ u in nhds (x.get p), ∃ st', returnOptzVal g env st (setEntry x p u) = .ok (f u, st')) ∧ HasDerivAt f (gr p) (x.get p) := by
  obtain ⟨r, out, A, y, V, hr, hout, hA, hd, hV, F0, li0, gr, hF0, hli0, hgr, hr2, ⟨li1, hcl, e3⟩, -, hpath⟩ :=
    optz_path H hi hker hn hpos hdec hsupp hpre hR hcond
  refine ⟨_, _, returnGrad_of_compute hst hr hr2, fun p => ?_⟩
  obtain ⟨s, hps, y0, hy0, C, F, As, hCd, hCy, hFy, hFE, hAy, hev⟩ := hpath p
  have hLder : ∃ L : ℝ → ℝ, (∀ᶠ t in nhds y0, ∃ r', lkdBody g env y V (F t) (some (toSlabs env.info.nHp g.nData (As t))) = .ok r' ∧
      r'.lnLkd = some (L t)) ∧ HasDerivAt L (gr p) y0 := by
    unfold lkdBody at hli0 ⊢
    cases hno : g.noisy with
    | true =>
      rw [hno, if_pos rfl] at hli0
      obtain ⟨r', g', h1, h2, L, h3, h4⟩ := C30_noisy_likelihood_gradient hFE hV y (fun t => some (toSlabs env.info.nHp g.nData (As t)))
        (toSlabs env.info.nHp g.nData A) p hCd env.lkd.useAdj
      rw [hFy, hli0] at h1; cases h1
      rw [hgr] at h2; cases h2
      exact ⟨L, by simpa using h3, h4⟩
    | false =>
      rw [hno] at hli0
      simp only [Bool.false_eq_true, if_false] at hli0
      obtain ⟨r', β, g', h1, h2, h3, h4⟩ := C28_likelihood_gradient env.lkd g.fval hFE hV y
        (fun t => some (toSlabs env.info.nHp g.nData (As t))) (toSlabs env.info.nHp g.nData A) p hCd env.lkd.useAdj
      rw [hFy, hli0] at h1; cases h1
      rw [hgr] at h3; cases h3
      obtain ⟨r2, k1, k2, k3, -⟩ := lkdWoNoise_ok env.lkd g.fval hF0 hV y (some (toSlabs env.info.nHp g.nData A)) env.lkd.useAdj
      rw [hli0] at k1; cases k1
      rw [h2] at k2
      have hβ : β = gls out.Kcov V y := by simpa using k2
      have hlt : varKMin < varOf out.Kcov V y := hfl hno li1 _ hcl (by rw [e3]; exact k3)
      obtain ⟨L, h5, h6⟩ := h4 (by
        rw [← hCy, hβ]
        unfold varOf at hlt
        rcases lt_max_iff.mp hlt with h | h
        · exact (lt_irrefl _ h).elim
        · exact h)
      exact ⟨L, by simpa using h5, h6⟩
  obtain ⟨L, hL1, hL2⟩ := hLder
  have hnat := natural_deriv lo s (x.get p)
  have hcomp : HasDerivAt (fun u => L (natural lo s u)) (gr p * logFactor env.info x p) (x.get p) := by
    rw [logFactor_eq hi hps]
    exact HasDerivAt.comp (x.get p) (by rw [hy0]; exact hL2) hnat
  refine ⟨fun u => -L (natural lo s u), ?_, hcomp.fun_neg⟩
  have hL1' := hnat.continuousAt.eventually (by rw [hy0]; exact hL1)
  filter_upwards [hev, hL1'] with u hu hLu
  obtain ⟨li, ru, h1, h2, h3, -⟩ := hu
  obtain ⟨r', k1, k2⟩ := hLu
  rw [h1] at k1; cases k1
  rw [h3] at k2
  have : ru.lkd = L (natural lo s u) := by simpa using k2
  exact ⟨_, by rw [returnVal_of_compute hst h2, this]⟩

/-- **C35**, as the optimiser sees it. Where the condition number is a constraint, the constraint-gradient callback returns the
derivative of the constraint callback's value with respect to the optimiser's own variables. -/
theorem C35_constraint_gradient {g : Gp} (H : LkdHyp g) {lo : LogOpts} {ok : Bool} {env : LkdEnv} (hi : setupHpIdx g lo ok = .ok env.info)
    (hker : g.kernel = .ratQuad → ok = true) {x : Arr1} (hn : x.n = env.info.nHp)
    (hpos : ∀ p s, (gpSlots g ok)[p]? = some s → slotLog lo s = false → 0 < x.get p) {hp : HpVals}
    (hdec : hpVec2Dataclass g env.info x = .ok hp) (hsupp : ∀ th, hp.theta = some th → KernSupp g th)
    (hcstr : env.useCstr = true) (hpre : g.o.precon = false) {R : Arr3} (hR : calcRtensor g.x g.x = .ok R)
    (hcond : ∀ out, lkdCov g hp R true = .ok out → condNum g.o out.Kcov < g.o.condMaxAbs ∧
      (if g.o.fro then ∀ h : 0 < g.nData, 1 < out.Kcov ⟨0, h⟩ ⟨0, h⟩ else
        EigOk out.Kcov (env.eig g.nData out.Kcov) ∧ ∃ lmax lmin, IsMaxEig out.Kcov lmax ∧ IsMinEig out.Kcov lmin ∧
          SimpleEig out.Kcov lmax ∧ SimpleEig out.Kcov lmin ∧ 1 / 10 ^ 16 ≤ lmin))
    {st : OptzState env.info.nHp} (hst : CacheReach g env st) :
    ∃ gr st', returnCondGrad g env st x = .ok (some gr, st') ∧ ∀ p : Fin env.info.nHp, ∃ f : ℝ → ℝ,
      (∀ᶠ u in nhds (x.get p), ∃ st', returnCondVal g env st (setEntry x p u) = .ok (some (f u), st')) ∧
        HasDerivAt f (gr p) (x.get p) := by
  obtain ⟨r, out, A, y, V, hr, hout, hA, hd, hV, F0, li0, gr, hF0, hli0, hgr, hr2, -, hcg, hpath⟩ :=
    optz_path H hi hker hn hpos hdec hsupp (fun _ => hpre) hR (fun _ out ho => ⟨(hcond out ho).1, fun hf => by
      have := (hcond out ho).2; rw [if_pos hf] at this; exact this⟩)
  obtain ⟨c, cg, hc1, hc2⟩ := hcg hcstr
  rw [hcstr] at hout
  have hco := (hcond out hout).2
  have hnd : 0 < g.nData := by rw [H.ok.nData]; have := H.ne; omega
  refine ⟨_, _, by rw [returnCondGrad_of_compute hst hr, hc2], fun p => ?_⟩
  obtain ⟨s, hps, y0, hy0, C, F, As, hCd, hCy, hFy, hFE, hAy, hev⟩ := hpath p
  have hLder : HasDerivAt (fun t => condNum g.o (C t)) (cg p) y0 := by
    unfold condWGrad at hc1
    unfold condNum
    cases hf : g.o.fro with
    | true =>
      rw [hf, if_pos rfl, hpre] at hc1
      rw [if_pos hf] at hco
      obtain ⟨g', h1, -, h3⟩ := C35_cond_fro_gradient hnd hFE (by rw [← hCy]; exact hco hnd)
        (fun t => some (toSlabs env.info.nHp g.nData (As t))) (toSlabs env.info.nHp g.nData A) p hCd
      rw [hFy, ← hCy, hc1] at h1
      cases h1
      simpa using h3
    | false =>
      rw [hf] at hc1
      simp only [Bool.false_eq_true, if_false, hpre] at hc1
      rw [hf] at hco
      simp only [Bool.false_eq_true, if_false] at hco
      obtain ⟨he, lmax, lmin, k1, k2, k3, k4, k5⟩ := hco
      rw [hCy] at he k1 k2 k3 k4
      have hpdE : ∀ᶠ t in nhds y0, (C t).PosDef := hFE.mono fun t ht => ht.pos
      obtain ⟨g', h1, cf, h2, h3⟩ := C35_cond_L2_gradient hnd hpdE he k1 k2 k3 k4 k5
        (fun t => some (toSlabs env.info.nHp g.nData (As t))) (toSlabs env.info.nHp g.nData A) p hCd
      rw [← hCy, hc1] at h1
      cases h1
      refine h3.congr_of_eventuallyEq ?_
      filter_upwards [h2] with t ht
      obtain ⟨g', h4, -⟩ := ht
      obtain ⟨g2, h5, -⟩ := condL2_val env.eig false hnd (C t) (some (toSlabs env.info.nHp g.nData (As t)))
      rw [h5] at h4
      have := congrArg (fun q => q.toOption.map Prod.fst) h4
      simpa [Except.toOption] using this
  have hnat := natural_deriv lo s (x.get p)
  refine ⟨fun u => condNum g.o (C (natural lo s u)), ?_, ?_⟩
  · filter_upwards [hev] with u hu
    obtain ⟨li, ru, -, h2, -, h4⟩ := hu
    exact ⟨_, by rw [returnCond_of_compute hst h2, h4 hcstr]⟩
  · rw [logFactor_eq hi hps]
    exact HasDerivAt.comp (x.get p) (by rw [hy0]; exact hLder) hnat

/-! ### C34 -/

/-- **C34**, when the factorisation fails: with a positive nugget only because a condition-number constraint is active,
there is no preconditioning and the condition number exceeds `cond_max_abs`. Constant and varying nugget, every kernel, every
mask, any points. -/
theorem C34_failure_iff {g : Gp} (hg : GpOk g) {hp : HpVals} (hh : HpAdm g hp) (hk : g.useGrad = true ∨ g.knownFval = true)
    (hprec : g.o.precon = true → g.useGrad = true) (hne : 0 < g.nEval) (hη : if g.o.etaConst then 0 < g.o.etaK else 1 < g.o.condMaxTarget)
    (hv : g.noisy = true → ∃ v, hp.varK = some v ∧ 0 < v) {R : Arr3} (hR : calcRtensor g.x g.x = .ok R) (cc : Bool) :
    ∃ out, lkdCov g hp R cc = .ok out ∧
      (out.chofac = none ↔ cc = true ∧ g.o.precon = false ∧ g.o.condMaxAbs < condNum g.o out.Kcov) := by
  obtain ⟨out, h1, -, -, h5, h6, -⟩ := lkdCov_ok hg hh hk hprec hne hη hv hR cc
  refine ⟨out, h1, ⟨fun h => ?_, fun ⟨h2, h3, h4⟩ => ?_⟩⟩
  · by_contra hcon
    obtain ⟨F, hF⟩ := h5 fun a b => not_lt.mp fun c => hcon ⟨a, b, c⟩
    rw [h] at hF; cases hF
  · cases hf : out.chofac with
    | none => rfl
    | some F => exact (not_le.mpr h4 (h6 h3 h2 ⟨F, hf⟩)).elim

theorem computeLkd_fail {g : Gp} {env : LkdEnv} {x : Arr1} {hp : HpVals} (hd : hpVec2Dataclass g env.info x = .ok hp)
    {li : LkdInfo nBetaCoeff env.info.nHp} (hc : calcLkdAll g env hp env.useCstr true = .ok (li, false)) {c : ℝ} (hl : li.cond = some c)
    {cg : Vec env.info.nHp} (hg : li.condGrad = some cg) :
    computeLkd g env x false true = .ok { lkd := -c, grad := some fun k => -cg k, cond := some c, condGrad := some cg } := by
  unfold computeLkd
  simp [hd, ok_bind, hc, hl, need, hg, pure_eq_ok]

/-- **C34** (part). Where the factorisation fails because the condition number exceeds `cond_max_abs` (spectral norm), the
objective callback returns that condition number, hence more than `cond_max_abs`, and the gradient callback returns a vector
whose `p`-th entry times the derivative of the hyperparameter with respect to the optimiser's variable is the derivative of
the objective. (Full statement: the returned entry itself is that derivative. False where the hyperparameter is optimised
through its logarithm, see `C34_gradient_discrepancy`; modes in which the callback raises: `C34_noisy_frobenius_raises`,
`C34_precon_raises`.) -/
theorem C34_failing_objective_partial {g : Gp} (H : LkdHyp g) {lo : LogOpts} {ok : Bool} {env : LkdEnv} (hi : setupHpIdx g lo ok = .ok env.info)
    (hker : g.kernel = .ratQuad → ok = true) {x : Arr1} (hn : x.n = env.info.nHp)
    (hpos : ∀ p s, (gpSlots g ok)[p]? = some s → slotLog lo s = false → 0 < x.get p) {hp : HpVals}
    (hdec : hpVec2Dataclass g env.info x = .ok hp) (hsupp : ∀ th, hp.theta = some th → KernSupp g th)
    (hcstr : env.useCstr = true) (hpre : g.o.precon = false) (hfro : g.o.fro = false) {R : Arr3} (hR : calcRtensor g.x g.x = .ok R)
    {out : CovOut g.nData} (hout : lkdCov g hp R true = .ok out) (hfail : g.o.condMaxAbs < condNum g.o out.Kcov)
    {st : OptzState env.info.nHp} (hst : CacheReach g env st) :
    ∃ gr st1 st2, returnOptzVal g env st x = .ok (condNum g.o out.Kcov, st1) ∧ returnOptzGrad g env st x = .ok (gr, st2) ∧
      (EigOk out.Kcov (env.eig g.nData out.Kcov) → ∀ lmax lmin, IsMaxEig out.Kcov lmax → IsMinEig out.Kcov lmin →
        SimpleEig out.Kcov lmax → SimpleEig out.Kcov lmin → 1 / 10 ^ 16 ≤ lmin → ∀ p : Fin env.info.nHp, ∃ f : ℝ → ℝ,
        (∀ᶠ u in nhds (x.get p), ∃ st', returnOptzVal g env st (setEntry x p u) = .ok (f u, st')) ∧
          HasDerivAt f (gr p * logFactor env.info x p) (x.get p)) := by
  obtain ⟨hp', hdec', hadm, hall⟩ := decode_adm hi hn hker hpos
  rw [hdec] at hdec'; cases hdec'
  have hnd : 0 < g.nData := by rw [H.ok.nData]; have := H.ne; omega
  obtain ⟨out', A, hout', hA, hpd, -, -, hfc, -⟩ := lkd_pieces H hi hadm hall (fun th ht => GP.KernSupp.thSupp (hsupp th ht)) hR true
  rw [hout] at hout'; cases hout'
  have hnone : ∀ {o : CovOut g.nData}, (g.o.precon = false → true = true → (∃ F, o.chofac = some F) → condNum g.o o.Kcov ≤ g.o.condMaxAbs) →
      g.o.condMaxAbs < condNum g.o o.Kcov → o.chofac = none := by
    intro o h1 h2
    cases hf : o.chofac with
    | none => rfl
    | some F => exact (not_le.mpr h2 (h1 hpre rfl ⟨F, hf⟩)).elim
  have hcn : ∀ K : Mat g.nData g.nData, condNum g.o K = cond2 K := fun K => by unfold condNum; simp [hfro]
  have hval : ∀ {x' : Arr1} {hp' : HpVals} {o : CovOut g.nData} {A' : Arr3}, hpVec2Dataclass g env.info x' = .ok hp' →
      lkdCov g hp' R true = .ok o → kcovGradArr g env hp' o.Kern R = .ok A' → o.chofac = none →
      ∃ cg, condL2WGrad env.eig false o.Kcov (some (toSlabs env.info.nHp g.nData A')) = .ok (cond2 o.Kcov, some cg) ∧
        computeLkd g env x' false true = .ok { lkd := -cond2 o.Kcov, grad := some fun k => -cg k, cond := some (cond2 o.Kcov), condGrad := some cg } := by
    intro x' hp' o A' h1 h2 h3 h4
    obtain ⟨cg, k1, -, -, k4⟩ := condL2_val env.eig false hnd o.Kcov (some (toSlabs env.info.nHp g.nData A'))
    obtain ⟨cg', rfl⟩ := Option.isSome_iff_exists.mp (k4 rfl rfl)
    refine ⟨cg', k1, ?_⟩
    have := calcLkdAll_fail env hR h2 h3 h4 rfl (.inr hfro) (by rw [hpre]; exact k1)
    exact computeLkd_fail h1 (by rw [hcstr]; exact this) rfl rfl
  obtain ⟨cg, hcg, hcomp⟩ := hval hdec hout hA (hnone hfc hfail)
  refine ⟨_, _, _, by rw [returnVal_of_compute hst hcomp, neg_neg, hcn], returnGrad_of_compute hst hcomp rfl, ?_⟩
  intro he lmax lmin k1 k2 k3 k4 k5 p
  have hlen : (gpSlots g ok).length = env.info.nHp := by
    obtain ⟨info', h1, h2, -⟩ := C54_object_layout g lo ok
    rw [hi] at h1; cases h1; exact h2.symm
  obtain ⟨s, hps⟩ : ∃ s, (gpSlots g ok)[(p : ℕ)]? = some s := ⟨_, List.getElem?_eq_getElem (by rw [hlen]; exact p.2)⟩
  have hget : getSlot hp s = some (natural lo s (x.get p)) := by
    obtain ⟨hp2, h1, -, -, h2, -⟩ := C55_decode g lo ok hi x hn
    rw [hdec] at h1; cases h1
    exact h2 p s hps
  obtain ⟨C, outs, As, hCd, hCy, hoy, hAy, hev⟩ := lkd_path0 H hi hadm hall hsupp hR true hout hA hps hget
  have hpdE : ∀ᶠ t in nhds (natural lo s (x.get p)), (C t).PosDef := hev.mono fun t ht => ht.1
  rw [hCy] at he k1 k2 k3 k4 hfail hcg
  obtain ⟨g', h1, cf, h2, h3⟩ := C35_cond_L2_gradient hnd hpdE he k1 k2 k3 k4 k5
    (fun t => some (toSlabs env.info.nHp g.nData (As t))) (toSlabs env.info.nHp g.nData A) p hCd
  rw [hcg] at h1
  have hg' : cg = g' := by
    have := congrArg (fun q => q.toOption.bind Prod.snd) h1
    simpa [Except.toOption] using this
  have hder : HasDerivAt (fun t => cond2 (C t)) (cg p) (natural lo s (x.get p)) := by
    rw [hg']
    refine h3.congr_of_eventuallyEq ?_
    filter_upwards [h2] with t ht
    obtain ⟨g', h4, -⟩ := ht
    obtain ⟨g2, h5, -⟩ := condL2_val env.eig false hnd (C t) (some (toSlabs env.info.nHp g.nData (As t)))
    rw [h5] at h4
    have := congrArg (fun q => q.toOption.map Prod.fst) h4
    simpa [Except.toOption] using this
  have hnat := natural_deriv lo s (x.get p)
  refine ⟨fun u => cond2 (C (natural lo s u)), ?_, ?_⟩
  · have hE := (condNum_cont g.o hnd hpdE hCd).eventually_const_lt hfail
    filter_upwards [hnat.continuousAt.eventually hev, hnat.continuousAt.eventually hE] with u ⟨_, m1, m2, m3, _, _, m6⟩ hu
    obtain ⟨cgu, -, hcu⟩ := hval (decode_set hi hn hdec hps u) m1 m3 (hnone (by rw [m2]; exact m6) (by rw [m2]; exact hu))
    exact ⟨_, by rw [returnVal_of_compute hst hcu, neg_neg, m2]⟩
  · rw [logFactor_eq hi hps]
    simp only [neg_neg]
    exact HasDerivAt.comp (x.get p) hder hnat

/-- **C34**, discrepancy: in the same situation, wherever a hyperparameter is optimised through its logarithm, the entry `gr p`
the gradient callback returns is not the derivative of what the objective callback returns, unless that entry is zero or the
factor `10**x * ln 10` happens to be one: no function agreeing with the objective near the point has that derivative. -/
theorem C34_gradient_discrepancy {g : Gp} (H : LkdHyp g) {lo : LogOpts} {ok : Bool} {env : LkdEnv} (hi : setupHpIdx g lo ok = .ok env.info)
    (hker : g.kernel = .ratQuad → ok = true) {x : Arr1} (hn : x.n = env.info.nHp)
    (hpos : ∀ p s, (gpSlots g ok)[p]? = some s → slotLog lo s = false → 0 < x.get p) {hp : HpVals}
    (hdec : hpVec2Dataclass g env.info x = .ok hp) (hsupp : ∀ th, hp.theta = some th → KernSupp g th)
    (hcstr : env.useCstr = true) (hpre : g.o.precon = false) (hfro : g.o.fro = false) {R : Arr3} (hR : calcRtensor g.x g.x = .ok R)
    {out : CovOut g.nData} (hout : lkdCov g hp R true = .ok out) (hfail : g.o.condMaxAbs < condNum g.o out.Kcov)
    {st : OptzState env.info.nHp} (hst : CacheReach g env st) (he : EigOk out.Kcov (env.eig g.nData out.Kcov)) {lmax lmin : ℝ}
    (hmax : IsMaxEig out.Kcov lmax) (hmin : IsMinEig out.Kcov lmin) (hsmax : SimpleEig out.Kcov lmax) (hsmin : SimpleEig out.Kcov lmin)
    (hl : 1 / 10 ^ 16 ≤ lmin) {gr : Vec env.info.nHp} {st2 : OptzState env.info.nHp} (hgr : returnOptzGrad g env st x = .ok (gr, st2))
    (p : Fin env.info.nHp) {s : Slot} (hps : (gpSlots g ok)[(p : ℕ)]? = some s) (hlog : slotLog lo s = true) (h0 : gr p ≠ 0)
    (h1 : (10 : ℝ) ^ x.get p * Real.log 10 ≠ 1) {f : ℝ → ℝ}
    (hf : ∀ᶠ u in nhds (x.get p), ∃ st', returnOptzVal g env st (setEntry x p u) = .ok (f u, st')) :
    ¬ HasDerivAt f (gr p) (x.get p) := by
  obtain ⟨gr', st1', st2', -, k2, k3⟩ := C34_failing_objective_partial H hi hker hn hpos hdec hsupp hcstr hpre hfro hR hout hfail hst
  rw [hgr] at k2; cases k2
  obtain ⟨f', f1, f2⟩ := k3 he lmax lmin hmax hmin hsmax hsmin hl p
  rw [logFactor_eq hi hps, if_pos hlog] at f2
  intro h2
  have h3 : HasDerivAt f' (gr p) (x.get p) := by
    refine h2.congr_of_eventuallyEq ?_
    filter_upwards [hf, f1] with u ⟨a, ha⟩ ⟨b, hb⟩
    rw [ha] at hb
    exact (Prod.mk.inj (Except.ok.inj hb)).1.symm
  exact h1 (mul_left_cancel₀ h0 (by rw [f2.unique h3, mul_one]))

/-- **C34**, discrepancy: noisy data with the Frobenius norm. When the factorisation fails, every callback raises. -/
theorem C34_noisy_frobenius_raises {g : Gp} {env : LkdEnv} {x : Arr1} {hp : HpVals} (hdec : hpVec2Dataclass g env.info x = .ok hp)
    {R : Arr3} (hR : calcRtensor g.x g.x = .ok R) {out : CovOut g.nData} (hout : lkdCov g hp R true = .ok out)
    (hcstr : env.useCstr = true) (hnoise : g.noisy = true) (hfro : g.o.fro = true) (hf : out.chofac = none)
    {st : OptzState env.info.nHp} (hst : CacheReach g env st) :
    (∃ e, returnOptzVal g env st x = .error e) ∧ (∃ e, returnOptzGrad g env st x = .error e) ∧
      (∃ e, returnCondVal g env st x = .error e) ∧ ∃ e, returnCondGrad g env st x = .error e := by
  have hc : ∃ e, computeLkd g env x false true = .error e := by
    unfold computeLkd
    simp only [hdec, ok_bind, Bool.or_false, hcstr]
    have : ∃ e, calcLkdAll g env hp true true = .error e := by
      unfold calcLkdAll
      simp only [hR, ok_bind, hout]
      cases hk : kcovGradIf g env hp out.Kern R true with
      | error e => exact ⟨e, rfl⟩
      | ok dK =>
        simp only [ok_bind, hf]
        cases hl : condL2WGrad env.eig g.o.precon out.Kcov dK with
        | error e => exact ⟨e, rfl⟩
        | ok c =>
          simp only [ok_bind, hnoise, if_true, setCond, Bool.and_self, condWGrad, hfro, condFroWGrad]
          by_cases ha : ∃ h : 0 < g.nData, 1 < out.Kcov ⟨0, h⟩ ⟨0, h⟩
          · rw [pyAssert_true ha]; exact ⟨_, rfl⟩
          · unfold pyAssert; rw [if_neg ha]; exact ⟨_, rfl⟩
    obtain ⟨e, he⟩ := this
    rw [he]; exact ⟨e, rfl⟩
  obtain ⟨e, he⟩ := hc
  unfold returnOptzVal returnOptzGrad returnCondVal returnCondGrad
  rw [calcStore_fresh hst, he]
  exact ⟨⟨e, rfl⟩, ⟨e, rfl⟩, ⟨e, rfl⟩, ⟨e, rfl⟩⟩

/-- **C34**, discrepancy: with preconditioning, whenever the factorisation fails the objective callback raises (`-None`). -/
theorem C34_precon_raises {g : Gp} {env : LkdEnv} {x : Arr1} {hp : HpVals} (hdec : hpVec2Dataclass g env.info x = .ok hp)
    {R : Arr3} (hR : calcRtensor g.x g.x = .ok R) {out : CovOut g.nData} (hout : lkdCov g hp R env.useCstr = .ok out)
    (hpre : g.o.precon = true) (hf : out.chofac = none) {st : OptzState env.info.nHp} (hst : CacheReach g env st) :
    ∃ e, returnOptzVal g env st x = .error e := by
  have hc : ∃ e, computeLkd g env x false true = .error e := by
    unfold computeLkd
    simp only [hdec, ok_bind, Bool.or_false]
    cases hcl : calcLkdAll g env hp env.useCstr true with
    | error e => exact ⟨e, rfl⟩
    | ok r =>
      have : r.2 = false ∧ r.1.condGrad = none := by
        unfold calcLkdAll at hcl
        simp only [hR, ok_bind, hout] at hcl
        obtain ⟨dK, -, hcl⟩ := bind_eq_ok hcl
        simp only [hf] at hcl
        obtain ⟨c, hc1, hcl⟩ := bind_eq_ok hcl
        have hc2 : c.2 = none := by
          unfold condL2WGrad at hc1
          cases dK with
          | none => cases hc1; rfl
          | some d => simp only [hpre, if_true] at hc1; cases hc1; rfl
        split at hcl
        · obtain ⟨li, hl1, hcl⟩ := bind_eq_ok hcl
          cases hcl
          refine ⟨rfl, ?_⟩
          unfold setCond at hl1
          split at hl1
          · obtain ⟨c', hc', hl1⟩ := bind_eq_ok hl1
            cases hl1
            unfold condWGrad at hc'
            split at hc'
            · unfold condFroWGrad at hc'
              obtain ⟨_, -, hc'⟩ := bind_eq_ok hc'
              cases hc'
            · unfold condL2WGrad at hc'
              cases dK with
              | none => cases hc'; rfl
              | some d => simp only [hpre, if_true] at hc'; cases hc'; rfl
          · cases hl1; exact hc2
        · cases hcl; exact ⟨rfl, hc2⟩
      simp only [ok_bind, this.1, Bool.false_eq_true, if_false, this.2]
      cases r.1.cond <;> exact ⟨_, rfl⟩
  obtain ⟨e, he⟩ := hc
  unfold returnOptzVal
  rw [calcStore_fresh hst, he]
  exact ⟨e, rfl⟩

end Props
