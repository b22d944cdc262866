import Verif.Proofs.Contin
import Verif.Props.Restate
import Verif.Props.Eval
import Verif.Props.EvalDerivs
import Verif.Props.Invariance
import Mathlib.Analysis.SpecificLimits.Basic
import Mathlib.Topology.Order.Compact

/-! Claim theorems for C111: the likelihood is a continuous function of the hyperparameters, so it has a maximiser within any bounds; and for
C112: predictions are continuous in the hyperparameters and the points. -/

open Np GP Spec Matrix Filter Topology

noncomputable section

namespace Props

variable {ι : Type*} {l : Filter ι}

/-! ### Condition numbers -/

theorem top_tendsto {n : ℕ} {A : ι → Mat n n} {A0 : Mat n n} (hA : Tendsto A l (𝓝 A0)) {t : ι → ℝ} {t0 : ℝ}
    (ht : ∀ k, ∃ w, ED.IsTop (A k) (t k) w) (ht0 : ∃ w, ED.IsTop A0 t0 w) : Tendsto t l (𝓝 t0) := by
  obtain ⟨v, hv⟩ := ht0
  have he : Tendsto (fun k => ED.ent (A k - A0)) l (𝓝 0) := by
    have : Tendsto (fun k => ED.ent (A k - A0)) l (𝓝 (ED.ent (A0 - A0))) := by
      unfold ED.ent
      exact tendsto_finsetSum _ fun i _ => tendsto_finsetSum _ fun j _ => ((mat_entry hA i j).sub tendsto_const_nhds).abs
    simpa [ED.ent] using this
  rw [tendsto_iff_norm_sub_tendsto_zero]
  refine tendsto_of_tendsto_of_tendsto_of_le_of_le tendsto_const_nhds he (fun _ => norm_nonneg _) fun k => ?_
  obtain ⟨w, hw⟩ := ht k
  exact ED.top_lip hv hw

theorem fro_tendsto {n : ℕ} {A : ι → Mat n n} {A0 : Mat n n} (hA : Tendsto A l (𝓝 A0)) : Tendsto (fun k => froNorm (A k)) l (𝓝 (froNorm A0)) :=
  (Real.continuous_sqrt.tendsto _).comp (tendsto_finsetSum _ fun i _ => tendsto_finsetSum _ fun j _ => (mat_entry hA i j).pow 2)

theorem condNum_tendsto (o : CondOpts) {n : ℕ} (hn : 0 < n) {A : ι → Mat n n} {A0 : Mat n n} (hA : Tendsto A l (𝓝 A0))
    (hp : ∀ k, (A k).PosDef) (hp0 : A0.PosDef) : Tendsto (fun k => condNum o (A k)) l (𝓝 (condNum o A0)) := by
  unfold condNum
  split_ifs
  · exact (fro_tendsto hA).mul (fro_tendsto (inv_tendsto hA hp0.det_pos.ne'))
  · choose p q h1 h2 h3 h4 using fun k => cond2_quot hn (hp k)
    obtain ⟨p0, q0, e1, e2, e3, e4⟩ := cond2_quot hn hp0
    rw [e4]
    refine Tendsto.congr (fun k => (h4 k).symm) ?_
    have c1 : Tendsto p l (𝓝 p0) := top_tendsto hA (fun k => isTop_of_max (h1 k)) (isTop_of_max e1)
    have c2 : Tendsto (fun k => -q k) l (𝓝 (-q0)) := top_tendsto (A := fun k => -A k) hA.neg
      (fun k => isTop_of_max (isMin_iff.mp (h2 k))) (isTop_of_max (isMin_iff.mp e2))
    have c3 : Tendsto q l (𝓝 q0) := by simpa using c2.neg
    exact c1.div c3 e3.ne'

/-! ### The likelihood -/

theorem data_unique {g : Gp} (hg : GpOk g) {y y' : Vec g.nData} (h : DataSpec g y) (h' : DataSpec g y') : y = y' := by
  funext q
  have hi : (q : ℕ) < g.nEval + g.nGrad * g.dim := by rw [← hg.nData]; exact q.2
  rcases row_cases hi with h1 | ⟨j, a, hj, ha, he⟩
  · rw [h.val q h1, h'.val q h1]
  · have hu : g.useGrad = true := by
      by_contra hu
      rw [hg.nGrad] at ha
      simp [hu] at ha
    obtain ⟨G, hG, -⟩ := hg.grad_some hu
    rw [h.grad G hG q j hj a ha he, h'.grad G hG q j hj a ha he]

/-- The likelihood `L`, the regression coefficient `b` and the condition number `c` that belong to hyperparameters. -/
structure LkdParts (g : Gp) (env : LkdEnv) (cc : Bool) (hp : HpVals) (v L b c : ℝ) (Na : Arr1) (K : Mat g.nData g.nData) (out : CovOut g.nData)
    (y : Vec g.nData) (V : Mat g.nData nBetaCoeff) : Prop where
  noise : NoiseSpec g hp Na
  kern : IsKern g hp K
  diag : ∀ i, 0 < K i i
  nonneg : ∀ i, 0 ≤ toVec g.nData Na i
  cov : CovSpec g.o v K (toVec g.nData Na) true cc out
  pd : out.Kcov.PosDef
  data : DataSpec g y
  rank : FullRank V
  reg : ∀ (q : Fin g.nData) (j : Fin nBetaCoeff), V q j = if (q : ℕ) < g.nEval then 1 else 0
  lkd : L = if g.noisy then -(Real.log out.Kcov.det + rss out.Kcov V y) / 2 else lkdOf env.lkd g.fval out.Kcov V y
  beta : b = gls out.Kcov V y ⟨0, Nat.one_pos⟩
  cond : c = condNum g.o out.Kcov
  vpos : 0 < v
  var : v = if g.noisy then (getSlot hp .varK).getD 0 else 1

/-- As `LkdParts`, with the covariance matrix not named. -/
def IsLkd (g : Gp) (env : LkdEnv) (cc : Bool) (hp : HpVals) (L b c : ℝ) : Prop :=
  ∃ v Na K out y V, LkdParts g env cc hp v L b c Na K out y V

theorem lkd_parts {g : Gp} (hg : GpOk g) {hp : HpVals} (hh : HpAdm g hp) (hk : g.useGrad = true ∨ g.knownFval = true)
    (hprec : g.o.precon = true → g.useGrad = true) (hne : 0 < g.nEval) (hη : if g.o.etaConst then 0 < g.o.etaK else 1 < g.o.condMaxTarget)
    (hv : g.noisy = true → ∃ v, hp.varK = some v ∧ 0 < v) (env : LkdEnv) (cc : Bool) :
    ∃ L b c li okk, IsLkd g env cc hp L b c ∧ calcLkdAll g env hp cc false = .ok (li, okk) ∧
      (okk = true ↔ (cc = true → g.o.precon = false → c ≤ g.o.condMaxAbs)) ∧
      (okk = true → li.lnLkd = some L ∧ li.beta = some fun _ => b) := by
  obtain ⟨v, hv0, hvk, hve⟩ : ∃ v, 0 < v ∧ (vkArg g).or hp.varK = some v ∧ v = if g.noisy then (getSlot hp .varK).getD 0 else 1 := by
    cases hno : g.noisy with
    | true => obtain ⟨v, h1, h2⟩ := hv hno; exact ⟨v, h2, by simp [vkArg, hno, h1], by simp [getSlot, h1]⟩
    | false => exact ⟨1, one_pos, by simp [vkArg, hno], by simp⟩
  obtain ⟨Na, K, out, y, V, li, a1, a2, a3, a4, a5, a6, a7, a8, a9, a10, a11, a12, a13, a14, a15⟩ :=
    lkd_form hg hh hk hprec hne hη env cc hv0 hvk
  refine ⟨_, _, _, li, out.chofac.isSome, ⟨v, Na, K, out, y, V, ⟨a1, a2, a4, a5, a6, a8, a9, a10, a11, rfl, rfl, rfl, hv0, hve⟩⟩, a12, a13, fun h => ?_⟩
  obtain ⟨p1, p2, p3⟩ := a15 h
  refine ⟨?_, ?_⟩
  · cases hno : g.noisy with
    | true => rw [p2 hno]; simp
    | false => rw [(p3 hno).2]; simp
  · rw [p1]; congr 1; funext j; congr 1; exact (inferInstance : Subsingleton (Fin 1)).elim _ _

theorem isLkd_tendsto {g : Gp} (hg : GpOk g) (hne : 0 < g.nEval) {hps : ι → HpVals} {hp : HpVals} (hh : HpAdm g hp) (hhs : ∀ k, HpAdm g (hps k))
    (hconv : HpConv l hps hp) {env : LkdEnv} {cc : Bool} {L b c : ι → ℝ} {L0 b0 c0 : ℝ} (h : ∀ k, IsLkd g env cc (hps k) (L k) (b k) (c k))
    (h0 : IsLkd g env cc hp L0 b0 c0) : Tendsto L l (𝓝 L0) ∧ Tendsto b l (𝓝 b0) ∧ Tendsto c l (𝓝 c0) := by
  choose v Na K out y V hk using h
  obtain ⟨v0, Na0, K0, out0, y0, V0, hk0⟩ := h0
  have hy : ∀ k, y k = y0 := fun k => data_unique hg (hk k).data hk0.data
  have hV : ∀ k, V k = V0 := fun k => by ext q j; rw [(hk k).reg, hk0.reg]
  have hv : Tendsto v l (𝓝 v0) := by
    rw [hk0.var, show v = fun k => if g.noisy then (getSlot (hps k) .varK).getD 0 else 1 from funext fun k => (hk k).var]
    split_ifs
    · exact hconv .varK
    · exact tendsto_const_nhds
  have hcov := (cov_tendsto hv hk0.vpos (kern_tendsto hg hh hhs hconv (fun k => (hk k).kern) hk0.kern)
    (noise_tendsto hg hconv (fun k => (hk k).noise) hk0.noise) hk0.diag hk0.nonneg (fun k => (hk k).cov) hk0.cov).2
  refine ⟨?_, ?_, ?_⟩
  · rw [hk0.lkd]
    refine Tendsto.congr (fun k => (hk k).lkd.symm) ?_
    simp only [hy, hV]
    split_ifs
    · exact ((logdet_tendsto hcov hk0.pd).add (rss_tendsto y0 hcov hk0.pd hk0.rank)).neg.div_const 2
    · exact lkdOf_tendsto y0 env.lkd g.fval hcov hk0.pd hk0.rank
  · rw [hk0.beta]
    refine Tendsto.congr (fun k => (hk k).beta.symm) ?_
    simp only [hy, hV]
    exact vec_entry (gls_tendsto y0 hcov hk0.pd hk0.rank) ⟨0, Nat.one_pos⟩
  · rw [hk0.cond]
    refine Tendsto.congr (fun k => (hk k).cond.symm) ?_
    exact condNum_tendsto g.o (by rw [hg.nData]; omega) hcov (fun k => (hk k).pd) hk0.pd

/-- **C111**, continuity. Let the hyperparameters `hps k` converge to `hp` along any filter (all of them admissible, with a positive prior
variance if the data are noisy). If no condition-number test is made (`cc = false`, or the preconditioned method, the default with
gradients), the likelihood and the mean chosen with it are computed for each of them, and converge to those computed for `hp`. -/
theorem C111_continuous {g : Gp} (hg : GpOk g) {hps : ι → HpVals} {hp : HpVals} (hh : HpAdm g hp) (hhs : ∀ k, HpAdm g (hps k))
    (hk : g.useGrad = true ∨ g.knownFval = true) (hprec : g.o.precon = true → g.useGrad = true) (hne : 0 < g.nEval)
    (hη : if g.o.etaConst then 0 < g.o.etaK else 1 < g.o.condMaxTarget) (hv : g.noisy = true → ∃ v, hp.varK = some v ∧ 0 < v)
    (hvs : ∀ k, g.noisy = true → ∃ v, (hps k).varK = some v ∧ 0 < v) (env : LkdEnv) (cc : Bool) (hcc : cc = true → g.o.precon = true)
    (hconv : HpConv l hps hp) :
    ∃ (L β : ι → ℝ) (L0 β0 : ℝ),
      (∀ k, ∃ li, calcLkdAll g env (hps k) cc false = .ok (li, true) ∧ li.lnLkd = some (L k) ∧ li.beta = some fun _ => β k) ∧
      (∃ li, calcLkdAll g env hp cc false = .ok (li, true) ∧ li.lnLkd = some L0 ∧ li.beta = some fun _ => β0) ∧
      Tendsto L l (𝓝 L0) ∧ Tendsto β l (𝓝 β0) := by
  choose L b c li okk h1 h2 h3 h4 using fun k => lkd_parts hg (hhs k) hk hprec hne hη (hvs k) env cc
  obtain ⟨L0, b0, c0, li0, okk0, e1, e2, e3, e4⟩ := lkd_parts hg hh hk hprec hne hη hv env cc
  obtain ⟨t1, t2, -⟩ := isLkd_tendsto hg hne hh hhs hconv h1 e1
  have hno : cc = true → g.o.precon = false → ∀ x : ℝ, x ≤ g.o.condMaxAbs := fun a b => by rw [hcc a] at b; cases b
  have ho : ∀ k, okk k = true := fun k => (h3 k).mpr fun a b => hno a b _
  have ho0 : okk0 = true := e3.mpr fun a b => hno a b _
  subst ho0
  exact ⟨L, b, L0, b0, fun k => ⟨li k, by rw [h2 k, ho k], h4 k (ho k)⟩, ⟨li0, e2, e4 rfl⟩, t1, t2⟩

/-- **C111**, limits of accepted hyperparameters. If a condition-number test is made, the hyperparameters that pass it form a closed set: a
limit of accepted ones is accepted, and the likelihood there is the limit of theirs. -/
theorem C111_accepted_closed [l.NeBot] {g : Gp} (hg : GpOk g) {hps : ι → HpVals} {hp : HpVals} (hh : HpAdm g hp) (hhs : ∀ k, HpAdm g (hps k))
    (hk : g.useGrad = true ∨ g.knownFval = true) (hprec : g.o.precon = true → g.useGrad = true) (hne : 0 < g.nEval)
    (hη : if g.o.etaConst then 0 < g.o.etaK else 1 < g.o.condMaxTarget) (hv : g.noisy = true → ∃ v, hp.varK = some v ∧ 0 < v)
    (hvs : ∀ k, g.noisy = true → ∃ v, (hps k).varK = some v ∧ 0 < v) (env : LkdEnv) (cc : Bool) (hconv : HpConv l hps hp)
    {lis : ι → LkdInfo nBetaCoeff env.info.nHp} (hacc : ∀ k, calcLkdAll g env (hps k) cc false = .ok (lis k, true)) :
    ∃ (L : ι → ℝ) (L0 : ℝ) (li : LkdInfo nBetaCoeff env.info.nHp), calcLkdAll g env hp cc false = .ok (li, true) ∧
      (∀ k, (lis k).lnLkd = some (L k)) ∧ li.lnLkd = some L0 ∧ Tendsto L l (𝓝 L0) := by
  choose L b c li okk h1 h2 h3 h4 using fun k => lkd_parts hg (hhs k) hk hprec hne hη (hvs k) env cc
  obtain ⟨L0, b0, c0, li0, okk0, e1, e2, e3, e4⟩ := lkd_parts hg hh hk hprec hne hη hv env cc
  obtain ⟨t1, -, t3⟩ := isLkd_tendsto hg hne hh hhs hconv h1 e1
  have he : ∀ k, li k = lis k ∧ okk k = true := fun k => by
    have := (h2 k).symm.trans (hacc k)
    simpa using this
  have ho0 : okk0 = true := e3.mpr fun a b => le_of_tendsto t3 (Eventually.of_forall fun k => (h3 k).mp (he k).2 a b)
  subst ho0
  exact ⟨L, L0, li0, e2, fun k => by rw [← (he k).1]; exact (h4 k (he k).2).1, (e4 rfl).1, t1⟩

/-- The vector `x` respects the bounds. -/
def InBox (n : ℕ) (lo hi : ℕ → ℝ) (x : Arr1) : Prop := x.n = n ∧ ∀ p < n, lo p ≤ x.get p ∧ x.get p ≤ hi p

/-- The likelihood at the vector `x` of optimised hyperparameters is `L` (and the covariance matrix passes the test, if there is one). -/
def LkdIs (g : Gp) (env : LkdEnv) (cc : Bool) (x : Arr1) (L : ℝ) : Prop :=
  ∃ hp li, hpVec2Dataclass g env.info x = .ok hp ∧ calcLkdAll g env hp cc false = .ok (li, true) ∧ li.lnLkd = some L

theorem conv_decode {g : Gp} {lo : LogOpts} {ok : Bool} {info : HpInfo} (hi : setupHpIdx g lo ok = .ok info) {xs : ι → Arr1} {x : Arr1}
    {hps : ι → HpVals} {hp : HpVals} (hns : ∀ k, (xs k).n = info.nHp) (hn : x.n = info.nHp) (hd : ∀ k, hpVec2Dataclass g info (xs k) = .ok (hps k))
    (hd0 : hpVec2Dataclass g info x = .ok hp) (h : ∀ p < info.nHp, Tendsto (fun k => (xs k).get p) l (𝓝 (x.get p))) : HpConv l hps hp := by
  have key : ∀ {y : Arr1} {q : HpVals}, y.n = info.nHp → hpVec2Dataclass g info y = .ok q →
      (∀ p s, (gpSlots g ok)[p]? = some s → getSlot q s = some (natural lo s (y.get p))) ∧ ∀ s, s ∉ gpSlots g ok → getSlot q s = none := by
    intro y q e1 e2
    obtain ⟨q', h1, -, -, h2, h3⟩ := C55_decode g lo ok hi y e1
    rw [e2] at h1; cases h1
    exact ⟨h2, h3⟩
  obtain ⟨info', i1, i3, -⟩ := C54_object_layout g lo ok
  rw [hi] at i1; cases i1
  intro s
  by_cases hs : s ∈ gpSlots g ok
  · obtain ⟨p, hps⟩ := List.mem_iff_getElem?.mp hs
    have hp : p < info.nHp := by
      obtain ⟨h, -⟩ := List.getElem?_eq_some_iff.mp hps
      omega
    rw [(key hn hd0).1 p s hps]
    simp only [(key (hns _) (hd _)).1 p s hps, Option.getD_some]
    exact ((natural_deriv lo s (x.get p)).continuousAt.tendsto).comp (h p hp)
  · rw [(key hn hd0).2 s hs]
    simp only [(key (hns _) (hd _)).2 s hs]
    exact tendsto_const_nhds

/-- **C111**, the maximum exists. Let the optimised hyperparameters be bounded, with a positive lower bound for those that are not optimised as
logarithms. If the likelihood can be computed at some vector within the bounds (which is so at every such vector if no condition-number test is
made, or with preconditioning), there is a vector within the bounds where it is largest. -/
theorem C111_maximum {g : Gp} (hg : GpOk g) (hk : g.useGrad = true ∨ g.knownFval = true)
    (hprec : g.o.precon = true → g.useGrad = true) (hne : 0 < g.nEval) (hη : if g.o.etaConst then 0 < g.o.etaK else 1 < g.o.condMaxTarget)
    {lo : LogOpts} {ok : Bool} {env : LkdEnv} (hi : setupHpIdx g lo ok = .ok env.info) (hker : g.kernel = .ratQuad → ok = true) (cc : Bool)
    {bl bu : ℕ → ℝ} (hpos : ∀ p s, (gpSlots g ok)[p]? = some s → slotLog lo s = false → 0 < bl p) :
    ((cc = true → g.o.precon = true) → ∀ x, InBox env.info.nHp bl bu x → ∃ L, LkdIs g env cc x L) ∧
    ((∃ x L, InBox env.info.nHp bl bu x ∧ LkdIs g env cc x L) →
      ∃ x L, InBox env.info.nHp bl bu x ∧ LkdIs g env cc x L ∧ ∀ x' L', InBox env.info.nHp bl bu x' → LkdIs g env cc x' L' → L' ≤ L) := by
  have hlt : ∀ {p s}, (gpSlots g ok)[p]? = some s → p < env.info.nHp := by
    intro p s hps
    obtain ⟨info', i1, i3, -⟩ := C54_object_layout g lo ok
    rw [hi] at i1; cases i1
    obtain ⟨h, -⟩ := List.getElem?_eq_some_iff.mp hps
    omega
  have hall : ∀ x, InBox env.info.nHp bl bu x → ∃ hp L b c li okk, hpVec2Dataclass g env.info x = .ok hp ∧ HpAdm g hp ∧ IsLkd g env cc hp L b c ∧
      calcLkdAll g env hp cc false = .ok (li, okk) ∧ (okk = true ↔ (cc = true → g.o.precon = false → c ≤ g.o.condMaxAbs)) ∧
      (okk = true → li.lnLkd = some L ∧ li.beta = some fun _ => b) := by
    intro x hx
    obtain ⟨hp, hd, hadm, hs⟩ := decode_adm hi hx.1 hker fun p s h1 h2 => lt_of_lt_of_le (hpos p s h1 h2) (hx.2 p (hlt h1)).1
    obtain ⟨L, b, c, li, okk, h⟩ := lkd_parts hg hadm hk hprec hne hη (fun hno => hs .varK (by simp [gpSlots, hpSlots, hno])) env cc
    exact ⟨hp, L, b, c, li, okk, hd, hadm, h⟩
  refine ⟨fun hcc x hx => ?_, ?_⟩
  · obtain ⟨hp, L, b, c, li, okk, h1, -, -, h4, h5, h6⟩ := hall x hx
    have ho : okk = true := h5.mpr fun a b => by rw [hcc a] at b; cases b
    subst ho
    exact ⟨L, hp, li, h1, h4, (h6 rfl).1⟩
  rintro ⟨x1, L1, hx1, hl1⟩
  set n := env.info.nHp with hnn
  let T := ↥(Set.Icc (fun p : Fin n => bl p) (fun p : Fin n => bu p))
  haveI : CompactSpace T := isCompact_iff_compactSpace.mp isCompact_Icc
  let toArr : T → Arr1 := fun z => ⟨n, fun p => if h : p < n then z.1 ⟨p, h⟩ else 0⟩
  have hbox : ∀ z, InBox n bl bu (toArr z) := fun z => ⟨rfl, fun p hp => by
    simp only [toArr, dif_pos hp]
    exact ⟨z.2.1 ⟨p, hp⟩, z.2.2 ⟨p, hp⟩⟩⟩
  let ofArr : ∀ x, InBox n bl bu x → T := fun x hx => ⟨fun p => x.get p, fun p => (hx.2 p p.2).1, fun p => (hx.2 p p.2).2⟩
  choose hps L b c li okk h1 h2 h3 h4 h5 h6 using fun z => hall (toArr z) (hbox z)
  have hcont : ∀ z0 : T, Tendsto L (𝓝 z0) (𝓝 (L z0)) ∧ Tendsto c (𝓝 z0) (𝓝 (c z0)) := by
    intro z0
    have hconv : HpConv (𝓝 z0) hps (hps z0) := conv_decode hi (xs := toArr) (x := toArr z0) (fun _ => rfl) rfl h1 (h1 z0) fun p hp => by
      have e : ∀ z : T, (toArr z).get p = z.1 ⟨p, hp⟩ := fun z => dif_pos hp
      simp only [e]
      exact ((continuous_apply (⟨p, hp⟩ : Fin n)).comp continuous_subtype_val).tendsto z0
    obtain ⟨t1, -, t3⟩ := isLkd_tendsto hg hne (h2 z0) h2 hconv h3 (h3 z0)
    exact ⟨t1, t3⟩
  have hL : Continuous L := continuous_iff_continuousAt.mpr fun z => (hcont z).1
  have hc : Continuous c := continuous_iff_continuousAt.mpr fun z => (hcont z).2
  -- an arbitrary vector and its copy have the same likelihood
  have hsame : ∀ x (hx : InBox n bl bu x) L', LkdIs g env cc x L' → okk (ofArr x hx) = true ∧ L' = L (ofArr x hx) := by
    rintro x hx L' ⟨hp', li', e1, e2, e3⟩
    obtain ⟨hp, L2, b2, c2, li2, okk2, f1, f2, f3, f4, f5, f6⟩ := hall x hx
    rw [e1] at f1; cases f1
    rw [e2] at f4; cases f4
    have hl := (f6 rfl).1
    rw [e3] at hl; cases hl
    have hconv : HpConv (𝓝 ()) (fun _ => hp') (hps (ofArr x hx)) := conv_decode hi (xs := fun _ => x) (x := toArr (ofArr x hx)) (fun _ => hx.1) rfl
      (fun _ => e1) (h1 _) fun p hp => by
        have : (toArr (ofArr x hx)).get p = x.get p := dif_pos hp
        rw [this]; exact tendsto_const_nhds
    obtain ⟨t1, -, t3⟩ := isLkd_tendsto hg hne (h2 _) (fun _ => f2) hconv (fun _ => f3) (h3 _)
    have g1 := tendsto_nhds_unique tendsto_const_nhds t1
    have g3 := tendsto_nhds_unique tendsto_const_nhds t3
    exact ⟨(h5 _).mpr (by rw [← g3]; exact f5.mp rfl), g1⟩
  let S : Set T := {z | okk z = true}
  have hS : IsClosed S := by
    have : S = {z | cc = true → g.o.precon = false → c z ≤ g.o.condMaxAbs} := by
      ext z; exact h5 z
    rw [this]
    by_cases hh : cc = true ∧ g.o.precon = false
    · have : {z | cc = true → g.o.precon = false → c z ≤ g.o.condMaxAbs} = {z | c z ≤ g.o.condMaxAbs} := by
        ext z; simp [hh.1, hh.2]
      rw [this]
      exact isClosed_le hc continuous_const
    · have : {z : T | cc = true → g.o.precon = false → c z ≤ g.o.condMaxAbs} = Set.univ := by
        ext z; simp only [Set.mem_setOf_eq, Set.mem_univ, iff_true]; exact fun a b => (hh ⟨a, b⟩).elim
      rw [this]; exact isClosed_univ
  obtain ⟨z, hz, hmax⟩ := hS.isCompact.exists_isMaxOn ⟨ofArr x1 hx1, (hsame x1 hx1 L1 hl1).1⟩ hL.continuousOn
  refine ⟨toArr z, L z, hbox z, ⟨hps z, li z, h1 z, ?_, (h6 z hz).1⟩, fun x' L' hx' hl' => ?_⟩
  · rw [h4 z, show okk z = true from hz]
  · obtain ⟨k1, k2⟩ := hsame x' hx' L' hl'
    rw [k2]
    exact hmax k1

/-- **C111**, the optimiser's problem. Without a condition-number test, or with preconditioning, there is for all nonempty bounds a vector `x`
within them and a number `L` such that, whatever was evaluated before, a call of the objective at `x` returns `-L` and no call at a vector
within the bounds returns less. (Any success of the callbacks; see C32 and C34 for when they succeed.) -/
theorem C111_objective {g : Gp} (hg : GpOk g) (hk : g.useGrad = true ∨ g.knownFval = true)
    (hprec : g.o.precon = true → g.useGrad = true) (hne : 0 < g.nEval) (hη : if g.o.etaConst then 0 < g.o.etaK else 1 < g.o.condMaxTarget)
    {lo : LogOpts} {ok : Bool} {env : LkdEnv} (hi : setupHpIdx g lo ok = .ok env.info) (hker : g.kernel = .ratQuad → ok = true)
    (hcc : env.useCstr = true → g.o.precon = true) {bl bu : ℕ → ℝ} (hb : ∀ p < env.info.nHp, bl p ≤ bu p)
    (hpos : ∀ p s, (gpSlots g ok)[p]? = some s → slotLog lo s = false → 0 < bl p) :
    ∃ x L, InBox env.info.nHp bl bu x ∧ LkdIs g env env.useCstr x L ∧
      (∀ st f s1, CacheReach g env st → returnOptzVal g env st x = .ok (f, s1) → f = -L) ∧
      ∀ x' st f s1, InBox env.info.nHp bl bu x' → CacheReach g env st → returnOptzVal g env st x' = .ok (f, s1) → -L ≤ f := by
  obtain ⟨h1, h2⟩ := C111_maximum hg hk hprec hne hη hi hker env.useCstr (bl := bl) (bu := bu) hpos
  have hbl : InBox env.info.nHp bl bu ⟨env.info.nHp, bl⟩ := ⟨rfl, fun p hp => ⟨le_refl _, hb p hp⟩⟩
  obtain ⟨L1, hL1⟩ := h1 hcc _ hbl
  obtain ⟨x, L, hx, hL, hmax⟩ := h2 ⟨_, L1, hbl, hL1⟩
  have key : ∀ x' st f s1, InBox env.info.nHp bl bu x' → CacheReach g env st → returnOptzVal g env st x' = .ok (f, s1) →
      LkdIs g env env.useCstr x' (-f) := by
    intro x' st f s1 hx' hst hf
    obtain ⟨L', hp, li, k1, k2, k3⟩ := h1 hcc x' hx'
    obtain ⟨li', okk, m1, m2⟩ := objective_inv hst k1 hf
    have hlt : ∀ {p s}, (gpSlots g ok)[p]? = some s → p < env.info.nHp := by
      intro p s hps
      obtain ⟨info', i1, i3, -⟩ := C54_object_layout g lo ok
      rw [hi] at i1; cases i1
      obtain ⟨h, -⟩ := List.getElem?_eq_some_iff.mp hps
      omega
    obtain ⟨hp', hd, hadm, hs⟩ := decode_adm hi hx'.1 hker fun p s h1 h2 => lt_of_lt_of_le (hpos p s h1 h2) (hx'.2 p (hlt h1)).1
    rw [k1] at hd; cases hd
    obtain ⟨lf, n1, n2, -⟩ := lkd_true_false hg hadm hk hprec hne hη (fun hno => hs .varK (by simp [gpSlots, hpSlots, hno])) env m1
    rw [k2] at n1; cases n1
    simp only [if_true] at m2
    exact ⟨hp, li, k1, k2, n2.trans m2⟩
  refine ⟨x, L, hx, hL, fun st f s1 hst hf => ?_, fun x' st f s1 hx' hst hf => ?_⟩
  · obtain ⟨hp, li, a1, a2, a3⟩ := key x st f s1 hx hst hf
    obtain ⟨hp', li', b1, b2, b3⟩ := hL
    rw [a1] at b1; cases b1
    rw [a2] at b2; cases b2
    rw [a3] at b3; cases b3; simp
  · have := hmax x' _ hx' (key x' st f s1 hx' hst hf)
    linarith

/-! ### C112: predictions -/

theorem setup_tendsto {g : Gp} (hg : GpOk g) {hps : ι → HpVals} {hp : HpVals} (hh : HpAdm g hp) (hhs : ∀ k, HpAdm g (hps k))
    (hconv : HpConv l hps hp) {β : ι → ℝ} {β0 : ℝ} {cc : Bool} {N : ι → Vec g.nData} {K : ι → Mat g.nData g.nData} {st : ι → EvalState g.nData}
    {N0 : Vec g.nData} {K0 : Mat g.nData g.nData} {st0 : EvalState g.nData} (h : ∀ k, SetupSpec g (hps k) (β k) cc (N k) (K k) (st k))
    (h0 : SetupSpec g hp β0 cc N0 K0 st0) :
    Tendsto (fun k => (st k).KernEta) l (𝓝 st0.KernEta) ∧ (∀ k, (st k).dataVec = st0.dataVec) := by
  choose Na hNa hN using fun k => (h k).noise
  obtain ⟨Na0, hNa0, hN0⟩ := h0.noise
  have tK := kern_tendsto hg hh hhs hconv (fun k => (h k).isKern) h0.isKern
  have tN : Tendsto N l (𝓝 N0) := by
    rw [hN0]
    exact (noise_tendsto hg hconv hNa hNa0).congr fun k => (hN k).symm
  have te : Tendsto (fun k => (st k).etaK) l (𝓝 st0.etaK) := by
    rw [h0.etaEq]
    refine Tendsto.congr (fun k => (h k).etaEq.symm) ?_
    exact eta_tendsto g.o (v := fun _ => 1) tendsto_const_nhds one_pos tK tN h0.diag fun i => by rw [hN0]; exact NoiseSpec.nonneg hg hh hNa0 i
  refine ⟨?_, fun k => data_unique hg (h k).data h0.data⟩
  rw [h0.cov]
  refine Tendsto.congr (fun k => (h k).cov.symm) (mat_tendsto fun i j => ?_)
  simp only [Matrix.add_apply, diagonal_apply, addDiag]
  refine (mat_entry tK i j).add ?_
  split_ifs
  · exact (vec_entry tN i).add (te.mul ((mat_entry tK i i).add (vec_entry tN i)))
  · exact (vec_entry tN i).add (te.mul tendsto_const_nhds)
  · exact tendsto_const_nhds

/-- **C112**. Let the hyperparameters `hps k` (with prior variance `v k` and mean `β k`) converge to `hp`, and the points `P k` to `P`. Then
the predicted mean and standard deviation, the gradient of the mean and, where the limit of the standard deviation is not 0, the gradient of the
standard deviation at the points `P k` with the hyperparameters `hps k` converge to those at `P` with `hp`. (Any setups that factorised
their matrices; see C43 for when they do.) -/
theorem C112_predictions {g : Gp} {hps : ι → HpVals} {hp : HpVals} {v β : ι → ℝ} {v0 β0 : ℝ} (hr : ∀ k, Ready g (hps k) (v k) (β k))
    (hr0 : Ready g hp v0 β0) (hconv : HpConv l hps hp) (hβ : Tendsto β l (𝓝 β0)) {cc : Bool} {st : ι → EvalState g.nData}
    {st0 : EvalState g.nData} (hst : ∀ k, setupEvalModel g (hps k) cc = .ok (st k)) (hst0 : setupEvalModel g hp cc = .ok st0)
    (hF : ∀ k, (st k).chofac ≠ none) (hF0 : st0.chofac ≠ none) {r : ℕ} (hrr : 0 < r) {P : ι → ℕ → Pt} {P0 : ℕ → Pt}
    (hP : ∀ a < r, ∀ d < g.dim, Tendsto (fun k => P k a d) l (𝓝 (P0 a d))) :
    ∃ (out : ι → EvalOut r g.dim) (out0 : EvalOut r g.dim) (G H : ι → Mat r g.dim) (G0 H0 : Mat r g.dim),
      (∀ k, evalModel g (st k) (hps k) ⟨r, g.dim, P k⟩ true false = .ok (out k)) ∧ evalModel g st0 hp ⟨r, g.dim, P0⟩ true false = .ok out0 ∧
      (∀ k, (out k).dmu = some (G k) ∧ (out k).dsig = some (H k)) ∧ out0.dmu = some G0 ∧ out0.dsig = some H0 ∧
      ∀ a, Tendsto (fun k => (out k).mu a) l (𝓝 (out0.mu a)) ∧ Tendsto (fun k => (out k).sig a) l (𝓝 (out0.sig a)) ∧
        ∀ i, Tendsto (fun k => G k a i) l (𝓝 (G0 a i)) ∧ (out0.sig a ≠ 0 → Tendsto (fun k => H k a i) l (𝓝 (H0 a i))) := by
  have hg := hr0.ok
  choose N K hs hN using fun k => ready_setup (hr k).toV (hst k)
  obtain ⟨N0, K0, hs0, -⟩ := ready_setup hr0.toV hst0
  have hpd0 := ready_pd hs0 hF0
  obtain ⟨tM, hd⟩ := setup_tendsto hg hr0.adm (fun k => (hr k).adm) hconv hs hs0
  have hMi := inv_tendsto tM hpd0.det_pos.ne'
  have hv : Tendsto v l (𝓝 v0) := by
    have := hconv .varK
    simpa only [getSlot, hr0.varK, (hr _).varK, Option.getD_some] using this
  have hw : Tendsto (fun k => (st k).KernEta⁻¹ *ᵥ ((st k).dataVec - priorMean g (β k))) l (𝓝 (st0.KernEta⁻¹ *ᵥ (st0.dataVec - priorMean g β0))) := by
    refine mulVec_tendsto hMi ?_
    simp only [hd]
    refine tendsto_const_nhds.sub (tendsto_pi_nhds.mpr fun q => ?_)
    unfold priorMean
    split_ifs
    · exact hβ
    · exact tendsto_const_nhds
  refine ⟨fun k => evalClosed g (hps k) (st k).KernEta ((st k).KernEta⁻¹ *ᵥ ((st k).dataVec - priorMean g (β k))) (β k) (v k) ⟨r, g.dim, P k⟩ true false,
    evalClosed g hp st0.KernEta (st0.KernEta⁻¹ *ᵥ (st0.dataVec - priorMean g β0)) β0 v0 ⟨r, g.dim, P0⟩ true false, _, _, _, _,
    fun k => ready_eval (hr k) (hs k) (hF k) rfl hrr true false noHess, ready_eval hr0 hs0 hF0 rfl hrr true false noHess, fun k => ⟨rfl, rfl⟩, rfl, rfl, ?_⟩
  intro a
  have hr1 : ∀ q : Fin g.nData, ∀ d < g.dim, Tendsto (fun k => dpt g q d - P k a d) l (𝓝 (dpt g q d - P0 a d)) := fun q d hd =>
    tendsto_const_nhds.sub (hP a a.2 d hd)
  have hkv : Tendsto (fun k => kv g (hps k) (P k a)) l (𝓝 (kv g hp (P0 a))) := tendsto_pi_nhds.mpr fun q => by
    unfold kv
    exact conv_rad (r := fun k d => dpt g q d - P k a d) (r0 := fun d => dpt g q d - P0 a d) hr0.adm (fun k => (hr k).adm) hconv (hr1 q) (dco_lt hg q)
      (by simp)
  have hkd : ∀ i : Fin g.dim, Tendsto (fun k => kd g (hps k) (P k a) i) l (𝓝 (kd g hp (P0 a) i)) := fun i => tendsto_pi_nhds.mpr fun q => by
    unfold kd
    exact conv_rad (r := fun k d => dpt g q d - P k a d) (r0 := fun d => dpt g q d - P0 a d) hr0.adm (fun k => (hr k).adm) hconv (hr1 q) (dco_lt hg q)
      (by simp)
  have hsig : Tendsto (fun k => sgF g (hps k) (st k).KernEta (v k) (P k a)) l (𝓝 (sgF g hp st0.KernEta v0 (P0 a))) := by
    unfold sgF s2F
    exact ((Real.continuous_sqrt.tendsto _).comp (tendsto_const_nhds.sub (dot_tendsto hkv (mulVec_tendsto hMi hkv)))).mul
      ((Real.continuous_sqrt.tendsto _).comp hv)
  refine ⟨?_, hsig, fun i => ⟨?_, fun hs0' => ?_⟩⟩
  · show Tendsto (fun k => muF g (hps k) _ (β k) (P k a)) l (𝓝 (muF g hp _ β0 (P0 a)))
    unfold muF
    exact hβ.add (dot_tendsto hkv hw)
  · show Tendsto (fun k => dmuF g (hps k) _ (P k a) i) l (𝓝 (dmuF g hp _ (P0 a) i))
    unfold dmuF
    exact dot_tendsto (hkd i) hw
  · show Tendsto (fun k => dsgF g (hps k) _ (v k) (P k a) i) l (𝓝 (dsgF g hp _ v0 (P0 a) i))
    have e : ∀ (q : HpVals) (M : Mat g.nData g.nData) (u : ℝ) (x : Pt), dsgF g q M u x i =
        -(sgF g q M u x)⁻¹ * ((kd g q x i ⬝ᵥ M⁻¹ *ᵥ kv g q x) * u) := by
      intro q M u x
      unfold dsgF
      split_ifs with hz
      · rw [one_div]
      · rw [not_not.mp hz]; simp
    simp only [e]
    exact ((hsig.inv₀ hs0').neg).mul ((dot_tendsto (hkd i) (mulVec_tendsto hMi hkv)).mul hv)

/-! ### Concrete cases -/

/-- Variances approaching 3. -/
def nearThree (k : ℕ) : ℝ := 3 + 1 / ((k : ℝ) + 1)

theorem nearThree_pos (k : ℕ) : 0 < nearThree k := by unfold nearThree; positivity

theorem nearThree_lim : Tendsto nearThree atTop (𝓝 3) := by
  have := tendsto_one_div_add_atTop_nhds_zero_nat (𝕜 := ℝ)
  have h := (tendsto_const_nhds (x := (3 : ℝ))).add this
  rw [add_zero] at h
  exact h

/-- Only the variance moves. -/
theorem nearThree_conv (hp : HpVals) (h : hp.varK = some 3) : HpConv atTop (fun k => { hp with varK := some (nearThree k) }) hp := by
  intro s
  cases s with
  | theta d => exact tendsto_const_nhds
  | kernel => exact tendsto_const_nhds
  | varK => simpa [getSlot, h] using nearThree_lim
  | varFval => exact tendsto_const_nhds
  | varFgrad => exact tendsto_const_nhds

-- C111, continuity: the likelihood at the variances 4, 3.5, 3.33…, 3.25, … approaches the one at 3
example (env : LkdEnv) : ∃ (L : ℕ → ℝ) (L0 : ℝ),
    (∀ k, ∃ li, calcLkdAll exGpRq env { exHpRq with varK := some (nearThree k) } true false = .ok (li, true) ∧ li.lnLkd = some (L k)) ∧
    (∃ li, calcLkdAll exGpRq env exHpRq true false = .ok (li, true) ∧ li.lnLkd = some L0) ∧ Tendsto L atTop (𝓝 L0) := by
  obtain ⟨L, β, L0, β0, h1, ⟨li, h2, h3, -⟩, h4, -⟩ := C111_continuous exGpRq_ok (hps := fun k => { exHpRq with varK := some (nearThree k) }) exHpRq_adm
    (fun _ => ⟨exHpRq_adm.theta, exHpRq_adm.kernel, exHpRq_adm.vf_none, exHpRq_adm.vf_some, exHpRq_adm.vg_none, exHpRq_adm.vg_some⟩) (.inl rfl)
    (fun _ => rfl) Nat.two_pos exGpRq_lkd.eta (fun _ => ⟨3, rfl, by norm_num⟩) (fun k _ => ⟨_, rfl, nearThree_pos k⟩) env true (fun _ => rfl)
    (nearThree_conv exHpRq rfl)
  exact ⟨L, L0, fun k => (h1 k).imp fun _ h => ⟨h.1, h.2.1⟩, ⟨li, h2, h3⟩, h4⟩

-- C111, the maximum: six hyperparameters between 1/1000 and 1000
example (eig : EigFun) : ∃ (env : LkdEnv) (x : Arr1) (L : ℝ), env.eig = eig ∧ InBox 6 (fun _ => -3) (fun _ => 3) x ∧ LkdIs exGpRq env false x L ∧
    ∀ x' st f s1, InBox 6 (fun _ => -3) (fun _ => 3) x' → CacheReach exGpRq env st → returnOptzVal exGpRq env st x' = .ok (f, s1) → -L ≤ f := by
  have hi := setupHpIdx_ok exGpRq ⟨true, true, true⟩ true
  set info : HpInfo := hpInfoOf ⟨true, true, true⟩ exGpRq.dim true (true && kernelHasHp exGpRq.kernel) exGpRq.noisy (!exGpRq.knownFval)
      (exGpRq.useGrad && !exGpRq.knownFgrad) with hinfo
  have hlog : ∀ s, slotLog ⟨true, true, true⟩ s = true := by intro s; cases s <;> rfl
  obtain ⟨x, L, h1, h2, -, h3⟩ := C111_objective exGpRq_ok (.inl rfl) (fun _ => rfl) Nat.two_pos exGpRq_lkd.eta
    (env := { lkd := ⟨true, 1, 10, 0, true⟩, info := info, useCstr := false, eig := eig }) hi (fun _ => rfl) (fun h => (nomatch h))
    (bl := fun _ => -3) (bu := fun _ => 3) (fun _ _ => by norm_num) (fun p s _ h => by rw [hlog s] at h; cases h)
  exact ⟨_, x, L, rfl, h1, h2, h3⟩

-- C111, accepted hyperparameters: with preconditioning all are, so the hypothesis is met
example (env : LkdEnv) : ∃ (lis : ℕ → LkdInfo nBetaCoeff env.info.nHp) (li : LkdInfo nBetaCoeff env.info.nHp),
    (∀ k, calcLkdAll exGpRq env { exHpRq with varK := some (nearThree k) } true false = .ok (lis k, true)) ∧
    calcLkdAll exGpRq env exHpRq true false = .ok (li, true) := by
  have hadm : ∀ k, HpAdm exGpRq { exHpRq with varK := some (nearThree k) } := fun _ =>
    ⟨exHpRq_adm.theta, exHpRq_adm.kernel, exHpRq_adm.vf_none, exHpRq_adm.vf_some, exHpRq_adm.vg_none, exHpRq_adm.vg_some⟩
  obtain ⟨L, β, L0, β0, h1, -⟩ := C111_continuous exGpRq_ok (hps := fun k => { exHpRq with varK := some (nearThree k) }) exHpRq_adm hadm (.inl rfl)
    (fun _ => rfl) Nat.two_pos exGpRq_lkd.eta (fun _ => ⟨3, rfl, by norm_num⟩) (fun k _ => ⟨_, rfl, nearThree_pos k⟩) env true (fun _ => rfl)
    (nearThree_conv exHpRq rfl)
  choose lis h2 h3 using h1
  obtain ⟨-, -, li, h4, -⟩ := C111_accepted_closed exGpRq_ok exHpRq_adm hadm (.inl rfl) (fun _ => rfl) Nat.two_pos exGpRq_lkd.eta
    (fun _ => ⟨3, rfl, by norm_num⟩) (fun k _ => ⟨_, rfl, nearThree_pos k⟩) env true (nearThree_conv exHpRq rfl) h2
  exact ⟨lis, li, h2, h4⟩

/-- As `exReady`, with a variance near 3. -/
theorem exReady_near (k : ℕ) : Ready exGp { exHpB with varK := some (nearThree k) } (nearThree k) 4 :=
  ⟨exReady.ok, ⟨exReady.adm.theta, exReady.adm.kernel, exReady.adm.vf_none, exReady.adm.vf_some, exReady.adm.vg_none, exReady.adm.vg_some⟩,
    exReady.noise, exReady.precon, exReady.ne, nearThree_pos k, rfl, exReady.beta, exReady.eta, exReady.mask⟩

-- C112: predictions at two points that move while the variance does
example : ∃ (st : ℕ → EvalState exGp.nData) (st0 : EvalState exGp.nData) (out : ℕ → EvalOut 2 2) (out0 : EvalOut 2 2),
    (∀ k, evalModel exGp (st k) { exHpB with varK := some (nearThree k) } ⟨2, 2, fun a d => a + d / 10 + nearThree k⟩ true false = .ok (out k)) ∧
    evalModel exGp st0 exHpB ⟨2, 2, fun a d => a + d / 10 + 3⟩ true false = .ok out0 ∧
    Tendsto (fun k => (out k).mu 1) atTop (𝓝 (out0.mu 1)) ∧ Tendsto (fun k => (out k).sig 0) atTop (𝓝 (out0.sig 0)) := by
  have hη : if exGp.o.etaConst then 0 < exGp.o.etaK else 1 < exGp.o.condMaxTarget := by norm_num [exGp]
  choose st h1 h2 using fun k => ready_total (exReady_near k).toV hη
  obtain ⟨st0, h3, h4⟩ := ready_total exReady.toV hη
  obtain ⟨out, out0, _, _, _, _, k1, k2, -, -, -, k3⟩ := C112_predictions exReady_near exReady (nearThree_conv exHpB rfl) tendsto_const_nhds h1 h3 h2 h4
    (r := 2) Nat.two_pos (P := fun k a d => a + d / 10 + nearThree k) (P0 := fun a d => a + d / 10 + 3)
    (fun a _ d _ => tendsto_const_nhds.add nearThree_lim)
  exact ⟨st, st0, out, out0, k1, k2, (k3 1).1, (k3 0).2.1⟩

end Props
