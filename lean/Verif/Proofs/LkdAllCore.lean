import Verif.Props.CondGrad
import Verif.Props.HpGrad
import Verif.Proofs.EvalCore3
import Verif.Props.Mean
import Verif.Spec.OptzSpec

/-! The optimiser's callbacks along one coordinate. -/

open Np GP Spec Matrix MD

noncomputable section

namespace GP

/-! ### Decoding a vector with one entry changed -/

theorem bind_eq_ok {α β : Type} {x : Py α} {f : α → Py β} {b : β} (h : (x >>= f) = .ok b) : ∃ a, x = .ok a ∧ f a = .ok b := by
  cases x with
  | error e => cases h
  | ok a => exact ⟨a, rfl, h⟩

theorem decode_junk {gp : Gp} {info : HpInfo} {vec : Arr1} {hp : HpVals} (h : hpVec2Dataclass gp info vec = .ok hp) :
    ∀ th, hp.theta = some th → ∀ k, th.n ≤ k → th.get k = 0 := by
  unfold hpVec2Dataclass at h
  obtain ⟨w, -, h⟩ := bind_eq_ok h
  obtain ⟨th, hth, h⟩ := bind_eq_ok h
  obtain ⟨_, -, h⟩ := bind_eq_ok h
  obtain ⟨_, -, h⟩ := bind_eq_ok h
  obtain ⟨_, -, h⟩ := bind_eq_ok h
  obtain ⟨_, -, h⟩ := bind_eq_ok h
  cases h
  intro th' h' k hk
  dsimp only at h'
  subst h'
  unfold takeTheta at hth
  split at hth
  · obtain ⟨t, ht, he⟩ := bind_eq_ok hth
    cases he
    unfold takeIdx at ht
    split at ht
    · cases ht
      simp only at hk ⊢
      rw [if_neg (by omega)]
    · cases ht
  · cases hth

theorem hpVals_ext {a b : HpVals} (hb : a.beta = none) (hb' : b.beta = none) {ta tb : Arr1} (ha : a.theta = some ta)
    (hb2 : b.theta = some tb) (hn : ta.n = tb.n) (ja : ∀ k, ta.n ≤ k → ta.get k = 0) (jb : ∀ k, tb.n ≤ k → tb.get k = 0)
    (h : ∀ s, getSlot a s = getSlot b s) : a = b := by
  have h1 : a.kernel = b.kernel := h .kernel
  have h2 : a.varK = b.varK := h .varK
  have h3 : a.varFval = b.varFval := h .varFval
  have h4 : a.varFgrad = b.varFgrad := h .varFgrad
  have h5 : ta = tb := by
    obtain ⟨n, ga⟩ := ta
    obtain ⟨m, gb⟩ := tb
    simp only at hn ja jb
    subst hn
    congr 1
    funext d
    by_cases hd : d < n
    · have := h (.theta d)
      simpa [getSlot, ha, hb2, hd] using this
    · rw [ja d (by omega), jb d (by omega)]
  obtain ⟨_, _, _, _, _, _⟩ := a
  obtain ⟨_, _, _, _, _, _⟩ := b
  simp_all

theorem getSlot_setSlot {hp : HpVals} {s : Slot} {y : ℝ} (h : getSlot hp s = some y) (t : ℝ) (s' : Slot) :
    getSlot (setSlot hp s t) s' = if s' = s then some t else getSlot hp s' := by
  cases s with
  | theta d =>
    cases ht : hp.theta with
    | none => simp [getSlot, ht] at h
    | some th =>
      simp only [getSlot, ht] at h
      split at h
      · next hd =>
        cases s' with
        | theta d' =>
          simp only [getSlot, setSlot, ht, Option.map_some, setTheta, Slot.theta.injEq]
          by_cases e : d' = d
          · subst e; simp [hd]
          · simp [e]
        | _ => simp [getSlot, setSlot]
      · cases h
  | _ => cases s' <;> simp [getSlot, setSlot]

theorem decode_set {g : Gp} {lo : LogOpts} {ok : Bool} {info : HpInfo} (hi : setupHpIdx g lo ok = .ok info) {x : Arr1}
    (hn : x.n = info.nHp) {hp : HpVals} (hd : hpVec2Dataclass g info x = .ok hp) {p : ℕ} {s : Slot}
    (hps : (gpSlots g ok)[p]? = some s) (t : ℝ) :
    hpVec2Dataclass g info (setEntry x p t) = .ok (setSlot hp s (natural lo s t)) := by
  obtain ⟨hp1, h1, hb1, ⟨th1, ht1, hn1⟩, hs1, hno1⟩ := Props.C55_decode g lo ok hi x hn
  rw [hd] at h1; cases h1
  obtain ⟨hp2, h2, hb2, ⟨th2, ht2, hn2⟩, hs2, hno2⟩ := Props.C55_decode g lo ok hi (setEntry x p t) hn
  have hj1 := decode_junk hd
  have hj2 := decode_junk h2
  rw [h2]
  congr 1
  have hnd : (gpSlots g ok).Nodup := by
    obtain ⟨_, -, -, -, h, -⟩ := Props.C54_object_layout g lo ok
    exact h
  have hget := hs1 p s hps
  have htheta : ∃ ta, (setSlot hp s (natural lo s t)).theta = some ta ∧ ta.n = g.dim ∧ ∀ k, ta.n ≤ k → ta.get k = 0 := by
    cases s with
    | theta d =>
      have hdd := (mem_gpSlots (List.mem_of_getElem? hps)).1 d rfl
      refine ⟨setTheta th1 d _, by simp [setSlot, ht1]; rfl, hn1, ?_⟩
      intro k hk
      have hk' : th1.n ≤ k := hk
      simp only [setTheta]
      rw [Function.update_of_ne (by omega)]
      exact hj1 th1 ht1 k hk
    | _ => exact ⟨th1, ht1, hn1, hj1 th1 ht1⟩
  obtain ⟨ta, hta, htn, htj⟩ := htheta
  refine hpVals_ext hb2 (by cases s <;> exact hb1) ht2 hta (by rw [hn2, htn]) (hj2 th2 ht2) htj ?_
  intro s'
  rw [getSlot_setSlot hget]
  by_cases hmem : s' ∈ gpSlots g ok
  · obtain ⟨q, hq⟩ := List.mem_iff_getElem?.mp hmem
    rw [hs2 q s' hq]
    by_cases e : s' = s
    · subst e
      have hpq : p = q := by
        obtain ⟨hp', e1⟩ := List.getElem?_eq_some_iff.mp hps
        obtain ⟨hq', e2⟩ := List.getElem?_eq_some_iff.mp hq
        exact (List.Nodup.getElem_inj_iff hnd).mp (e1.trans e2.symm)
      subst hpq
      simp [setEntry]
    · have hpq : q ≠ p := by
        rintro rfl
        rw [hps] at hq; cases hq; exact e rfl
      rw [if_neg e, hs1 q s' hq]
      simp [setEntry, Function.update_of_ne hpq]
  · have e : s' ≠ s := fun e => hmem (e ▸ List.mem_of_getElem? hps)
    rw [if_neg e, hno1 s' hmem, hno2 s' hmem]

/-- Positive vectors decode to admissible hyperparameters. -/
theorem decode_adm {g : Gp} {lo : LogOpts} {ok : Bool} {info : HpInfo} (hi : setupHpIdx g lo ok = .ok info) {x : Arr1}
    (hn : x.n = info.nHp) (hker : g.kernel = .ratQuad → ok = true)
    (hpos : ∀ p s, (gpSlots g ok)[p]? = some s → slotLog lo s = false → 0 < x.get p) :
    ∃ hp, hpVec2Dataclass g info x = .ok hp ∧ HpAdm g hp ∧ (∀ s ∈ gpSlots g ok, ∃ y, getSlot hp s = some y ∧ 0 < y) := by
  obtain ⟨hp, h1, hb1, ⟨th, ht, hn1⟩, hs1, hno⟩ := Props.C55_decode g lo ok hi x hn
  have hall : ∀ s ∈ gpSlots g ok, ∃ y, getSlot hp s = some y ∧ 0 < y := by
    intro s hs
    obtain ⟨p, hps⟩ := List.mem_iff_getElem?.mp hs
    refine ⟨_, hs1 p s hps, ?_⟩
    unfold natural
    split_ifs with h
    · positivity
    · exact hpos p s hps (by simpa using h)
  have hmem : ∀ d < g.dim, Slot.theta d ∈ gpSlots g ok := by
    intro d hd
    simp [gpSlots, hpSlots, hd]
  refine ⟨hp, h1, ⟨⟨th, ht, hn1, fun d hd => ?_⟩, fun hr => ?_, fun hk => ?_, fun hk => ?_, fun hu hk => ?_, fun hu hk => ?_⟩, hall⟩
  · obtain ⟨y, hy, hy0⟩ := hall _ (hmem d hd)
    simp only [getSlot, ht, hn1, hd, if_true, Option.some.injEq] at hy
    rw [hy]; exact hy0
  · obtain ⟨y, hy, hy0⟩ := hall .kernel (by simp [gpSlots, hpSlots, hker hr, hr, kernelHasHp, hpKernelDefault])
    exact ⟨y, hy0, hy⟩
  · exact hno .varFval (fun h => by have := (mem_gpSlots h).2.2.2.1 rfl; rw [hk] at this; cases this)
  · obtain ⟨y, hy, hy0⟩ := hall .varFval (by simp [gpSlots, hpSlots, hk])
    exact ⟨y, hy, hy0.le⟩
  · exact hno .varFgrad (fun h => by have := ((mem_gpSlots h).2.2.2.2 rfl).2; rw [hk] at this; cases this)
  · obtain ⟨y, hy, hy0⟩ := hall .varFgrad (by simp [gpSlots, hpSlots, hk, hu])
    exact ⟨y, hy, hy0.le⟩

theorem natural_deriv (lo : LogOpts) (s : Slot) (x : ℝ) :
    HasDerivAt (natural lo s) (if slotLog lo s then (10 : ℝ) ^ x * Real.log 10 else 1) x := by
  unfold natural
  cases slotLog lo s with
  | true =>
    have h := Real.hasStrictDerivAt_const_rpow (a := (10 : ℝ)) (by norm_num) x
    simpa using h.hasDerivAt
  | false => simpa using hasDerivAt_id' x

theorem logFactor_eq {g : Gp} {lo : LogOpts} {ok : Bool} {info : HpInfo} (hi : setupHpIdx g lo ok = .ok info) {x : Arr1} {p : ℕ}
    {s : Slot} (hps : (gpSlots g ok)[p]? = some s) :
    logFactor info x p = if slotLog lo s then (10 : ℝ) ^ x.get p * Real.log 10 else 1 := by
  obtain ⟨info', h1, -, -, -, h5⟩ := Props.C54_object_layout g lo ok
  rw [hi] at h1; cases h1
  unfold logFactor
  rw [h5]
  simp [List.getD_eq_getElem?_getD, hps]

/-! ### Supported length scales -/

theorem KernSupp.thSupp {g : Gp} {th : Arr1} (h : KernSupp g th) : ThSupp g th := by
  refine ⟨h.base, fun hu => (h.grad hu).imp (fun ⟨h1, h2⟩ => ⟨h1, fun hm => ?_⟩) id⟩
  intro p hp q hq
  rcases h2 hm p hp q hq with h3 | h3
  · left
    unfold wdist2
    exact Finset.sum_eq_zero fun d hd => by rw [h3 d (Finset.mem_range.mp hd)]; simp
  · exact .inr h3.le

theorem strictSep_event {X Y : Arr2} {th : ℝ → Arr1} {t : ℝ} (hc : ∀ d, ContinuousAt (fun s => (th s).get d) t)
    (h : StrictSep X Y (th t)) : ∀ᶠ s in nhds t, StrictSep X Y (th s) := by
  have key : ∀ᶠ s in nhds t, ∀ p ∈ Finset.range X.r, ∀ q ∈ Finset.range Y.r, (∀ d < X.c, X.get p d = Y.get q d) ∨
      (10 : ℝ) ^ (-16 : ℤ) < Real.sqrt (wdist2 X.c (th s).get (X.get p) (Y.get q)) := by
    rw [Filter.eventually_all_finset]
    intro p hp
    rw [Filter.eventually_all_finset]
    intro q hq
    rcases h p (Finset.mem_range.mp hp) q (Finset.mem_range.mp hq) with h3 | h3
    · exact Filter.Eventually.of_forall fun s => .inl h3
    · have hcont : ContinuousAt (fun s => Real.sqrt (wdist2 X.c (th s).get (X.get p) (Y.get q))) t := by
        unfold wdist2
        exact (tendsto_finsetSum _ fun d _ => (hc d).mul continuousAt_const).sqrt
      filter_upwards [hcont.eventually_const_lt h3] with s hs
      exact .inr hs
  filter_upwards [key] with s hs p hp q hq
  exact hs p (Finset.mem_range.mpr hp) q (Finset.mem_range.mpr hq)

theorem kernSupp_event {g : Gp} {hp : HpVals} {s : Slot} {y : ℝ} (hy : getSlot hp s = some y)
    (h : ∀ th, hp.theta = some th → KernSupp g th) :
    ∀ᶠ t in nhds y, ∀ th, (setSlot hp s t).theta = some th → KernSupp g th := by
  cases s with
  | theta d =>
    cases ht : hp.theta with
    | none => simp [getSlot, ht] at hy
    | some th =>
      have hk := h th ht
      have hyd : th.get d = y := by
        simp only [getSlot, ht] at hy
        split at hy
        · cases hy; rfl
        · cases hy
      have hcont : ∀ e, ContinuousAt (fun t => (setTheta th d t).get e) y := by
        intro e
        by_cases he : e = d
        · subst he; simp only [setTheta, Function.update_self]; exact continuousAt_id
        · simp only [setTheta, Function.update_of_ne he]; exact continuousAt_const
      have hself : setTheta th d y = th := by
        rw [← hyd]; simp [setTheta]
      simp only [setSlot, ht, Option.map_some, Option.some.injEq, forall_eq']
      by_cases hm : g.kernel = .matern ∧ g.useGrad = true
      · have hss : StrictSep g.x g.x th := by
          rcases hk.grad hm.2 with h1 | h1
          · exact h1.2 hm.1
          · rw [hm.1] at h1; cases h1
        filter_upwards [strictSep_event (X := g.x) (Y := g.x) hcont (by rw [hself]; exact hss)] with t hts
        exact ⟨hk.base, fun hu => (hk.grad hu).imp (fun h1 => ⟨h1.1, fun _ => hts⟩) id⟩
      · refine Filter.Eventually.of_forall fun t => ⟨hk.base, fun hu => (hk.grad hu).imp (fun h1 => ⟨h1.1, fun hm' => (hm ⟨hm', hu⟩).elim⟩) id⟩
  | _ => exact Filter.Eventually.of_forall fun t th ht => h th ht

/-! ### Data -/

theorem lkdData_ok {g : Gp} (hg : GpOk g) (hne : 0 < g.nEval) :
    ∃ y V, lkdData g = .ok (y, V) ∧ FullRank V ∧ DataSpec g y ∧ ∀ (q : Fin g.nData) (j : Fin nBetaCoeff), V q j = if (q : ℕ) < g.nEval then 1 else 0 := by
  obtain ⟨hd1, hd2⟩ := dataVec_ok hg
  obtain ⟨V, hV, hc, hr, hv, hgr⟩ := calcAugVand_ok (X := g.x) hg.x_c (nb := nBetaCoeff) (.inl rfl) g.useGrad (m := g.bvec)
    (by rw [hg.x_r]; exact hg.mask)
  have hr' : V.r = g.nData := by
    rw [hr, hg.nData, hg.nGrad, hg.x_r]
    split_ifs <;> simp
  have hcol : ∀ (q : Fin g.nData) (j : Fin nBetaCoeff), toMat g.nData nBetaCoeff V q j = if (q : ℕ) < g.nEval then 1 else 0 := by
    intro q j
    have hj : (j : ℕ) = 0 := by have := j.2; unfold nBetaCoeff at this; omega
    show V.get q j = _
    rw [hj]
    split_ifs with hq
    · rw [hv q (by rw [hg.x_r]; exact hq) 0 (by norm_num [nBetaCoeff])]
      simp [polyBasis]
    · have hq2 := q.2
      have hN : g.nData = g.nEval + g.nGrad * g.dim := hg.nData
      cases hu : g.useGrad with
      | false =>
        have : g.nGrad = 0 := by rw [hg.nGrad]; simp [hu]
        rw [this] at hN; omega
      | true =>
        have hng : g.nGrad = gN g.bvec g.nEval := by rw [hg.nGrad]; simp [hu]
        have hpos : 0 < g.nGrad := by
          rcases Nat.eq_zero_or_pos g.nGrad with h | h
          · rw [h] at hN; omega
          · exact h
        set r := (q : ℕ) - g.nEval with hrr
        have hr1 : r < g.nGrad * g.dim := by omega
        have hi : r / g.nGrad < g.dim := Nat.div_lt_of_lt_mul hr1
        have ha : r % g.nGrad < g.nGrad := Nat.mod_lt _ hpos
        have := hgr hu (r / g.nGrad) hi (r % g.nGrad) (by rw [hg.x_r, ← hng]; exact ha) 0 (by norm_num [nBetaCoeff])
        rw [hg.x_r, ← hng] at this
        have e : g.nEval + r / g.nGrad * g.nGrad + r % g.nGrad = (q : ℕ) := by
          have := Nat.div_add_mod' r g.nGrad
          omega
        rw [e] at this
        rw [this]; simp
  refine ⟨_, _, by unfold lkdData; rw [hV]; simp only [ok_bind]; rw [if_pos ⟨hd1, hr', hc⟩]; rfl, ?_, hd2, hcol⟩
  intro c hc0
  have hnd : 0 < g.nData := by rw [hg.nData]; omega
  have h0 := congrFun hc0 ⟨0, hnd⟩
  have h1 : ∀ i j : Fin nBetaCoeff, i = j := fun i j =>
    Fin.ext (by have := i.2; have := j.2; unfold nBetaCoeff at *; omega)
  funext i
  have h2 : (toMat g.nData nBetaCoeff V *ᵥ c) ⟨0, hnd⟩ = c i := by
    rw [mulVec, dotProduct, Finset.sum_eq_single i (fun j _ hj => (hj (h1 j i)).elim) (fun h => (h (Finset.mem_univ i)).elim), hcol]
    simp [hne]
  rw [h2] at h0
  exact h0

end GP
