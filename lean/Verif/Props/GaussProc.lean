import Verif.Proofs.GpState
import Verif.Props.EvalScl
import Verif.Props.Cond
import Verif.Props.Common

/-! Properties of `set_data`, `set_wellcond_mtd`, `set_custom_hp` and the initial hyperparameters: C62, C63, C65, C67. -/

open Np GP Spec

noncomputable section

namespace Props

/-! ### The arguments -/

theorem nTrue_count (b : List Bool) : nTrue b = b.count true := by
  induction b using List.reverseRecOn with
  | nil => rfl
  | append_singleton l a ih =>
    rw [nTrue_append, ih, List.count_append]
    congr 1
    cases a <;> rfl

theorem full_of_grads {d : DataIn} (h : numGrads d = d.fval.size) : fullMask d.bvec d.fval.size := by
  unfold fullMask gN
  unfold numGrads at h
  split at h <;> rename_i hb
  · rw [hb]
  · rw [hb]; dsimp only; rw [nTrue_count]; exact h

theorem knownStd_some {s : Option (Nd Fl)} {S : Nd Fl} : knownStd s = some S ↔ NoiseKnown s S := by
  unfold knownStd NoiseKnown
  cases s with
  | none => simp
  | some T =>
    by_cases h : ∃ k < T.size, T.flat k = none
    · have : T.hasNaN = true := by simp only [Nd.hasNaN, decide_eq_true_eq]; exact h
      simp only [this, if_true]
      constructor
      · intro h2; cases h2
      · rintro ⟨h2, h3⟩
        cases h2
        obtain ⟨k, hk, hk2⟩ := h
        exact absurd hk2 (h3 k hk)
    · have : T.hasNaN = false := by simp only [Nd.hasNaN, decide_eq_false_iff_not]; exact h
      simp only [this, Bool.false_eq_true, if_false]
      push Not at h
      constructor
      · intro h2; cases h2; exact ⟨rfl, h⟩
      · rintro ⟨h2, -⟩; exact h2

theorem knownStd_none {s : Option (Nd Fl)} : knownStd s = none ↔ NoiseUnknown s := by
  unfold NoiseUnknown
  constructor
  · intro h S hS
    by_contra hc
    push Not at hc
    have := knownStd_some.mpr ⟨hS, hc⟩
    rw [h] at this
    cases this
  · intro h
    cases hk : knownStd s with
    | none => rfl
    | some S =>
      obtain ⟨h1, h2⟩ := knownStd_some.mp hk
      obtain ⟨k, hk1, hk2⟩ := h S h1
      exact absurd hk2 (h2 k hk1)

theorem nums_flat {S : Nd Fl} {k : ℕ} {v : ℝ} (h : S.flat k = some v) : S.nums.flat k = v := by
  show (S.get (unravel S.shape k)).getD 0 = v
  have : S.get (unravel S.shape k) = some v := h
  rw [this]; rfl

theorem isZero_iff {s : Option (Nd Fl)} {b : Bool} : isZeroStd (knownStd s) = .ok b ↔
    ∃ S, NoiseKnown s S ∧ 0 < S.size ∧ (b = true ↔ NoiseZero s) := by
  cases hk : knownStd s with
  | none =>
    constructor
    · intro h; cases h
    · rintro ⟨S, h, -⟩; rw [knownStd_some.mpr h] at hk; cases hk
  | some S =>
    have hS := knownStd_some.mp hk
    have huniq : ∀ T, NoiseKnown s T → T = S := by
      rintro T ⟨h1, -⟩
      rw [hS.1] at h1
      cases h1; rfl
    have hval : ∀ k < S.size, ∃ v, S.flat k = some v := fun k hk => by
      cases h : S.flat k with
      | none => exact absurd h (hS.2 k hk)
      | some v => exact ⟨v, rfl⟩
    by_cases h0 : S.size = 0
    · constructor
      · intro h
        have : (ndMax S.nums) = .error .shape := by
          unfold ndMax
          have : S.nums.size = 0 := h0
          rw [this]; rfl
        simp only [isZeroStd, this, error_bind] at h
        cases h
      · rintro ⟨T, hT, hT2, -⟩
        rw [huniq T hT] at hT2; omega
    · have hne : (List.range S.nums.size).map S.nums.flat ≠ [] := by
        have h1 : S.nums.size = S.size := rfl
        simp [h1, h0]
      obtain ⟨v, hv, hv1, hv2⟩ := listMax_spec hne
      have hm : ndMax S.nums = .ok v := by unfold ndMax; rw [hv]
      simp only [isZeroStd, hm, ok_bind, pure_eq_ok]
      have hz : v < zeroStd ↔ NoiseZero s := by
        constructor
        · intro hlt
          refine ⟨S, hS, fun k hk => ?_⟩
          obtain ⟨w, hw⟩ := hval k hk
          refine ⟨w, hw, lt_of_le_of_lt ?_ hlt⟩
          have := hv2 (S.nums.flat k) (List.mem_map.mpr ⟨k, List.mem_range.mpr hk, rfl⟩)
          rwa [nums_flat hw] at this
        · rintro ⟨T, hT, hT2⟩
          rw [huniq T hT] at hT2
          obtain ⟨k, hk, hk2⟩ := List.mem_map.mp hv1
          obtain ⟨w, hw, hw2⟩ := hT2 k (List.mem_range.mp hk)
          rw [nums_flat hw] at hk2
          rw [← hk2]; exact hw2
      constructor
      · intro h
        cases h
        refine ⟨S, hS, by omega, ?_⟩
        rw [decide_eq_true_eq]; exact hz
      · rintro ⟨T, -, -, hb⟩
        congr 1
        rw [Bool.eq_iff_iff, hb, decide_eq_true_eq]; exact hz

theorem countGrads_iff {u : Bool} {d : DataIn} {ng : ℕ} : countGrads u d = .ok ng ↔
    (∀ b, d.bvec = some b → u = true ∧ b.length = d.fval.size ∧ ∃ G r t, d.grad = some G ∧ G.shape = r :: t ∧ r = numGrads d) ∧
      ng = if u then numGrads d else 0 := by
  unfold countGrads numGrads
  cases u with
  | false =>
    simp only [Bool.false_eq_true, if_false]
    cases hb : d.bvec with
    | none => rw [pyAssert_true (by rfl)]; simp [eq_comm]
    | some b => rw [pyAssert_false (by simp)]; simp
  | true =>
    simp only [if_true]
    cases hb : d.bvec with
    | none => simp [eq_comm]
    | some b =>
      dsimp only
      by_cases hl : b.length = d.fval.size
      · rw [pyAssert_true hl, ok_bind]
        cases hg : d.grad with
        | none => simp
        | some G =>
          dsimp only
          cases hs : G.shape with
          | nil => simp [hs]
          | cons r t =>
            dsimp only
            by_cases hr : r = nTrue b
            · rw [pyAssert_true hr, ok_bind, pure_eq_ok, nTrue_count]
              have hr' : r = b.count true := by rw [hr, nTrue_count]
              constructor
              · intro h; cases h
                exact ⟨fun b' h => by cases h; exact ⟨trivial, hl, G, r, t, rfl, hs, hr'⟩, rfl⟩
              · rintro ⟨-, rfl⟩; rfl
            · rw [pyAssert_false hr]
              constructor
              · intro h; cases h
              · rintro ⟨h, -⟩
                obtain ⟨-, -, G', r', t', h1, h2, h3⟩ := h b rfl
                cases h1
                rw [hs] at h2; cases h2
                rw [nTrue_count] at hr
                exact absurd h3 hr
      · rw [pyAssert_false hl]
        constructor
        · intro h; cases h
        · rintro ⟨h, -⟩; exact absurd (h b rfl).2.1 hl

/-! ### Scaling inside `set_data` -/

theorem setObjData_inv {o : ObjData} {u : Bool} {m : ObjMtd} {s s' : Scl} (h : setObjData o u m s = (s', .ok ())) :
    s'.xInit = s.xInit ∧ s'.obj = some o ∧ s.xInit.r = o.val.n := by
  unfold setObjData at h
  split at h
  · simp at h
  split at h
  · simp at h
  rename_i h2
  dsimp only at h
  split at h
  · unfold setObjScaling at h
    split at h
    · unfold setSclObj at h
      obtain ⟨a, -, rfl⟩ := compute_ok h
      exact ⟨rfl, rfl, not_not.mp h2⟩
    · simp at h
  · simp at h

theorem scaleCall_on {d : DataIn} {o o' : GpObj} (hu : o.useScl = true) (h : scaleCall d o = (o', .ok ())) :
    ∃ v s sg s0 m r, o' = { o with vminReq := v, scl := some s } ∧ newScl d.x.mat none true m (some r) = (s0, .ok ()) ∧ stdGradScl s0 d = .ok sg ∧
      scaleArgs o d.fval.size = .ok (m, r) ∧ v = (if o.mtd = .rescaleOrigin then some r else o.vminReq) ∧
      setObjData ⟨d.fval.ravel, (knownStd d.stdFval).map (fun s => s.nums.ravel), d.grad.map (fun G => G.mat), sg⟩ true .dfltMax s0 =
        (s, .ok ()) := by
  unfold scaleCall at h
  rw [if_pos hu] at h
  cases ha : scaleArgs o d.fval.size with
  | error e => rw [ha] at h; cases h
  | ok a =>
    rw [ha] at h
    dsimp only at h
    have key : ∀ q : GpObj, (∃ v, q = { o with vminReq := v } ∧ v = (if o.mtd = .rescaleOrigin then some a.2 else o.vminReq)) →
        sclCall d a.1 a.2 q = (o', .ok ()) →
        ∃ v s sg s0 m r, o' = { o with vminReq := v, scl := some s } ∧ newScl d.x.mat none true m (some r) = (s0, .ok ()) ∧ stdGradScl s0 d = .ok sg ∧
        (Except.ok a : Py (XMtd × ℝ)) = .ok (m, r) ∧ v = (if o.mtd = .rescaleOrigin then some r else o.vminReq) ∧
        setObjData ⟨d.fval.ravel, (knownStd d.stdFval).map (fun s => s.nums.ravel), d.grad.map (fun G => G.mat), sg⟩ true .dfltMax s0 =
          (s, .ok ()) := by
      rintro q ⟨v, rfl, hv⟩ h
      unfold sclCall at h
      rcases hn : newScl d.x.mat none true a.1 (some a.2) with ⟨s0, e | ⟨⟩⟩
      · rw [hn] at h; cases h
      · rw [hn] at h
        dsimp only at h
        cases hsg : stdGradScl s0 d with
        | error e => rw [hsg] at h; cases h
        | ok sg =>
          rw [hsg] at h
          dsimp only at h
          rcases hs : setObjData ⟨d.fval.ravel, (knownStd d.stdFval).map (fun s => s.nums.ravel), d.grad.map (fun G => G.mat), sg⟩ true .dfltMax s0
            with ⟨s, r⟩
          rw [hs] at h
          dsimp only at h
          obtain ⟨rfl, rfl⟩ := pair_ok.mp h
          exact ⟨v, s, sg, s0, a.1, a.2, rfl, hn, hsg, rfl, hv, hs⟩
    refine key _ ?_ h
    split
    · exact ⟨_, rfl, rfl⟩
    · exact ⟨o.vminReq, rfl, rfl⟩

theorem scaleCall_off {d : DataIn} {o o' : GpObj} (hu : o.useScl = false) (h : scaleCall d o = (o', .ok ())) :
    ∃ R, calcRtensor d.x.mat d.x.mat = .ok R ∧ o' = { o with rInit := some R } := by
  unfold scaleCall at h
  rw [hu] at h
  simp only [Bool.false_eq_true, if_false] at h
  exact gcompute_iff.mp h

theorem stdGradScl_ok {s : Scl} {d : DataIn} {sg : Option Arr2} (h : stdGradScl s d = .ok sg) :
    sg = (knownStd d.stdGrad).map fun S => S.nums.mat := by
  unfold stdGradScl at h
  unfold knownStd
  cases hd : d.stdGrad with
  | none => rw [hd] at h; cases h; rfl
  | some S =>
    rw [hd] at h
    dsimp only at h ⊢
    cases hn : S.hasNaN with
    | true =>
      simp only [hn, if_true] at h ⊢
      split at h
      · cases h; rfl
      · cases h
    | false =>
      simp only [hn, Bool.false_eq_true, if_false] at h ⊢
      cases h; rfl

theorem flat_pair {S : Nd Fl} {r c : ℕ} (hs : S.shape = [r, c]) (hk : ∀ k < S.size, S.flat k ≠ none) {i j : ℕ} (hi : i < r) (hj : j < c) :
    S.get [i, j] = some (S.nums.mat.get i j) := by
  have hsz : S.size = r * c := by unfold Nd.size; rw [hs]; simp
  have hlt : i * c + j < S.size := by
    rw [hsz]
    calc i * c + j < i * c + c := by omega
      _ = (i + 1) * c := by ring
      _ ≤ r * c := Nat.mul_le_mul_right _ hi
  have hu : unravel S.shape (i * c + j) = [i, j] := by
    rw [hs]
    have h1 : (i * c + j) / c = i := by
      rw [mul_comm, Nat.mul_add_div (by omega), Nat.div_eq_of_lt hj, add_zero]
    have h2 : (i * c + j) % c = j := by
      rw [mul_comm, Nat.mul_add_mod, Nat.mod_eq_of_lt hj]
    simp [unravel, h1, h2]
  have h := hk _ hlt
  have he : S.flat (i * c + j) = S.get [i, j] := by unfold Nd.flat; rw [hu]
  rw [he] at h
  show S.get [i, j] = some ((S.get [i, j]).getD 0)
  cases hg : S.get [i, j] with
  | none => exact absurd hg h
  | some v => rfl

theorem mat_shape {α : Type} {S : Nd α} (h : S.shape.length = 2) : S.shape = [S.shape.getD 0 0, S.shape.getD 1 0] := by
  obtain ⟨a, b, hab⟩ := List.length_eq_two.mp h
  rw [hab]; rfl

theorem noiseZero_known {s : Option (Nd Fl)} (h : NoiseZero s) : ∃ S, knownStd s = some S := by
  obtain ⟨S, h1, -⟩ := h
  exact ⟨S, knownStd_some.mpr h1⟩

/-- A successful `set_data` stores the arguments and classifies the noise, and its arguments fit together. -/
theorem setData_loaded {d : DataIn} {o o' : GpObj} (h : setData d o = (o', .ok ())) :
    Loaded d o o' ∧ Consistent o.st.dim o.st.useGrad d ∧ (o.useScl = true → d.x.shape.head? = some d.fval.size) := by
  obtain ⟨ng, fz, gz, b, e, k, vm, inf, hng, hx, hsf, ⟨hg1, hg2⟩, hz1, hz2, hz3, hz4, hz5, hnug, hk, hvm, hinf, hsc⟩ := setData_iff.mp h
  obtain ⟨hmask, hngv⟩ := countGrads_iff.mp hng
  have hx2 : d.x.shape.length = 2 := hx
  have hcons : Consistent o.st.dim o.st.useGrad d := by
    refine ⟨hx2, fun b hb => ⟨(hmask b hb).1, (hmask b hb).2.1⟩, hg1, fun G hG => ?_, fun S hS => (hsf S (knownStd_some.mpr hS)).symm,
      fun hu S hS => ?_⟩
    · have hu : o.st.useGrad = true := by rw [← hg1, hG]; rfl
      rw [(hg2 G hG).1, hngv, hu]; rfl
    · obtain ⟨G, hG⟩ := Option.isSome_iff_exists.mp (hg1.trans hu)
      rw [← (hg2 G hG).2 S (knownStd_some.mpr hS), (hg2 G hG).1, hngv, hu]; rfl
  have hfz : fz = true ↔ NoiseZero d.stdFval := by
    cases hkf : knownStd d.stdFval with
    | none =>
      rw [hz2 (by rw [hkf]; rfl)]
      constructor
      · intro h; cases h
      · intro h; obtain ⟨S, hS⟩ := noiseZero_known h; rw [hkf] at hS; cases hS
    | some S =>
      obtain ⟨-, -, -, hb⟩ := isZero_iff.mp (hz1 (by rw [hkf]; rfl))
      exact hb
  have hgz : gz = true ↔ (o.st.useGrad = false ∨ NoiseZero d.stdGrad) := by
    cases hu : o.st.useGrad with
    | false => simp [hz5 hu]
    | true =>
      simp only [Bool.true_eq_false, false_or]
      cases hkf : knownStd d.stdGrad with
      | none =>
        rw [hz4 hu (by rw [hkf]; rfl)]
        constructor
        · intro h; cases h
        · intro h; obtain ⟨S, hS⟩ := noiseZero_known h; rw [hkf] at hS; cases hS
      | some S =>
        obtain ⟨-, -, -, hb⟩ := isZero_iff.mp (hz3 hu (by rw [hkf]; rfl))
        exact hb
  -- the final object differs from `filled` in the scaling attributes only
  have hfin : ∃ v s R, o' = { filled d o ng fz gz b e k vm inf with vminReq := v, scl := s, rInit := R } ∧
      (o.useScl = false → ∃ R', calcRtensor d.x.mat d.x.mat = .ok R' ∧ R = some R') ∧
      (o.useScl = true → ∃ s', s = some s' ∧ SclReach s' ∧ s'.xInit = d.x.mat ∧ d.x.mat.r = d.fval.size ∧
        s'.obj = some ⟨d.fval.ravel, (knownStd d.stdFval).map (fun s => s.nums.ravel), d.grad.map (fun G => G.mat),
          (knownStd d.stdGrad).map fun S => S.nums.mat⟩) := by
    cases hu : o.useScl with
    | false =>
      obtain ⟨R, hR, rfl⟩ := scaleCall_off (o := filled d o ng fz gz b e k vm inf) hu hsc
      exact ⟨o.vminReq, o.scl, some R, rfl, fun _ => ⟨R, hR, rfl⟩, fun h => by cases h⟩
    | true =>
      obtain ⟨v, s, sg, s0, m, r, rfl, h1, h2, -, -, h3⟩ := scaleCall_on (o := filled d o ng fz gz b e k vm inf) hu hsc
      have h1x := (newScl_ok h1).2.2.1
      obtain ⟨h4, h5, h6⟩ := setObjData_inv h3
      rw [stdGradScl_ok h2] at h5
      refine ⟨v, some s, o.rInit, rfl, (fun h => by cases h), fun _ => ⟨s, rfl, ?_, h4.trans h1x, ?_, h5⟩⟩
      · exact .call (.objData _ _ _) (.new h1) h3
      · rw [← h1x]; exact h6
  obtain ⟨v, s, R, rfl, hoff, hon⟩ := hfin
  have hkg : o.st.useGrad = false → d.grad.isSome = false := fun h => hg1.trans h
  have hstf : (filled d o ng fz gz b e k vm inf).stdFvalIn = (knownStd d.stdFval).map fun s => s.nums.ravel := by
    show (if (knownStd d.stdFval).isSome then (knownStd d.stdFval).map (fun s => s.nums.ravel) else none) = _
    cases knownStd d.stdFval <;> rfl
  have hstg : (filled d o ng fz gz b e k vm inf).stdGradIn =
      if d.grad.isSome then (knownStd d.stdGrad).map (fun s => s.nums.mat) else none := by
    show (if d.grad.isSome && (knownStd d.stdGrad).isSome then (knownStd d.stdGrad).map (fun s => s.nums.mat) else none) = _
    cases d.grad <;> cases knownStd d.stdGrad <;> rfl
  refine ⟨?_, hcons, ?_⟩
  · exact {
      st := rfl
      mtd := rfl
      etaConst := rfl
      useCstr := rfl
      useScl := rfl
      nEval := rfl
      nGrad := hngv
      nData := rfl
      x := ⟨d.x.mat, rfl, mat_shape hx2, fun _ _ => rfl⟩
      fval := ⟨d.fval.ravel, rfl, rfl, fun _ => rfl⟩
      grad := by
        cases hG : d.grad with
        | none => exact .inl ⟨rfl, by show d.grad.map _ = none; rw [hG]; rfl⟩
        | some G => exact .inr ⟨G, G.mat, rfl, by show d.grad.map _ = _; rw [hG]; rfl, mat_shape (by rw [(hg2 G hG).1]; rfl), fun _ _ => rfl⟩
      mask := rfl
      stdFval := by
        cases hkf : knownStd d.stdFval with
        | none => exact .inl ⟨knownStd_none.mp hkf, by show (knownStd d.stdFval).isSome = false; rw [hkf]; rfl, hstf.trans (by rw [hkf]; rfl)⟩
        | some S =>
          have hS := knownStd_some.mp hkf
          refine .inr ⟨S, S.nums.ravel, hS, by show (knownStd d.stdFval).isSome = true; rw [hkf]; rfl, hstf.trans (by rw [hkf]; rfl), rfl, fun k hk => ?_⟩
          cases hv : S.flat k with
          | none => exact absurd hv (hS.2 k hk)
          | some w => exact congrArg some (nums_flat hv).symm
      stdGrad := by
        cases hu : o.st.useGrad with
        | false =>
          refine .inl ⟨.inl rfl, ?_, hstg.trans ?_⟩
          · show (d.grad.isSome && _) = false
            rw [hkg hu]; rfl
          · rw [hkg hu]; rfl
        | true =>
          have hgs : d.grad.isSome = true := hg1.trans hu
          cases hkf : knownStd d.stdGrad with
          | none =>
            refine .inl ⟨.inr (knownStd_none.mp hkf), ?_, hstg.trans ?_⟩
            · show (d.grad.isSome && (knownStd d.stdGrad).isSome) = false
              rw [hkf, hgs]; rfl
            · rw [hkf, hgs]; rfl
          | some S =>
            have hS := knownStd_some.mp hkf
            have hsh := hcons.stdGrad hu S hS
            have hsh2 : S.shape = [S.nums.mat.r, S.nums.mat.c] := mat_shape (by rw [hsh]; rfl)
            refine .inr ⟨S, S.nums.mat, rfl, hS, ?_, hstg.trans ?_, hsh2, fun i hi j hj => flat_pair hsh2 hS.2 hi hj⟩
            · show (d.grad.isSome && (knownStd d.stdGrad).isSome) = true
              rw [hkf, hgs]; rfl
            · rw [hkf, hgs]; rfl
      fvalZero := hfz
      fgradZero := hgz
      noisy := by
        show (!(fz && gz)) = false ↔ _
        rw [← hfz, ← hgz]
        cases fz <;> cases gz <;> simp
      optFval := by
        show (!(knownStd d.stdFval).isSome) = true ↔ _
        rw [← knownStd_none]
        cases knownStd d.stdFval <;> simp
      optFgrad := by
        show (o.st.useGrad && !(d.grad.isSome && (knownStd d.stdGrad).isSome)) = true ↔ _
        rw [← knownStd_none]
        cases hu : o.st.useGrad with
        | false => simp
        | true =>
          rw [show d.grad.isSome = true from hg1.trans hu]
          cases knownStd d.stdGrad <;> simp
      eta := hnug
      etaK := by
        cases hu : o.st.useGrad with
        | false => rw [hu] at hk; exact hk
        | true => rw [hu] at hk; exact hk
      rtensor := fun hu => by
        obtain ⟨R', h1, rfl⟩ := hoff hu
        exact ⟨d.x.mat, R', rfl, h1, rfl⟩
      scl := fun hu => by
        obtain ⟨s', rfl, h1, h2, -, h3⟩ := hon hu
        refine ⟨s', rfl, h1, by rw [h2]; rfl, _, h3, rfl, rfl, hstf.symm, fun hug => ?_⟩
        show _ = (filled d o ng fz gz b e k vm inf).stdGradIn
        rw [hstg]
        rw [show d.grad.isSome = true from hg1.trans hug]; rfl }
  · intro hu
    obtain ⟨s', -, -, -, h1, -⟩ := hon hu
    rw [mat_shape hx2]
    exact congrArg some h1

/-! ### What never changes -/

/-- The configuration of the object. -/
def cfg (o : GpObj) : GpStatic × WcMtd × Bool × Bool × Bool := (o.st, o.mtd, o.etaConst, o.useCstr, o.useScl)

theorem frame_then {a b : GCall} (ha : ∀ s, cfg (a s).1 = cfg s) (hb : ∀ s, cfg (b s).1 = cfg s) : ∀ s, cfg (a.andThen b s).1 = cfg s := by
  intro s
  unfold GCall.andThen
  have h1 := ha s
  rcases hq : a s with ⟨t, e | ⟨⟩⟩
  · rw [hq] at h1; exact h1
  · rw [hq] at h1; exact (hb t).trans h1

theorem frame_gset {f : GpObj → GpObj} (hf : ∀ s, cfg (f s) = cfg s) : ∀ s, cfg (gset f s).1 = cfg s := hf

theorem frame_gcompute {α : Type} {f : GpObj → Py α} {put : GpObj → α → GpObj} (hf : ∀ s a, cfg (put s a) = cfg s) :
    ∀ s, cfg (gcompute f put s).1 = cfg s := by
  intro s
  unfold gcompute
  cases f s with
  | error e => rfl
  | ok a => exact hf s a

theorem sclCall_frame (d : DataIn) (m : XMtd) (r : ℝ) (o : GpObj) : cfg (sclCall d m r o).1 = cfg o := by
  unfold sclCall
  split
  · rfl
  · split
    · rfl
    · rfl

theorem setData_frame (d : DataIn) (o : GpObj) : cfg (setData d o).1 = cfg o := by
  unfold setData
  cases hc : countGrads o.st.useGrad d with
  | error e => rfl
  | ok ng =>
    refine frame_then ?_ (frame_then ?_ (frame_then ?_ (frame_then ?_ (frame_then ?_ (frame_then ?_ (frame_then ?_ (frame_then ?_ (frame_then ?_
      (frame_then ?_ (frame_then ?_ ?_)))))))))) o
    · exact frame_gset fun _ => rfl
    · exact frame_gcompute fun _ _ => rfl
    · intro s; unfold checkStdFval; split <;> rfl
    · intro s; unfold checkGrad; split
      · split <;> rfl
      · split
        · dsimp only; split
          · split <;> rfl
          · rfl
        · rfl
    · exact frame_gset fun _ => rfl
    · intro s; unfold classifyFval; split
      · dsimp only; split <;> rfl
      · rfl
    · intro s; unfold classifyFgrad; split
      · split
        · dsimp only; split <;> rfl
        · rfl
      · rfl
    · exact frame_gset fun _ => rfl
    · exact frame_gcompute fun _ _ => rfl
    · exact frame_gcompute fun _ _ => rfl
    · exact frame_gcompute fun _ _ => rfl
    · intro s
      unfold scaleCall
      split
      · split
        · rfl
        · rw [sclCall_frame]; split <;> rfl
      · revert s; exact fun s _ => frame_gcompute (put := fun o R => { o with rInit := some R }) (fun _ _ => rfl) s

/-- The configuration is coherent. -/
structure CfgOk (st : GpStatic) (o : GpObj) : Prop where
  eq : o.st = st
  base : st.useGrad = false → o.mtd = .base
  cstr : o.useCstr = (o.mtd != .precon)
  scl : o.useScl = (o.mtd.rescales || o.mtd.dfltV)

theorem apply_cfgOk {st : GpStatic} {o : GpObj} (h : o.st = st) (m : WcMtd) : CfgOk st (applyWellcond m o) := by
  subst h
  exact ⟨rfl, fun h => by simp [applyWellcond, h], rfl, rfl⟩

theorem reach_cfgOk {st : GpStatic} {o : GpObj} (h : GpReach st o) : CfgOk st o := by
  induction h with
  | @new m o h =>
    unfold newGp setWellcond at h
    cases hm : m.bind WcMtd.parse with
    | none => rw [hm] at h; cases h
    | some w => rw [hm] at h; cases h; exact apply_cfgOk (o := { st := st, mtd := .base, etaConst := true, useCstr := true, useScl := false }) rfl w
  | @wellcond o m _ ih =>
    unfold setWellcond
    cases hm : m.bind WcMtd.parse with
    | none => exact ih
    | some w => exact apply_cfgOk ih.eq w
  | @data o d _ ih =>
    have h := setData_frame d o
    simp only [cfg, Prod.mk.injEq] at h
    obtain ⟨h1, h2, h3, h4, h5⟩ := h
    exact ⟨h1.trans ih.eq, fun hu => h2.trans (ih.base hu), by rw [h4, h2]; exact ih.cstr, by rw [h5, h2]; exact ih.scl⟩

/-! ### The object seen by the rest of the code -/

theorem gN_numGrads (d : DataIn) : gN d.bvec d.fval.size = numGrads d := by
  unfold gN numGrads
  cases d.bvec with
  | none => rfl
  | some b => exact nTrue_count b

/-- After a successful `set_data` with points of the right shape the object is well formed in the original coordinates. -/
theorem loaded_gpOk {d : DataIn} {o o' : GpObj} (hL : Loaded d o o') (hC : Consistent o.st.dim o.st.useGrad d)
    (hX : PointsFit o.st.dim d) :
    ∃ g, o'.view0 = .ok g ∧ GpOk g ∧ g.dim = o.st.dim ∧ g.useGrad = o.st.useGrad ∧ g.kernel = o.st.kernel ∧ g.nEval = d.fval.size ∧
      some g.x = o'.xIn ∧ some g.fval = o'.fvalIn ∧ g.stdFval = o'.stdFvalIn ∧ g.grad = o'.gradIn ∧ g.stdGrad = o'.stdGradIn ∧
      g.knownFval = o'.knownFval ∧ g.knownFgrad = o'.knownFgrad ∧ g.noisy = o'.noisy ∧ g.bvec = d.bvec ∧ g.o = o'.condOpts := by
  obtain ⟨X, hX1, hX2, -⟩ := hL.x
  obtain ⟨f, hf1, hf2, -⟩ := hL.fval
  have hsh : X.r = d.fval.size ∧ X.c = o.st.dim := by
    have h := hX
    unfold PointsFit at h
    rw [hX2] at h
    simpa using h
  refine ⟨o'.gp X f, by unfold GpObj.view0; rw [hX1, hf1]; rfl, ?_, congrArg GpStatic.dim hL.st, congrArg GpStatic.useGrad hL.st,
    congrArg GpStatic.kernel hL.st, hL.nEval, hX1.symm, hf1.symm, rfl, rfl, rfl,
    rfl, rfl, rfl, hL.mask, rfl⟩
  have hu' : (o'.gp X f).useGrad = false → o.st.useGrad = false := fun h => (congrArg GpStatic.useGrad hL.st).symm.trans h
  have hu1 : (o'.gp X f).useGrad = true → o.st.useGrad = true := fun h => (congrArg GpStatic.useGrad hL.st).symm.trans h
  have hcf : o'.knownFval = true → ∃ s, o'.stdFvalIn = some s ∧ s.n = o'.nEval := by
    intro hk
    rcases hL.stdFval with ⟨-, h, -⟩ | ⟨S, s, h1, -, h3, h4, -⟩
    · rw [h] at hk; cases hk
    · exact ⟨s, h3, by rw [h4, hL.nEval]; exact hC.stdFval S h1⟩
  have hcg : o'.knownFgrad = true → ∃ s, o'.stdGradIn = some s ∧ s.r = o'.nGrad ∧ s.c = o.st.dim := by
    intro hk
    rcases hL.stdGrad with ⟨-, h, -⟩ | ⟨S, s, hu, h1, -, h3, h4, -⟩
    · rw [h] at hk; cases hk
    · have := hC.stdGrad hu S h1
      rw [h4] at this
      refine ⟨s, h3, ?_⟩
      rw [hL.nGrad, hu]
      simpa using this
  exact {
    x_r := hsh.1.trans hL.nEval.symm
    x_c := by show X.c = o'.st.dim; rw [hL.st]; exact hsh.2
    fval_n := hf2.trans hL.nEval.symm
    mask := fun l hl => by
      exact (hC.mask l (hL.mask.symm.trans hl)).2.trans hL.nEval.symm
    nGrad := by
      show o'.nGrad = if o'.st.useGrad then gN o'.bvec o'.nEval else 0
      rw [hL.nGrad, hL.st, hL.mask, hL.nEval, gN_numGrads]
    noMask := fun hu => by
      show o'.bvec = none
      rw [hL.mask]
      cases hb : d.bvec with
      | none => rfl
      | some b =>
        have := (hC.mask b hb).1
        rw [hu' hu] at this; cases this
    nData := by show o'.nData = o'.nEval + o'.nGrad * o'.st.dim; rw [hL.st]; exact hL.nData
    grad_none := fun hu => by
      have hu := hu' hu
      rcases hL.grad with ⟨-, h⟩ | ⟨G, G', h, -⟩
      · exact h
      · have := hC.grad
        rw [h, hu] at this; cases this
    grad_some := fun hu => by
      have hu := hu1 hu
      rcases hL.grad with ⟨h, -⟩ | ⟨G, G', h, h2, h3, -⟩
      · have := hC.grad
        rw [h, hu] at this; cases this
      · refine ⟨G', h2, ?_⟩
        have := hC.gradShape G h
        rw [h3] at this
        show G'.r = o'.nGrad ∧ G'.c = o'.st.dim
        rw [hL.st, hL.nGrad, hu]
        simpa using this
    std_fval := hcf
    std_fgrad := fun hk => by
      obtain ⟨s, h1, h2, h3⟩ := hcg hk
      exact ⟨s, h1, h2, h3.trans (congrArg GpStatic.dim hL.st).symm⟩
    fzero := fun hz => by
      obtain ⟨S, hS⟩ := noiseZero_known (hL.fvalZero.mp hz)
      rcases hL.stdFval with ⟨h, -⟩ | ⟨_, _, -, h, -⟩
      · rw [knownStd_none.mpr h] at hS; cases hS
      · exact h
    gzero := fun hu hz => by
      have hu := hu1 hu
      rcases hL.fgradZero.mp hz with h | h
      · rw [h] at hu; cases hu
      · obtain ⟨S, hS⟩ := noiseZero_known h
        rcases hL.stdGrad with ⟨h | h, -⟩ | ⟨_, _, -, -, h, -⟩
        · rw [h] at hu; cases hu
        · rw [knownStd_none.mpr h] at hS; cases hS
        · exact h
    noisy := by
      show o'.noisy = !(o'.fvalZero && o'.fgradZero)
      have h1 := hL.noisy
      rw [← hL.fvalZero, ← hL.fgradZero] at h1
      revert h1
      cases o'.noisy <;> cases o'.fvalZero <;> cases o'.fgradZero <;> simp }

/-- After a successful `set_data` with points of the right shape the object that the likelihood and evaluation code sees is well
formed, also with data scaling. -/
theorem loaded_view {d : DataIn} {o o' : GpObj} (hL : Loaded d o o') (hC : Consistent o.st.dim o.st.useGrad d)
    (hX : PointsFit o.st.dim d) (hu : o.useScl = true → o.st.useGrad = true) :
    ∃ g0 g, o'.view0 = .ok g0 ∧ o'.view = .ok g ∧ GpOk g0 ∧ GpOk g ∧ (o.useScl = false → g = g0) ∧
      (o.useScl = true → ∃ s, o'.scl = some s ∧ SclReach s ∧ s.xInit = g0.x ∧ s.obj.isSome = true ∧ sclView g0 s = .ok g) ∧
      g0.dim = o.st.dim ∧ g0.useGrad = o.st.useGrad ∧ g0.kernel = o.st.kernel ∧ g0.nEval = d.fval.size ∧
      g0.knownFval = o'.knownFval ∧ g0.knownFgrad = o'.knownFgrad ∧ g0.o = o'.condOpts ∧ g0.bvec = d.bvec := by
  obtain ⟨g0, h0, hok, h1, h2, h3, h4, h5, h6, h7, h8, h9, h10, h11, h12, h13, h14⟩ := loaded_gpOk hL hC hX
  cases hs : o.useScl with
  | false =>
    refine ⟨g0, g0, h0, ?_, hok, hok, fun _ => rfl, (fun h => by cases h), h1, h2, h3, h4, h10, h11, h14, h13⟩
    unfold GpObj.view
    rw [h0, ok_bind, hL.useScl, hs]
    rfl
  | true =>
    obtain ⟨s, hs1, hs2, hs3, od, hs4, -⟩ := hL.scl hs
    have hx : s.xInit = g0.x := by
      rw [← h5] at hs3
      exact Option.some.inj hs3
    have ho : s.obj.isSome = true := by rw [hs4]; rfl
    have hsg : ∀ S, g0.stdGrad = some S → S.c = g0.dim := by
      intro S hS
      rw [h9] at hS
      rcases hL.stdGrad with ⟨-, -, h⟩ | ⟨T, t, hug, hT, -, ht, hT2, -⟩
      · rw [h] at hS; cases hS
      · rw [ht] at hS; cases hS
        have := hC.stdGrad hug T hT
        rw [hT2] at this
        rw [h1]
        simp only [List.cons.injEq, and_true] at this
        exact this.2
    obtain ⟨g, hg, hgok, -⟩ := sclView_ok hok (reach_images hs2) ho hx hsg
    refine ⟨g0, g, h0, ?_, hok, hgok, (fun h => by cases h), fun _ => ⟨s, hs1, hs2, hx, ho, hg⟩, h1, h2, h3, h4, h10, h11, h14, h13⟩
    unfold GpObj.view
    rw [h0, ok_bind, hL.useScl, hs, if_pos rfl, hs1]
    exact hg

theorem zero_total {s : Option (Nd Fl)} {S : Nd Fl} (h : NoiseKnown s S) (h0 : 0 < S.size) : ∃ b, isZeroStd (knownStd s) = .ok b := by
  by_cases hz : NoiseZero s
  · exact ⟨true, isZero_iff.mpr ⟨S, h, h0, by simp [hz]⟩⟩
  · exact ⟨false, isZero_iff.mpr ⟨S, h, h0, by simp [hz]⟩⟩

theorem distMin_total {X : Arr2} (h : 1 ≤ X.r) : ∃ v, calcDistMin X = .ok v := by
  by_cases h1 : X.r = 1
  · exact ⟨none, by simp [calcDistMin, h1]⟩
  · unfold calcDistMin
    rw [if_neg h1]
    have hne : (((allPairs X.r).filter fun p => p.1 ≠ p.2).map fun p => rowDist X p.1 p.2) ≠ [] := by
      apply List.ne_nil_of_mem (a := rowDist X 0 1)
      refine List.mem_map.mpr ⟨(0, 1), List.mem_filter.mpr ⟨?_, by simp⟩, rfl⟩
      unfold allPairs
      refine List.mem_flatMap.mpr ⟨0, List.mem_range.mpr (by omega), List.mem_map.mpr ⟨1, List.mem_range.mpr (by omega), rfl⟩⟩
    obtain ⟨v, hv, -⟩ := listMin_spec hne
    exact ⟨some v, by rw [hv]⟩

/-- Options with which the nugget can be computed. -/
def NugOk (st : GpStatic) : Prop := 0 < st.dim ∧ 1 < st.condMaxTarget ∧ (st.etaMtd = .kbaseEta ∨ st.etaMtd = .kbaseEtaWDim)

theorem scaleCall_total {d : DataIn} {o : GpObj} (hcfg : o.useScl = (o.mtd.rescales || o.mtd.dfltV)) (hx : d.x.shape = [d.fval.size, o.st.dim])
    (hn : 0 < d.fval.size) (hG : ∀ G, d.grad = some G → G.shape.getD 1 0 = o.st.dim)
    (hS : o.useScl = true → ∀ S, d.stdGrad = some S → S.shape.getLast? = some o.st.dim ∧ S.shape.getD 1 0 = o.st.dim) :
    ∃ o', scaleCall d o = (o', .ok ()) := by
  have hxr : d.x.mat.r = d.fval.size := by show d.x.shape.getD 0 0 = _; rw [hx]; rfl
  have hxc : d.x.mat.c = o.st.dim := by show d.x.shape.getD 1 0 = _; rw [hx]; rfl
  unfold scaleCall
  cases hs : o.useScl with
  | false =>
    simp only [Bool.false_eq_true, if_false]
    obtain ⟨R, hR, -⟩ := calcRtensor_ok (X := d.x.mat) (Y := d.x.mat) rfl
    exact ⟨_, gcompute_iff.mpr ⟨R, hR, rfl⟩⟩
  | true =>
    simp only [if_true]
    have ha : ∃ m r, scaleArgs o d.fval.size = .ok (m, r) ∧ m ≠ .other := by
      rw [hs] at hcfg
      unfold scaleArgs
      cases hm : o.mtd <;> rw [hm] at hcfg <;> first | (exact ⟨_, _, rfl, by decide⟩) | (cases hcfg)
    obtain ⟨m, r, ha, hm⟩ := ha
    rw [ha]
    dsimp only
    generalize (if o.mtd = .rescaleOrigin then { o with vminReq := some r } else o) = q
    have hidx : pyIdx ((none : Option ℤ).getD ((d.x.mat.r : ℤ) - 1)) d.x.mat.r = .ok (d.x.mat.r - 1) := by
      unfold pyIdx
      simp only [Option.getD_none]
      split
      · rename_i h; congr 1; omega
      · omega
    obtain ⟨s0, hs0⟩ := newScl_total (x := d.x.mat) (idx := none) (u := true) (m := m) (dist := some r) hm (by rw [hxr]; exact hn) hidx
    obtain ⟨hI, -, hxi, -, -, hib, -⟩ := newScl_ok hs0
    have hsg : stdGradScl s0 d = .ok ((knownStd d.stdGrad).map fun S => S.nums.mat) := by
      unfold stdGradScl knownStd
      cases hd : d.stdGrad with
      | none => rfl
      | some S =>
        dsimp only
        cases hnan : S.hasNaN with
        | true =>
          have hfit : rowFits S.shape s0.xScale.n := by
            intro k hk
            rw [(hS hs S hd).1] at hk
            cases hk
            rw [hI.scale_n, hxi, hxc]
            simp [bdim]
          simp only [if_true]
          rw [if_pos hfit]; rfl
        | false => rfl
    unfold sclCall
    rw [hs0]
    dsimp only
    rw [hsg]
    dsimp only
    obtain ⟨s', hs', -⟩ := setObjData_total hI
      (o := ⟨d.fval.ravel, (knownStd d.stdFval).map (fun s => s.nums.ravel), d.grad.map (fun G => G.mat),
        (knownStd d.stdGrad).map fun S => S.nums.mat⟩)
      (by show d.fval.size = s0.xInit.r; rw [hxi, hxr]) (by exact hn)
      (by
        intro G hGo
        rw [hxi, hxc]
        rcases hGo with h | h
        · cases hd : d.grad with
          | none => simp [hd] at h
          | some G0 =>
            simp only [hd, Option.map_some] at h
            cases h
            exact hG G0 hd
        · cases hk : knownStd d.stdGrad with
          | none => simp [hk] at h
          | some S =>
            simp only [hk, Option.map_some] at h
            cases h
            exact (hS hs S (knownStd_some.mp hk).1).2)
      (i := d.fval.size - 1)
      (by
        rw [hib]
        simp only [Option.getD_none]
        rw [hxr]
        unfold pyIdx
        show (if _ then _ else _) = _
        split
        · rename_i h; congr 1; show (_ : ℤ).toNat = _; omega
        · rename_i h; exfalso; apply h; show _ ∧ _ < ((d.fval.size : ℕ) : ℤ); omega) true (m := .dfltMax) (by decide)
    rw [hs']
    exact ⟨_, rfl⟩

/-! ### C62: validation -/

/-- **C62, what is checked.** If `set_data` accepts its arguments, then the values, gradients, standard deviations and mask have
fitting shapes and the points are a two-dimensional array; and if the data are scaled there is one point per value. Missing: without
scaling nothing else is checked about the points (`C62_points_unchecked`), with scaling the number of columns is not; negative
standard deviations are accepted (`C62_negative_noise`). -/
theorem C62_shapes_partial {d : DataIn} {o o' : GpObj} (h : setData d o = (o', .ok ())) :
    Consistent o.st.dim o.st.useGrad d ∧ (o.useScl = true → d.x.shape.head? = some d.fval.size) :=
  (setData_loaded h).2

theorem setData_total {st : GpStatic} {o : GpObj} (hcfg : CfgOk st o) (hst : NugOk st) {d : DataIn}
    (hC : Consistent st.dim st.useGrad d) (hn : 0 < d.fval.size)
    (hg0 : st.useGrad = true → ∀ S, NoiseKnown d.stdGrad S → 0 < numGrads d)
    (hx : 0 < d.x.shape.getD 0 0)
    (hsc : ∀ ng fz gz b e k vm inf, ∃ o', scaleCall d (filled d o ng fz gz b e k vm inf) = (o', .ok ())) :
    ∃ o', setData d o = (o', .ok ()) := by
  have hst' : o.st = st := hcfg.eq
  subst hst'
  obtain ⟨hd, hc, he⟩ := hst
  have hng : countGrads o.st.useGrad d = .ok (if o.st.useGrad then numGrads d else 0) := by
    refine countGrads_iff.mpr ⟨fun b hb => ?_, rfl⟩
    obtain ⟨hu, hl⟩ := hC.mask b hb
    obtain ⟨G, hG⟩ := Option.isSome_iff_exists.mp (hC.grad.trans hu)
    exact ⟨hu, hl, G, _, _, hG, hC.gradShape G hG, rfl⟩
  have hfz : ∃ fz, ((knownStd d.stdFval).isSome = true → isZeroStd (knownStd d.stdFval) = .ok fz) ∧
      ((knownStd d.stdFval).isSome = false → fz = false) := by
    cases hk : knownStd d.stdFval with
    | none => exact ⟨false, by simp, by simp⟩
    | some S =>
      have hS := knownStd_some.mp hk
      obtain ⟨b, hb⟩ := zero_total hS (by rw [hC.stdFval S hS]; exact hn)
      rw [hk] at hb
      exact ⟨b, fun _ => hb, by simp⟩
  obtain ⟨fz, hz1, hz2⟩ := hfz
  have hgz : ∃ gz, (o.st.useGrad = true → (knownStd d.stdGrad).isSome = true → isZeroStd (knownStd d.stdGrad) = .ok gz) ∧
      (o.st.useGrad = true → (knownStd d.stdGrad).isSome = false → gz = false) ∧ (o.st.useGrad = false → gz = true) := by
    cases hu : o.st.useGrad with
    | false => exact ⟨true, by simp, by simp, by simp⟩
    | true =>
      cases hk : knownStd d.stdGrad with
      | none => exact ⟨false, by simp, by simp, by simp⟩
      | some S =>
        have hS := knownStd_some.mp hk
        have hsz : 0 < S.size := by
          unfold Nd.size
          rw [hC.stdGrad hu S hS]
          have := hg0 hu S hS
          simp only [List.prod_cons, List.prod_nil, mul_one]
          exact Nat.mul_pos this hd
        obtain ⟨b, hb⟩ := zero_total hS hsz
        rw [hk] at hb
        exact ⟨b, fun _ _ => hb, by simp, by simp⟩
  obtain ⟨gz, hz3, hz4, hz5⟩ := hgz
  obtain ⟨m, -, hm⟩ := calcNugget_form o.nugOpts hn hd he
  have hnug := hm o.st.condMaxTarget hc
  obtain ⟨vm, hvm⟩ := distMin_total (X := d.x.mat) hx
  set b : ℝ := (d.fval.size : ℝ) / (o.st.condMaxTarget - 1) with hb
  set e : Fl := if o.nugOpts.useGrad then some (m / (o.st.condMaxTarget - 1)) else none with hedef
  set k : ℝ := if o.st.useGrad then m / (o.st.condMaxTarget - 1) else b with hkdef
  set inf := hpInfoOf o.st.log o.st.dim true (o.st.optKernel && kernelHasHp o.st.kernel) (!(fz && gz)) (!(knownStd d.stdFval).isSome)
        (o.st.useGrad && !(d.grad.isSome && (knownStd d.stdGrad).isSome)) with hinf
  obtain ⟨o', ho'⟩ := hsc (if o.st.useGrad then numGrads d else 0) fz gz b e k vm inf
  refine ⟨o', setData_iff.mpr ⟨_, fz, gz, b, e, k, vm, inf, hng, hC.x, fun S hS => (hC.stdFval S (knownStd_some.mp hS)).symm,
    ⟨hC.grad, fun G hG => ?_⟩, hz1, hz2, hz3, hz4, hz5, hnug, ?_, hvm, rfl, ho'⟩⟩
  · have hu : o.st.useGrad = true := by rw [← hC.grad, hG]; rfl
    refine ⟨by rw [hC.gradShape G hG, hu]; rfl, fun S hS => ?_⟩
    rw [hC.gradShape G hG, hC.stdGrad hu S (knownStd_some.mp hS)]
  · cases hu : o.st.useGrad with
    | false => simp [hkdef, hu]
    | true =>
      have : o.nugOpts.useGrad = true := hu
      simp [hkdef, hedef, hu, this]

/-- Data that fit are accepted, whatever state the object is in. -/
theorem accepts_cfg {st : GpStatic} {o : GpObj} (hcfg : CfgOk st o) (hst : NugOk st) {d : DataIn}
    (hC : Consistent st.dim st.useGrad d) (hX : PointsFit st.dim d) (hn : 0 < d.fval.size)
    (hg0 : st.useGrad = true → ∀ S, NoiseKnown d.stdGrad S → 0 < numGrads d)
    (hS : st.useGrad = true → ∀ S, d.stdGrad = some S → S.shape = [numGrads d, st.dim]) :
    ∃ o' g, setData d o = (o', .ok ()) ∧ Loaded d o o' ∧ o'.view = .ok g ∧ GpOk g := by
  have hsu : o.useScl = true → st.useGrad = true := by
    intro h
    by_contra hu
    rw [Bool.not_eq_true] at hu
    rw [hcfg.scl, hcfg.base hu] at h
    cases h
  have hst' : o.st = st := hcfg.eq
  subst hst'
  obtain ⟨o', ho'⟩ := setData_total hcfg hst hC hn hg0 (by rw [hX]; exact hn) (by
    intro ng fz gz b e k vm inf
    refine scaleCall_total (o := filled d o ng fz gz b e k vm inf) hcfg.scl hX hn (fun G hG => ?_) (fun hu S hSd => ?_)
    · rw [hC.gradShape G hG]; rfl
    · rw [hS (hsu hu) S hSd]; exact ⟨rfl, rfl⟩)
  obtain ⟨hL, -, -⟩ := setData_loaded ho'
  obtain ⟨g0, g, -, hv, -, hok, -⟩ := loaded_view hL hC hX hsu
  exact ⟨o', g, ho', hL, hv, hok⟩

/-- **C62, what is accepted.** For every object that a program can have, arguments whose shapes fit are accepted (known standard
deviations of gradients must not be empty), and afterwards the object holds them: the counters, flags and arrays are those of the
arguments, and what the likelihood and the evaluation read is well formed, with or without data scaling. -/
theorem C62_accepts {st : GpStatic} {o : GpObj} (hr : GpReach st o) (hst : NugOk st) {d : DataIn}
    (hC : Consistent st.dim st.useGrad d) (hX : PointsFit st.dim d) (hn : 0 < d.fval.size)
    (hg0 : st.useGrad = true → ∀ S, NoiseKnown d.stdGrad S → 0 < numGrads d)
    (hS : st.useGrad = true → ∀ S, d.stdGrad = some S → S.shape = [numGrads d, st.dim]) :
    ∃ o' g, setData d o = (o', .ok ()) ∧ GpReach st o' ∧ Loaded d o o' ∧ o'.view = .ok g ∧ GpOk g := by
  obtain ⟨o', g, ho', hL, hv, hok⟩ := accepts_cfg (reach_cfgOk hr) hst hC hX hn hg0 hS
  refine ⟨o', g, ho', ?_, hL, hv, hok⟩
  have := GpReach.data d hr
  rwa [ho'] at this

/-- **C62 is false: the points are not checked.** Without data scaling any two-dimensional array with at least one row is accepted as
the points, whatever the number of values and the dimension; the resulting object is not well formed unless it happens to fit. -/
theorem C62_points_unchecked {st : GpStatic} {o : GpObj} (hr : GpReach st o) (hst : NugOk st) (hs : o.useScl = false) {d : DataIn}
    (hC : Consistent st.dim st.useGrad d) (hn : 0 < d.fval.size) (hg0 : st.useGrad = true → ∀ S, NoiseKnown d.stdGrad S → 0 < numGrads d)
    {r c : ℕ} (hx : d.x.shape = [r, c]) (hr0 : 0 < r) :
    ∃ o', setData d o = (o', .ok ()) ∧ ((r ≠ d.fval.size ∨ c ≠ st.dim) → ∀ g, o'.view = .ok g → ¬ GpOk g) := by
  obtain ⟨o', ho'⟩ := setData_total (reach_cfgOk hr) hst hC hn hg0 (by rw [hx]; exact hr0) (by
    intro ng fz gz b e k vm inf
    unfold scaleCall
    rw [show (filled d o ng fz gz b e k vm inf).useScl = false from hs]
    simp only [Bool.false_eq_true, if_false]
    obtain ⟨R, hR, -⟩ := calcRtensor_ok (X := d.x.mat) (Y := d.x.mat) rfl
    exact ⟨_, gcompute_iff.mpr ⟨R, hR, rfl⟩⟩)
  refine ⟨o', ho', fun hne g hg hok => ?_⟩
  obtain ⟨hL, -, -⟩ := setData_loaded ho'
  obtain ⟨X, hX1, hX2, -⟩ := hL.x
  obtain ⟨f, hf1, -⟩ := hL.fval
  have : g = o'.gp X f := by
    unfold GpObj.view GpObj.view0 at hg
    rw [hX1, hf1, hL.useScl, hs] at hg
    cases hg; rfl
  subst this
  rw [hx] at hX2
  simp only [List.cons.injEq, and_true] at hX2
  rcases hne with h | h
  · exact h (hX2.1.trans (hok.x_r.trans hL.nEval))
  · exact h (hX2.2.trans (hok.x_c.trans (by show o'.st.dim = _; rw [hL.st, (reach_cfgOk hr).eq])))

/-- **C62 is false: negative noise is accepted**, and taken for noise-free data: whatever the (negative) standard deviations of the
values are, an accepted call classifies the values as free of noise. -/
theorem C62_negative_noise {d : DataIn} {o o' : GpObj} (h : setData d o = (o', .ok ())) {S : Nd Fl} (hS : d.stdFval = some S)
    (hneg : ∀ k < S.size, ∃ v, S.flat k = some v ∧ v < 0) : o'.knownFval = true ∧ o'.fvalZero = true := by
  have hk : NoiseKnown d.stdFval S := ⟨hS, fun k hk => by obtain ⟨v, hv, -⟩ := hneg k hk; rw [hv]; simp⟩
  obtain ⟨hL, -, -⟩ := setData_loaded h
  constructor
  · rcases hL.stdFval with ⟨hu, -⟩ | ⟨_, _, -, h, -⟩
    · have h1 := knownStd_none.mpr hu
      rw [knownStd_some.mpr hk] at h1; cases h1
    · exact h
  · refine hL.fvalZero.mpr ⟨S, hk, fun k hk => ?_⟩
    obtain ⟨v, hv, hv2⟩ := hneg k hk
    exact ⟨v, hv, hv2.trans (by positivity)⟩

/-! ### C63: noise classification -/

/-- **C63.** After an accepted `set_data`: the noise level of the values is unknown (and a variance will be optimised) exactly if no
standard deviations or some NaN were given; the values are free of noise exactly if all standard deviations are below `1e-10`; the same
for the gradients, if they are used (otherwise they count as free of noise); and the data are noisy unless both are free of noise. -/
theorem C63_classification {d : DataIn} {o o' : GpObj} (h : setData d o = (o', .ok ())) :
    (o'.knownFval = false ↔ NoiseUnknown d.stdFval) ∧ (o'.optzVarFval = true ↔ NoiseUnknown d.stdFval) ∧
    (o'.fvalZero = true ↔ NoiseZero d.stdFval) ∧
    (o.st.useGrad = true → (o'.knownFgrad = false ↔ NoiseUnknown d.stdGrad) ∧ (o'.optzVarFgrad = true ↔ NoiseUnknown d.stdGrad) ∧
      (o'.fgradZero = true ↔ NoiseZero d.stdGrad)) ∧
    (o.st.useGrad = false → o'.knownFgrad = false ∧ o'.optzVarFgrad = false ∧ o'.fgradZero = true) ∧
    (o'.noisy = false ↔ (NoiseZero d.stdFval ∧ (o.st.useGrad = false ∨ NoiseZero d.stdGrad))) := by
  obtain ⟨hL, -, -⟩ := setData_loaded h
  have excl : ∀ {s : Option (Nd Fl)} {S}, NoiseKnown s S → ¬ NoiseUnknown s := fun hk hu => by
    have h1 := knownStd_none.mpr hu
    rw [knownStd_some.mpr hk] at h1; cases h1
  refine ⟨?_, hL.optFval, hL.fvalZero, fun hu => ⟨?_, ?_, ?_⟩, fun hu => ⟨?_, ?_, ?_⟩, hL.noisy⟩
  · rcases hL.stdFval with ⟨h1, h2, -⟩ | ⟨S, _, h1, h2, -⟩
    · simp [h1, h2]
    · simp [h2, excl h1]
  · rcases hL.stdGrad with ⟨h1, h2, -⟩ | ⟨S, _, -, h1, h2, -⟩
    · rcases h1 with h1 | h1
      · rw [h1] at hu; cases hu
      · simp [h1, h2]
    · simp [h2, excl h1]
  · rw [hL.optFgrad]; simp [hu]
  · rw [hL.fgradZero]; simp [hu]
  · rcases hL.stdGrad with ⟨h1, h2, -⟩ | ⟨S, _, h3, -⟩
    · exact h2
    · rw [h3] at hu; cases hu
  · cases hq : o'.optzVarFgrad with
    | false => rfl
    | true => have := (hL.optFgrad.mp hq).1; rw [hu] at this; cases this
  · exact hL.fgradZero.mpr (.inl hu)

/-! ### C65: conditioning method -/

theorem parse_name {s : String} {m : WcMtd} (h : WcMtd.parse s = some m) : wcName m = s ∧ s ∈ wcAvail := by
  unfold WcMtd.parse at h
  simp only [wcAvail, List.mem_cons, List.not_mem_nil, or_false]
  split_ifs at h with h1 h2 h3 h4 h5 h6 <;> cases h <;> simp_all [wcName]

theorem parse_total {s : String} (h : s ∈ wcAvail) : ∃ m, WcMtd.parse s = some m := by
  simp only [wcAvail, List.mem_cons, List.not_mem_nil, or_false] at h
  rcases h with rfl | rfl | rfl | rfl | rfl | rfl <;> exact ⟨_, rfl⟩

theorem wcName_inj {a b : WcMtd} (h : wcName a = wcName b) : a = b := by
  cases a <;> cases b <;> first | rfl | (exact absurd h (by decide))

/-- **C65, one request.** A supported method is accepted and configures the object as it asks for; anything else, also `None`, is
rejected and leaves the object unchanged. -/
theorem C65_request (o : GpObj) (m : Option String) :
    (∀ s, m = some s → s ∈ wcAvail → ∃ o', setWellcond m o = (o', .ok ()) ∧ Configured o.st.useGrad s o' ∧
      o'.etaConst = (o.etaConst && decide (s ≠ "rescale_eta_vary"))) ∧
    ((∀ s, m = some s → s ∉ wcAvail) → setWellcond m o = (o, .error .assertion)) := by
  constructor
  · rintro s rfl hs
    obtain ⟨w, hw⟩ := parse_total hs
    obtain ⟨hn, -⟩ := parse_name hw
    refine ⟨applyWellcond w o, by simp [setWellcond, hw], ⟨?_, ?_, ?_⟩, ?_⟩
    · unfold applyWellcond
      dsimp only
      cases o.st.useGrad
      · rfl
      · exact hn
    · show ((if o.st.useGrad = true then w else .base) != .precon) = true ↔ wcName (if o.st.useGrad = true then w else .base) ≠ "precon"
      generalize (if o.st.useGrad = true then w else WcMtd.base) = q
      cases q <;> decide
    · show ((if o.st.useGrad = true then w else .base).rescales || (if o.st.useGrad = true then w else .base).dfltV) = true ↔
        wcName (if o.st.useGrad = true then w else .base) ∈ _
      generalize (if o.st.useGrad = true then w else WcMtd.base) = q
      cases q <;> decide
    · subst hn
      unfold applyWellcond
      dsimp only
      cases w <;> cases o.etaConst <;> decide
  · intro h
    unfold setWellcond
    cases hm : m.bind WcMtd.parse with
    | none => rfl
    | some w =>
      cases m with
      | none => cases hm
      | some s => exact absurd (parse_name hm).2 (h s rfl)

theorem configured_unique {u : Bool} {m : String} {o1 o2 : GpObj} (h1 : Configured u m o1) (h2 : Configured u m o2) :
    o1.mtd = o2.mtd ∧ o1.useCstr = o2.useCstr ∧ o1.useScl = o2.useScl := by
  have hm : o1.mtd = o2.mtd := wcName_inj (h1.mtd.trans h2.mtd.symm)
  refine ⟨hm, ?_, ?_⟩
  · rw [Bool.eq_iff_iff, h1.cstr, h2.cstr, hm]
  · rw [Bool.eq_iff_iff, h1.scl, h2.scl, hm]

theorem requests_st (l : List (Option String)) (o : GpObj) : (requests l o).st = o.st := by
  unfold requests
  induction l generalizing o with
  | nil => rfl
  | cons m l ih =>
    rw [List.foldl_cons, ih]
    unfold setWellcond
    cases m.bind WcMtd.parse <;> rfl

theorem requests_eta (l : List (Option String)) (o : GpObj) :
    (requests l o).etaConst = (o.etaConst && decide (some "rescale_eta_vary" ∉ l)) := by
  unfold requests
  induction l generalizing o with
  | nil => simp
  | cons m l ih =>
    rw [List.foldl_cons, ih]
    have h : (setWellcond m o).1.etaConst = (o.etaConst && decide (m ≠ some "rescale_eta_vary")) := by
      by_cases hs : ∃ s, m = some s ∧ s ∈ wcAvail
      · obtain ⟨s, rfl, hs⟩ := hs
        obtain ⟨o', ho', -, he⟩ := (C65_request o (some s)).1 s rfl hs
        rw [ho', he]
        congr 1
        simp
      · push Not at hs
        rw [(C65_request o m).2 hs]
        have : m ≠ some "rescale_eta_vary" := fun h => hs _ h (by decide)
        simp [this]
    rw [h, Bool.and_assoc]
    congr 1
    rw [Bool.eq_iff_iff]
    simp only [Bool.and_eq_true, decide_eq_true_eq, ne_eq, List.mem_cons, not_or]
    exact ⟨fun h => ⟨fun e => h.1 e.symm, h.2⟩, fun h => ⟨fun e => h.1 e.symm, h.2⟩⟩

/-- **C65, histories (partial).** After any sequence of requests, accepted or rejected, followed by an accepted one, the method, the use
of a constraint on the condition number and the use of data scaling depend on the last request only; whether the nugget is constant
depends on whether `rescale_eta_vary` was ever requested (missing: that this too depends on the last request only, which is false,
`C65_sticky`). -/
theorem C65_history_partial (l : List (Option String)) (o : GpObj) {s : String} (hs : s ∈ wcAvail) :
    Configured o.st.useGrad s (requests (l ++ [some s]) o) ∧
    ((requests (l ++ [some s]) o).etaConst = true ↔ (o.etaConst = true ∧ some "rescale_eta_vary" ∉ l ++ [some s])) := by
  constructor
  · have h : requests (l ++ [some s]) o = (setWellcond (some s) (requests l o)).1 := by
      unfold requests
      rw [List.foldl_append]; rfl
    obtain ⟨o', ho', hc, -⟩ := (C65_request (requests l o) (some s)).1 s rfl hs
    rw [h, ho']
    rw [requests_st] at hc
    exact hc
  · rw [requests_eta]
    simp

/-- **C65 is false: the varying nugget is sticky.** Asking for `rescale_eta_vary` and then for another supported method leaves a varying
nugget, asking for that method only does not, for every object with a constant nugget (as every new object has) and even if the
object does not use gradients, so that the first request had no other effect. -/
theorem C65_sticky (o : GpObj) (ho : o.etaConst = true) {s : String} (hs : s ∈ wcAvail) (hne : s ≠ "rescale_eta_vary") :
    (requests [some "rescale_eta_vary", some s] o).etaConst = false ∧ (requests [some s] o).etaConst = true := by
  rw [requests_eta, requests_eta, ho]
  constructor
  · simp
  · simp [hne.symm]

end Props
