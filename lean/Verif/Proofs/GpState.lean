import Verif.Spec.GpState
import Verif.Props.Rescale
import Verif.Props.Layout

/-! Inversion and success of the steps of `set_data`. -/

open Np GP

noncomputable section

namespace Spec

theorem gThen_iff {a b : GCall} {s s' : GpObj} :
    a.andThen b s = (s', .ok ()) ↔ ∃ t, a s = (t, .ok ()) ∧ b t = (s', .ok ()) := by
  unfold GCall.andThen
  rcases a s with ⟨t, e | u⟩
  · constructor
    · intro h; cases h
    · rintro ⟨t', h, -⟩; cases h
  · constructor
    · intro h; exact ⟨t, rfl, h⟩
    · rintro ⟨t', h, h2⟩; cases h; exact h2

theorem gset_iff {f : GpObj → GpObj} {s t : GpObj} : gset f s = (t, .ok ()) ↔ t = f s := by
  unfold gset
  constructor
  · intro h; cases h; rfl
  · rintro rfl; rfl

theorem gcompute_iff {α : Type} {f : GpObj → Py α} {put : GpObj → α → GpObj} {s t : GpObj} :
    gcompute f put s = (t, .ok ()) ↔ ∃ a, f s = .ok a ∧ t = put s a := by
  unfold gcompute
  cases f s with
  | error e => constructor <;> intro h
               · cases h
               · obtain ⟨_, h, -⟩ := h; cases h
  | ok a => constructor
            · intro h; cases h; exact ⟨a, rfl, rfl⟩
            · rintro ⟨b, h, rfl⟩; cases h; rfl

theorem band_left {a b : Bool} : (a && b) = true → b = true := by cases a <;> cases b <;> simp
theorem bnot_of {b : Bool} : (!b) = true → b = false := by cases b <;> simp
theorem bandnot_of {a b : Bool} : (a && !b) = true → b = false := by cases a <;> cases b <;> simp

theorem assert_ok {b : Prop} [Decidable b] : pyAssert b = .ok () ↔ b := by
  unfold pyAssert
  by_cases h : b <;> simp [h]

theorem pair_ok {s t : GpObj} {r : Py Unit} : ((s, r) : GpObj × Py Unit) = (t, .ok ()) ↔ t = s ∧ r = .ok () := by
  rw [Prod.mk.injEq]
  exact ⟨fun h => ⟨h.1.symm, h.2⟩, fun h => ⟨h.1.symm, h.2⟩⟩

theorem checkStdFval_iff {d : DataIn} {o t : GpObj} : checkStdFval d o = (t, .ok ()) ↔
    t = { o with knownFval := (knownStd d.stdFval).isSome } ∧ ∀ s, knownStd d.stdFval = some s → d.fval.size = s.size := by
  unfold checkStdFval
  cases knownStd d.stdFval with
  | none => simp only [pair_ok, Option.isSome_none]; simp
  | some s => simp only [pair_ok, assert_ok, Option.isSome_some]; simp

theorem checkGrad_iff {d : DataIn} {o t : GpObj} : checkGrad d o = (t, .ok ()) ↔
    t = { o with hasGradInfo := d.grad.isSome, knownFgrad := d.grad.isSome && (knownStd d.stdGrad).isSome } ∧
      d.grad.isSome = o.st.useGrad ∧ ∀ G, d.grad = some G → G.shape = [o.nGrad, o.st.dim] ∧
        ∀ S, knownStd d.stdGrad = some S → G.shape = S.shape := by
  unfold checkGrad
  cases hg : d.grad with
  | none =>
    cases hu : o.st.useGrad with
    | true => simp [Prod.mk.injEq]
    | false => simp only [Bool.false_eq_true, if_false, pair_ok]; simp
  | some G =>
    cases hu : o.st.useGrad with
    | false => simp [Prod.mk.injEq]
    | true =>
      simp only [if_true]
      by_cases hs : G.ndim = 2 ∧ G.shape = [o.nGrad, o.st.dim]
      · rw [if_pos hs]
        cases hk : knownStd d.stdGrad with
        | none => simp only [pair_ok]; simp [hs.2]
        | some S =>
          simp only [pair_ok, assert_ok]
          constructor
          · rintro ⟨rfl, h1, h2⟩
            exact ⟨rfl, rfl, fun G' h => by cases h; exact ⟨hs.2, fun S' h => by cases h; exact h2⟩⟩
          · rintro ⟨rfl, -, h⟩
            have h2 := (h G rfl).2 S rfl
            refine ⟨rfl, ?_, h2⟩
            show S.shape.length = 2
            rw [← h2]; exact hs.1
      · rw [if_neg hs]
        constructor
        · intro h; cases h
        · rintro ⟨-, -, h⟩
          have h2 := (h G rfl).1
          exact absurd ⟨by show G.shape.length = 2; rw [h2]; rfl, h2⟩ hs

theorem classifyFval_iff {d : DataIn} {o t : GpObj} : classifyFval d o = (t, .ok ()) ↔
    ∃ b, (o.knownFval = true → isZeroStd (knownStd d.stdFval) = .ok b) ∧ (o.knownFval = false → b = false) ∧
      t = { o with optzVarFval := !o.knownFval, fvalZero := b } := by
  unfold classifyFval
  cases hk : o.knownFval with
  | false =>
    simp only [Bool.false_eq_true, if_false, pair_ok]
    constructor
    · rintro ⟨rfl, -⟩; exact ⟨false, by simp, by simp, rfl⟩
    · rintro ⟨b, -, hb, rfl⟩; rw [hb (by trivial)]; exact ⟨rfl, by trivial⟩
  | true =>
    simp only [if_true]
    cases hz : isZeroStd (knownStd d.stdFval) with
    | error e => constructor
                 · intro h; cases h
                 · rintro ⟨b, h, -⟩; cases h (by trivial)
    | ok b =>
      simp only [pair_ok]
      constructor
      · rintro ⟨rfl, -⟩; exact ⟨b, by simp, by simp, rfl⟩
      · rintro ⟨b', h, -, rfl⟩; cases h (by trivial); exact ⟨rfl, by trivial⟩

theorem classifyFgrad_iff {d : DataIn} {o t : GpObj} : classifyFgrad d o = (t, .ok ()) ↔
    ∃ b, (o.st.useGrad = true → o.knownFgrad = true → isZeroStd (knownStd d.stdGrad) = .ok b) ∧
      (o.st.useGrad = true → o.knownFgrad = false → b = false) ∧ (o.st.useGrad = false → b = true) ∧
      t = { o with optzVarFgrad := o.st.useGrad && !o.knownFgrad, fgradZero := b } := by
  unfold classifyFgrad
  cases hu : o.st.useGrad with
  | false =>
    simp only [Bool.false_eq_true, if_false, pair_ok]
    constructor
    · rintro ⟨rfl, -⟩; exact ⟨true, by simp, by simp, by simp, rfl⟩
    · rintro ⟨b, -, -, hb, rfl⟩; rw [hb (by trivial)]; exact ⟨rfl, by trivial⟩
  | true =>
    simp only [if_true]
    cases hk : o.knownFgrad with
    | false =>
      simp only [Bool.false_eq_true, if_false, pair_ok]
      constructor
      · rintro ⟨rfl, -⟩; exact ⟨false, by simp, by simp, by simp, rfl⟩
      · rintro ⟨b, -, hb, -, rfl⟩; rw [hb (by trivial) (by trivial)]; exact ⟨rfl, by trivial⟩
    | true =>
      simp only [if_true]
      cases hz : isZeroStd (knownStd d.stdGrad) with
      | error e => constructor
                   · intro h; cases h
                   · rintro ⟨b, h, -⟩; cases h (by trivial) (by trivial)
      | ok b =>
        simp only [pair_ok]
        constructor
        · rintro ⟨rfl, -⟩; exact ⟨b, by simp, by simp, by simp, rfl⟩
        · rintro ⟨b', h, -, -, rfl⟩; cases h (by trivial) (by trivial); exact ⟨rfl, by trivial⟩

theorem nuggetCall_iff {o t : GpObj} : nuggetCall o = (t, .ok ()) ↔
    ∃ b e k, calcNugget o.nugOpts o.nEval = .ok (b, e) ∧ (if o.st.useGrad then e = some k else k = b) ∧
      t = { o with etaKbase := b, etaKgrad := e, etaK := k } := by
  unfold nuggetCall
  rw [gcompute_iff]
  cases hn : calcNugget o.nugOpts o.nEval with
  | error e => constructor
               · rintro ⟨a, h, -⟩; simp at h
               · rintro ⟨b, e, k, h, -⟩; cases h
  | ok p =>
    obtain ⟨b, e⟩ := p
    simp only [ok_bind]
    cases hu : o.st.useGrad with
    | false =>
      simp only [Bool.false_eq_true, if_false, pure_eq_ok]
      constructor
      · rintro ⟨a, h, rfl⟩; cases h; exact ⟨b, e, b, rfl, rfl, rfl⟩
      · rintro ⟨b', e', k, h, rfl, rfl⟩; cases h; exact ⟨_, rfl, rfl⟩
    | true =>
      simp only [if_true]
      constructor
      · rintro ⟨a, h, rfl⟩
        cases e with
        | none => cases h
        | some x => cases h; exact ⟨b, some x, x, rfl, rfl, rfl⟩
      · rintro ⟨b', e', k, h, rfl, rfl⟩; cases h; exact ⟨_, rfl, rfl⟩

/-- The object after the checks and the classification, before scaling. -/
def filled (d : DataIn) (o : GpObj) (ng : ℕ) (fz gz : Bool) (b : ℝ) (e : Fl) (k : ℝ) (vm : Fl) (inf : HpInfo) : GpObj :=
  { o with
    nEval := d.fval.size, nGrad := ng, nData := d.fval.size + ng * o.st.dim
    knownFval := (knownStd d.stdFval).isSome, knownFgrad := d.grad.isSome && (knownStd d.stdGrad).isSome
    hasGradInfo := d.grad.isSome, xIn := some d.x.mat, fvalIn := some d.fval.ravel
    stdFvalIn := if (knownStd d.stdFval).isSome then (knownStd d.stdFval).map fun s => s.nums.ravel else none
    gradIn := d.grad.map fun G => G.mat
    stdGradIn := if d.grad.isSome && (knownStd d.stdGrad).isSome then (knownStd d.stdGrad).map fun s => s.nums.mat else none
    bvec := d.bvec
    optzVarFval := !(knownStd d.stdFval).isSome, fvalZero := fz
    optzVarFgrad := o.st.useGrad && !(d.grad.isSome && (knownStd d.stdGrad).isSome), fgradZero := gz
    noisy := !(fz && gz), etaKbase := b, etaKgrad := e, etaK := k, vminInit := vm, info := some inf }

set_option maxHeartbeats 1000000 in
/-- Exactly when `set_data` succeeds, up to scaling. -/
theorem setData_iff {d : DataIn} {o o' : GpObj} : setData d o = (o', .ok ()) ↔
    ∃ ng fz gz b e k vm inf, countGrads o.st.useGrad d = .ok ng ∧ d.x.ndim = 2 ∧
      (∀ s, knownStd d.stdFval = some s → d.fval.size = s.size) ∧
      (d.grad.isSome = o.st.useGrad ∧ ∀ G, d.grad = some G → G.shape = [ng, o.st.dim] ∧ ∀ S, knownStd d.stdGrad = some S → G.shape = S.shape) ∧
      ((knownStd d.stdFval).isSome = true → isZeroStd (knownStd d.stdFval) = .ok fz) ∧ ((knownStd d.stdFval).isSome = false → fz = false) ∧
      (o.st.useGrad = true → (knownStd d.stdGrad).isSome = true → isZeroStd (knownStd d.stdGrad) = .ok gz) ∧
      (o.st.useGrad = true → (knownStd d.stdGrad).isSome = false → gz = false) ∧ (o.st.useGrad = false → gz = true) ∧
      calcNugget o.nugOpts d.fval.size = .ok (b, e) ∧ (if o.st.useGrad then e = some k else k = b) ∧
      calcDistMin d.x.mat = .ok vm ∧
      inf = hpInfoOf o.st.log o.st.dim true (o.st.optKernel && kernelHasHp o.st.kernel) (!(fz && gz)) (!(knownStd d.stdFval).isSome)
        (o.st.useGrad && !(d.grad.isSome && (knownStd d.stdGrad).isSome)) ∧
      scaleCall d (filled d o ng fz gz b e k vm inf) = (o', .ok ()) := by
  unfold setData
  cases hc : countGrads o.st.useGrad d with
  | error e => constructor
               · intro h; cases h
               · rintro ⟨_, _, _, _, _, _, _, _, h, -⟩; cases h
  | ok ng =>
    simp only [gThen_iff, gset_iff, gcompute_iff, checkStdFval_iff, checkGrad_iff, classifyFval_iff, classifyFgrad_iff, nuggetCall_iff,
      hpIdxCall, assert_ok]
    constructor
    · rintro ⟨_, rfl, _, ⟨_, h1, rfl⟩, _, ⟨rfl, h2⟩, _, ⟨rfl, h3⟩, _, rfl, _, ⟨fz, h4, h5, rfl⟩, _, ⟨gz, h6, h7, h8, rfl⟩, _, rfl, _,
        ⟨b, e, k, h9, h10, rfl⟩, _, ⟨vm, h11, rfl⟩, _, ⟨inf, h12, rfl⟩, h13⟩
      have hgs : o.st.useGrad = true → d.grad.isSome = true := fun h => h3.1.trans h
      refine ⟨ng, fz, gz, b, e, k, vm, inf, rfl, ?_, h2, h3, h4, h5, fun hu hk => h6 hu ?_, fun hu hk => h7 hu ?_, h8, h9, h10, h11, ?_, ?_⟩
      · exact assert_ok.mp (by cases h : pyAssert (d.x.ndim = 2) with | error e => rw [h] at h1; cases h1 | ok u => rfl)
      · show (d.grad.isSome && (knownStd d.stdGrad).isSome) = true
        rw [hgs hu, hk]; rfl
      · show (d.grad.isSome && (knownStd d.stdGrad).isSome) = false
        rw [hk, Bool.and_false]
      · rw [setHpOptzInfo_ok _ _ band_left bnot_of bandnot_of] at h12
        cases h12
        rfl
      · exact h13
    · rintro ⟨ng', fz, gz, b, e, k, vm, inf, hng, h1, h2, h3, h4, h5, h6, h7, h8, h9, h10, h11, rfl, h13⟩
      cases hng
      have hgs : o.st.useGrad = true → d.grad.isSome = true := fun h => h3.1.trans h
      refine ⟨_, rfl, _, ⟨(), assert_ok.mpr h1, rfl⟩, _, ⟨rfl, h2⟩, _, ⟨rfl, h3⟩, _, rfl, _, ⟨fz, h4, h5, rfl⟩, _, ⟨gz, ?_, ?_, h8, rfl⟩, _, rfl, _,
        ⟨b, e, k, h9, h10, rfl⟩, _, ⟨vm, h11, rfl⟩, _, ⟨_, setHpOptzInfo_ok _ _ band_left bnot_of bandnot_of, rfl⟩, ?_⟩
      · intro hu hk
        refine h6 hu ?_
        have : (d.grad.isSome && (knownStd d.stdGrad).isSome) = true := hk
        rw [hgs hu] at this; exact this
      · intro hu hk
        refine h7 hu ?_
        have : (d.grad.isSome && (knownStd d.stdGrad).isSome) = false := hk
        rw [hgs hu] at this; exact this
      · exact h13

end Spec
