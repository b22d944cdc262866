import Verif.Spec.SclSpec
import Verif.Props.Common

/-! Helper lemmas for the rescaling class. -/

open Np GP Spec

noncomputable section

namespace GP

theorem bop_row {f : ℝ → ℝ → ℝ} {A : Arr2} {v : Arr1} (h : A.c = v.n) :
    A.bop f v.row = .ok ⟨A.r, A.c, fun i j => f (A.get i j) (v.get j)⟩ := by
  have hr : bdim A.r 1 = some A.r := by unfold bdim; by_cases h1 : A.r = 1 <;> simp [h1]
  simp [Arr2.bop, Arr1.row, ← h, hr]

theorem bop_row_r {f : ℝ → ℝ → ℝ} {A B : Arr2} {v : Arr1} (h : A.bop f v.row = .ok B) : B.r = A.r := by
  have hr : bdim A.r 1 = some A.r := by unfold bdim; by_cases h1 : A.r = 1 <;> simp [h1]
  unfold Arr2.bop Arr1.row at h
  simp only [hr] at h
  cases hc : bdim A.c v.n with
  | none => rw [hc] at h; cases h
  | some c => rw [hc] at h; cases h; rfl

theorem bop1_ok {f : ℝ → ℝ → ℝ} {a b : Arr1} (h : a.n = b.n) : a.bop f b = .ok ⟨a.n, fun i => f (a.get i) (b.get i)⟩ := by
  simp [Arr1.bop, ← h]

theorem bopRow_ok {f : ℝ → ℝ → ℝ} {A : Arr3} {v : Arr1} (h : A.c = v.n) :
    A.bopRow f v = .ok ⟨A.d, A.r, A.c, fun i j k => f (A.get i j k) (v.get k)⟩ := by
  simp [Arr3.bopRow, ← h]

theorem bindOk {α β : Type} {a : Py α} {f : α → Py β} {r : β} (h : (a >>= f) = .ok r) : ∃ x, a = .ok x ∧ f x = .ok r := by
  cases a with
  | error e => cases h
  | ok x => exact ⟨x, rfl, h⟩

theorem optPy_ok {α β : Type} {f : α → Py β} {o : Option α} {r : Option β} (h : optPy f o = .ok r) :
    (o = none ∧ r = none) ∨ ∃ a b, o = some a ∧ f a = .ok b ∧ r = some b := by
  cases o with
  | none => left; simp only [optPy] at h; exact ⟨rfl, by cases h; rfl⟩
  | some a =>
    right
    obtain ⟨b, hb, h'⟩ := bindOk h
    exact ⟨a, b, rfl, hb, by cases h'; rfl⟩

theorem andThen_ok {a b : Call} {s s' : Scl} (h : a.andThen b s = (s', .ok ())) :
    ∃ t, a s = (t, .ok ()) ∧ b t = (s', .ok ()) := by
  unfold Call.andThen at h
  rcases hh : a s with ⟨t, r⟩
  rw [hh] at h
  cases r with
  | ok u => exact ⟨t, by cases u; rfl, h⟩
  | error e => simp at h

theorem andThen_of_ok {a b : Call} {s t : Scl} (h : a s = (t, .ok ())) : a.andThen b s = b t := by
  simp [Call.andThen, h]

theorem andThen_of_err {a b : Call} {s t : Scl} {e : Err} (h : a s = (t, .error e)) : a.andThen b s = (t, .error e) := by
  simp [Call.andThen, h]

theorem compute_ok {α : Type} {f : Scl → Py α} {p : Scl → α → Scl} {s s' : Scl} (h : compute f p s = (s', .ok ())) :
    ∃ a, f s = .ok a ∧ s' = p s a := by
  unfold compute at h
  cases hf : f s with
  | ok a => rw [hf] at h; exact ⟨a, rfl, (Prod.mk.inj h).1.symm⟩
  | error e => rw [hf] at h; simp at h

theorem compute_of_ok {α : Type} {f : Scl → Py α} {p : Scl → α → Scl} {s : Scl} {a : α} (h : f s = .ok a) :
    compute f p s = (p s a, .ok ()) := by simp [compute, h]

theorem compute_of_err {α : Type} {f : Scl → Py α} {p : Scl → α → Scl} {s : Scl} {e : Err} (h : f s = .error e) :
    compute f p s = (s, .error e) := by simp [compute, h]

theorem when_ok {c : Scl → Bool} {a : Call} {s s' : Scl} (h : Call.when c a s = (s', .ok ())) :
    (c s = true ∧ a s = (s', .ok ())) ∨ (c s = false ∧ s' = s) := by
  unfold Call.when at h
  cases hc : c s with
  | true => left; rw [hc] at h; exact ⟨rfl, by simpa using h⟩
  | false => right; rw [hc] at h; exact ⟨rfl, by simpa using h.symm⟩

/-! ### Images of single pieces -/

theorem gradImage_of {s : Scl} (hn : s.xScale.n = s.xInit.c) {c : ℝ} {G r : Option Arr2}
    (h : optPy (fun (A : Arr2) => A.bop (· * ·) (invScale s.xScale c 1).row) G = .ok r) : OptRel (GradImage s c) G r := by
  rcases optPy_ok h with ⟨rfl, rfl⟩ | ⟨A, B, rfl, hB, rfl⟩
  · trivial
  · intro hc
    rw [bop_row (by rw [hc]; exact hn.symm)] at hB
    cases hB
    refine ⟨rfl, rfl, fun a _ i _ => ?_⟩
    show A.get a i * ((1 / s.xScale.get i) ^ 1 * c) = _
    rw [pow_one]; ring

theorem gradImage3_of {s : Scl} (hn : s.xScale.n = s.xInit.c) {c : ℝ} {G r : Option Arr3}
    (h : optPy (fun (A : Arr3) => A.bopRow (· * ·) (invScale s.xScale c 1)) G = .ok r) : OptRel (GradImage3 s c) G r := by
  rcases optPy_ok h with ⟨rfl, rfl⟩ | ⟨A, B, rfl, hB, rfl⟩
  · trivial
  · intro hc
    rw [bopRow_ok (by rw [hc]; exact hn.symm)] at hB
    cases hB
    refine ⟨rfl, rfl, rfl, fun a _ b _ i _ => ?_⟩
    show A.get a b i * ((1 / s.xScale.get i) ^ 1 * c) = _
    rw [pow_one]; ring

theorem objInit2Scl_inv {s : Scl} {a r : Obj6} (h : objInit2Scl s a = .ok r) :
    s.obj.isSome = true ∧ r.mu = a.mu.map (fun v => v.map fun y => (y - s.objShift) * s.objScale) ∧
    r.sig = a.sig.map (fun v => v.map fun y => y * s.objScale) ∧
    optPy (fun (A : Arr2) => A.bop (· * ·) (invScale s.xScale s.objScale 1).row) a.dmu = .ok r.dmu ∧
    optPy (fun (A : Arr2) => A.bop (· * ·) (invScale s.xScale s.objScale 1).row) a.dsig = .ok r.dsig ∧
    optPy (fun (A : Arr3) => A.bopRow (· * ·) (invScale s.xScale s.objScale 2)) a.d2mu = .ok r.d2mu ∧
    optPy (fun (A : Arr3) => A.bopRow (· * ·) (invScale s.xScale s.objScale 2)) a.d2sig = .ok r.d2sig := by
  unfold objInit2Scl at h
  obtain ⟨u, hu, h⟩ := bindOk h
  dsimp only at h
  obtain ⟨x1, h1, h⟩ := bindOk h
  obtain ⟨x2, h2, h⟩ := bindOk h
  obtain ⟨x3, h3, h⟩ := bindOk h
  obtain ⟨x4, h4, h⟩ := bindOk h
  cases h
  refine ⟨?_, rfl, rfl, h1, h2, h3, h4⟩
  by_contra hc
  rw [pyAssert_false hc] at hu
  cases hu

theorem sclObj_image {s : Scl} (hn : s.xScale.n = s.xInit.c) {o o' : ObjData} (ho : s.obj = some o) (h : sclObj s = .ok o') :
    ObjImage s o o' := by
  unfold sclObj at h
  rw [ho] at h
  dsimp only at h
  obtain ⟨r, hr, h⟩ := bindOk h
  obtain ⟨-, h1, h2, h3, h4, -, -⟩ := objInit2Scl_inv hr
  rw [h1] at h
  simp only [ObjData.args, Option.map_some] at h
  cases h
  refine ⟨⟨rfl, fun a _ => mul_comm _ _⟩, ?_, gradImage_of hn h3, gradImage_of hn h4⟩
  show OptRel _ o.std r.sig
  rw [h2]
  show OptRel _ o.std (Option.map _ o.std)
  cases o.std with
  | none => trivial
  | some t => exact ⟨rfl, fun a _ => mul_comm _ _⟩

theorem boxInit2Scl_image {s : Scl} (hs : s.xShift.n = s.xInit.c) (hn : s.xScale.n = s.xInit.c) {b b' : Arr1 × Arr1}
    (h : boxInit2Scl s b = .ok b') : BoundImage s b.1 b'.1 ∧ BoundImage s b.2 b'.2 := by
  unfold boxInit2Scl at h
  obtain ⟨l, h1, h⟩ := bindOk h
  obtain ⟨lb, h2, h⟩ := bindOk h
  obtain ⟨u, h3, h⟩ := bindOk h
  obtain ⟨ub, h4, h⟩ := bindOk h
  cases h
  constructor
  · intro hb
    rw [bop1_ok (by rw [hb, hs])] at h1
    cases h1
    rw [bop1_ok (by show s.xScale.n = b.1.n; rw [hn, hb])] at h2
    cases h2
    exact ⟨by rw [hn, hb], fun d _ => mul_comm _ _⟩
  · intro hb
    rw [bop1_ok (by rw [hb, hs])] at h3
    cases h3
    rw [bop1_ok (by show s.xScale.n = b.2.n; rw [hn, hb])] at h4
    cases h4
    exact ⟨by rw [hn, hb], fun d _ => mul_comm _ _⟩

theorem linInit2Scl_image {s : Scl} (hs : s.xShift.n = s.xInit.c) (hn : s.xScale.n = s.xInit.c) {c c' : Arr2 × Arr1 × Arr1}
    (h : linInit2Scl s c = .ok c') : LinImage s c c' := by
  unfold linInit2Scl at h
  obtain ⟨A, h1, h⟩ := bindOk h
  obtain ⟨d, h2, h⟩ := bindOk h
  obtain ⟨lb, h3, h⟩ := bindOk h
  obtain ⟨ub, h4, h⟩ := bindOk h
  cases h
  unfold Arr2.dot at h2
  split at h2
  · rename_i hc
    cases h2
    rw [bop_row (by rw [hc, hs]; exact hn.symm)] at h1
    cases h1
    refine ⟨by rw [hc, hs], rfl, rfl, fun a _ d _ => ?_, fun hb => ?_, fun hb => ?_⟩
    · show c.1.get a d * ((1 / s.xScale.get d) ^ 1 * 1) = _
      rw [pow_one]; ring
    · rw [bop1_ok hb] at h3
      cases h3
      exact ⟨hb, fun a _ => rfl⟩
    · rw [bop1_ok hb] at h4
      cases h4
      exact ⟨hb, fun a _ => rfl⟩
  · cases h2

theorem nlcInit2Scl_image {s : Scl} (hn : s.xScale.n = s.xInit.c) {o o' : NlcData}
    (h : nlcInit2Scl s o = .ok o') : NlcImage s o o' := by
  unfold nlcInit2Scl at h
  obtain ⟨u, hu, h⟩ := bindOk h
  obtain ⟨y, h1, h⟩ := bindOk h
  cases ht : o.std with
  | none => rw [ht] at h; cases h
  | some t =>
    rw [ht] at h
    dsimp only at h
    obtain ⟨g, h2, h⟩ := bindOk h
    obtain ⟨k, h3, h⟩ := bindOk h
    cases h
    refine ⟨fun hc => ?_, ?_, gradImage3_of hn h2, gradImage3_of hn h3⟩
    · rw [bop_row hc] at h1
      cases h1
      exact ⟨rfl, rfl, fun a _ j _ => mul_comm _ _⟩
    · rw [ht]
      exact ⟨rfl, rfl, fun a _ j _ => mul_comm _ _⟩

/-! ### The steps of `set_xscale_data` -/

theorem calcShift_n {s : Scl} {v : Option Arr1} {r : Arr1} (h : calcShift s v = .ok r) :
    v = none ∧ r.n = s.xInit.c := by
  unfold calcShift at h
  cases v with
  | none =>
    refine ⟨rfl, ?_⟩
    dsimp only at h
    split at h
    · obtain ⟨i, -, h⟩ := bindOk h
      cases h; rfl
    · cases h; rfl
  | some v => obtain ⟨u, -, h⟩ := bindOk h; cases h

theorem calcScaleIn_n {s : Scl} {v : Option Arr1} {r : Arr1} (h : calcScaleIn s v = .ok r) :
    r.n = s.xInit.c ∧ (∀ d < r.n, 0 < r.get d) ∧ r = v.getD ⟨s.xInit.c, fun _ => 1⟩ := by
  unfold calcScaleIn at h
  cases v with
  | none => cases h; exact ⟨rfl, fun d _ => one_pos, rfl⟩
  | some v =>
    obtain ⟨u, hu, h⟩ := bindOk h
    obtain ⟨w, hw, h⟩ := bindOk h
    cases h
    refine ⟨?_, ?_, rfl⟩
    · by_contra hc; rw [pyAssert_false hc] at hu; cases hu
    · by_contra hc; rw [pyAssert_false hc] at hw; cases hw

/-- What a successful computation of shift and scale returns. -/
theorem calcXShiftScale_inv {s : Scl} {a b : Option Arr1} {r : Arr1 × Arr1} (h : calcXShiftScale s a b = .ok r) :
    ∃ (X : Arr2) (c : ℝ) (sin : Arr1), a = none ∧ calcShift s none = .ok r.1 ∧ calcScaleIn s b = .ok sin ∧
      r.1.n = s.xInit.c ∧ sin.n = s.xInit.c ∧
      X = ⟨s.xInit.r, s.xInit.c, fun p d => (s.xInit.get p d - r.1.get d) * sin.get d⟩ ∧ calcCoeff s X = .ok c ∧
      r.2 = ⟨s.xInit.c, fun d => sin.get d * c⟩ := by
  unfold calcXShiftScale at h
  obtain ⟨sh, h1, h⟩ := bindOk h
  obtain ⟨sn, h2, h⟩ := bindOk h
  obtain ⟨X1, h3, h⟩ := bindOk h
  obtain ⟨X, h4, h⟩ := bindOk h
  obtain ⟨c, h5, h⟩ := bindOk h
  cases h
  obtain ⟨rfl, hs⟩ := calcShift_n h1
  have hn := (calcScaleIn_n h2).1
  rw [bop_row hs.symm] at h3
  cases h3
  rw [bop_row (by exact hn.symm)] at h4
  cases h4
  exact ⟨_, c, sn, rfl, h1, h2, hs, hn, rfl, h5, by rw [← hn]⟩

theorem xInit2Scl_ok {s : Scl} (hs : s.xShift.n = s.xInit.c) (hn : s.xScale.n = s.xInit.c) {X : Arr2} (hX : X.c = s.xInit.c) :
    xInit2Scl s X = .ok ⟨X.r, X.c, fun p d => sclPt s (X.get p) d⟩ := by
  unfold xInit2Scl
  rw [bop_row (by rw [hX, hs])]
  simp only [ok_bind]
  rw [bop_row (by show X.c = _; rw [hX, hn])]
  rfl

theorem setSclX_ok {s : Scl} (hs : s.xShift.n = s.xInit.c) (hn : s.xScale.n = s.xInit.c) :
    ∃ R, setSclX s = ({ s with xScl := ⟨s.xInit.r, s.xInit.c, fun p d => sclPt s (s.xInit.get p) d⟩, R := R }, .ok ()) ∧
      R.d = s.xInit.c ∧ R.r = s.xInit.r ∧ R.c = s.xInit.r ∧
      ∀ d < s.xInit.c, ∀ a < s.xInit.r, ∀ b < s.xInit.r,
        R.get d a b = sclPt s (s.xInit.get a) d - sclPt s (s.xInit.get b) d := by
  obtain ⟨R, hR, h1, h2, h3, h4⟩ := (Props.C16_rtensor ⟨s.xInit.r, s.xInit.c, fun p d => sclPt s (s.xInit.get p) d⟩
    ⟨s.xInit.r, s.xInit.c, fun p d => sclPt s (s.xInit.get p) d⟩).1 rfl
  refine ⟨R, ?_, h1, h2, h3, h4⟩
  unfold setSclX
  rw [andThen_of_ok (compute_of_ok (xInit2Scl_ok hs hn rfl))]
  rw [compute_of_ok (a := R) (by exact hR)]

end GP
