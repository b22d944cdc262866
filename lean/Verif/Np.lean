import Mathlib.Data.Real.Basic
import Mathlib.Algebra.BigOperators.Intervals
import Mathlib.Data.List.GetD
import Mathlib.Tactic.Linarith
import Mathlib.Tactic.Ring

/-!
# A small numpy

Arrays are a shape and an index function; entries outside of the shape are irrelevant.
Slice assignment, boolean-mask indexing, broadcasting and the resulting shape errors follow numpy
(and numba) semantics.  Python exceptions are values of `Except Err`.  Floats are modelled by `ℝ`.
-/

namespace Np

/-- The kinds of Python exceptions that the modelled code can raise. -/
inductive Err where
  | shape      -- ValueError: operands could not be broadcast / cannot assign slice
  | index      -- IndexError
  | assertion  -- AssertionError
  | attribute  -- AttributeError
  | typeError  -- TypeError
  | raised     -- an explicit `raise Exception(...)`
  | linalg     -- numpy.linalg.LinAlgError
  deriving DecidableEq, Repr

/-- A Python computation: a value or an exception. -/
abbrev Py (α : Type) := Except Err α

@[simp] theorem ok_bind {α β : Type} (a : α) (f : α → Py β) : ((Except.ok a : Py α) >>= f) = f a := rfl
@[simp] theorem pure_eq_ok {α : Type} (a : α) : (pure a : Py α) = Except.ok a := rfl
@[simp] theorem error_bind {α β : Type} (e : Err) (f : α → Py β) :
    ((Except.error e : Py α) >>= f) = Except.error e := rfl
@[simp] theorem ok_map {α β : Type} (a : α) (f : α → β) :
    (f <$> (Except.ok a : Py α)) = Except.ok (f a) := rfl
@[simp] theorem error_map {α β : Type} (e : Err) (f : α → β) :
    (f <$> (Except.error e : Py α)) = Except.error e := rfl

/-- `assert cond`. -/
def pyAssert (b : Prop) [Decidable b] : Py Unit := if b then .ok () else .error .assertion

@[simp] theorem pyAssert_true {b : Prop} [Decidable b] (h : b) : pyAssert b = .ok () := by
  simp [pyAssert, h]
@[simp] theorem pyAssert_false {b : Prop} [Decidable b] (h : ¬ b) : pyAssert b = .error .assertion := by
  simp [pyAssert, h]

/-- `for i in range(lo, hi): acc = body(i, acc)`. -/
def forRange {α : Type} (lo hi : ℕ) (init : α) (body : ℕ → α → Py α) : Py α :=
  (List.range' lo (hi - lo)).foldlM (fun a i => body i a) init

/-- Loop invariant rule: the loop terminates without exception and establishes `P hi`. -/
theorem forRange_inv {α : Type} (P : ℕ → α → Prop) {lo hi : ℕ} (hle : lo ≤ hi) {init : α}
    {body : ℕ → α → Py α} (h0 : P lo init)
    (hs : ∀ i a, lo ≤ i → i < hi → P i a → ∃ a', body i a = .ok a' ∧ P (i + 1) a') :
    ∃ a', forRange lo hi init body = .ok a' ∧ P hi a' := by
  obtain ⟨n, rfl⟩ := Nat.exists_eq_add_of_le hle
  unfold forRange
  rw [Nat.add_sub_cancel_left]
  clear hle
  induction n with
  | zero => exact ⟨init, by simp, by simpa using h0⟩
  | succ n ih =>
    obtain ⟨a, ha, hP⟩ := ih (fun i a h1 h2 => hs i a h1 (by omega))
    obtain ⟨a', ha', hP'⟩ := hs (lo + n) a (by omega) (by omega) hP
    refine ⟨a', ?_, by simpa [Nat.add_assoc] using hP'⟩
    rw [List.range'_1_concat, List.foldlM_append, ha]
    simp [ha']

/-- The loop raises if its first iteration raises. -/
theorem forRange_error_first {α : Type} {lo hi : ℕ} (h : lo < hi) {init : α}
    {body : ℕ → α → Py α} {e : Err} (he : body lo init = .error e) :
    forRange lo hi init body = .error e := by
  unfold forRange
  obtain ⟨n, hn⟩ : ∃ n, hi - lo = n + 1 := ⟨hi - lo - 1, by omega⟩
  rw [hn, List.range'_succ, List.foldlM_cons, he]
  rfl

/-- A loop whose invariant holds up to iteration `k` and which raises at iteration `k`. -/
theorem forRange_error_at {α : Type} (P : ℕ → α → Prop) {lo hi k : ℕ} (hlo : lo ≤ k) (hk : k < hi)
    {init : α} {body : ℕ → α → Py α} {e : Err} (h0 : P lo init)
    (hs : ∀ i a, lo ≤ i → i < k → P i a → ∃ a', body i a = .ok a' ∧ P (i + 1) a')
    (he : ∀ a, P k a → body k a = .error e) :
    forRange lo hi init body = .error e := by
  obtain ⟨a, ha, hP⟩ := forRange_inv P hlo h0 hs
  unfold forRange at ha ⊢
  have hsplit : List.range' lo (hi - lo) = List.range' lo (k - lo) ++ (k :: List.range' (k+1) (hi - k - 1)) := by
    rw [← List.range'_succ]
    have h1 : hi - lo = (k - lo) + (hi - k - 1 + 1) := by omega
    rw [h1, List.range'_append_1 .. |>.symm]
    have h2 : lo + (k - lo) = k := by omega
    rw [h2]
  rw [hsplit, List.foldlM_append, ha]
  simp only [ok_bind, List.foldlM_cons, he a hP]
  rfl

/-! ## Arrays -/

/-- 1-d array. -/
structure Arr1 where
  n : ℕ
  get : ℕ → ℝ

/-- 2-d array. -/
structure Arr2 where
  r : ℕ
  c : ℕ
  get : ℕ → ℕ → ℝ

/-- 3-d array. -/
structure Arr3 where
  d : ℕ
  r : ℕ
  c : ℕ
  get : ℕ → ℕ → ℕ → ℝ

namespace Arr1
/-- `a[i]`. -/
def at' (a : Arr1) (i : ℕ) : Py ℝ := if i < a.n then .ok (a.get i) else .error .index
@[simp] theorem at'_ok {a : Arr1} {i : ℕ} (h : i < a.n) : a.at' i = .ok (a.get i) := by simp [at', h]
/-- A ufunc on every entry. -/
def map (f : ℝ → ℝ) (a : Arr1) : Arr1 := ⟨a.n, fun i => f (a.get i)⟩
end Arr1

/-- Result size of broadcasting two axes, if compatible. -/
def bdim (a b : ℕ) : Option ℕ := if a = b then some a else if a = 1 then some b else if b = 1 then some a else none

/-- Index into an axis of size `a` broadcast to size `n`. -/
def bidx (a n i : ℕ) : ℕ := if a = n then i else 0

@[simp] theorem bdim_self (a : ℕ) : bdim a a = some a := by simp [bdim]
@[simp] theorem bidx_self (a i : ℕ) : bidx a a i = i := by simp [bidx]

namespace Arr2

/-- `np.zeros((r, c))`. -/
def zeros (r c : ℕ) : Arr2 := ⟨r, c, fun _ _ => 0⟩
@[simp] theorem zeros_r (r c) : (zeros r c).r = r := (rfl)
@[simp] theorem zeros_c (r c) : (zeros r c).c = c := (rfl)
@[simp] theorem zeros_get (r c i j) : (zeros r c).get i j = 0 := rfl

/-- A ufunc on every entry. -/
def map (f : ℝ → ℝ) (A : Arr2) : Arr2 := ⟨A.r, A.c, fun i j => f (A.get i j)⟩
@[simp] theorem map_r (f A) : (map f A).r = A.r := (rfl)
@[simp] theorem map_c (f A) : (map f A).c = A.c := (rfl)
@[simp] theorem map_get (f A i j) : (map f A).get i j = f (A.get i j) := rfl

/-- Transpose `A.T`. -/
def T (A : Arr2) : Arr2 := ⟨A.c, A.r, fun i j => A.get j i⟩
@[simp] theorem T_r (A) : (T A).r = A.c := (rfl)
@[simp] theorem T_c (A) : (T A).c = A.r := (rfl)
@[simp] theorem T_get (A i j) : (T A).get i j = A.get j i := rfl

/-- Elementwise binary operation with broadcasting. -/
def bop (f : ℝ → ℝ → ℝ) (A B : Arr2) : Py Arr2 :=
  match bdim A.r B.r, bdim A.c B.c with
  | some r, some c => .ok ⟨r, c, fun i j =>
      f (A.get (bidx A.r r i) (bidx A.c c j)) (B.get (bidx B.r r i) (bidx B.c c j))⟩
  | _, _ => .error .shape

theorem bop_ok {f : ℝ → ℝ → ℝ} {A B : Arr2} (hr : A.r = B.r) (hc : A.c = B.c) :
    bop f A B = .ok ⟨A.r, A.c, fun i j => f (A.get i j) (B.get i j)⟩ := by
  simp [bop, ← hr, ← hc]

/-- Incompatible number of columns. -/
theorem bop_error_c {f : ℝ → ℝ → ℝ} {A B : Arr2} (h : bdim A.c B.c = none) :
    bop f A B = .error .shape := by
  unfold bop; rw [h]; cases bdim A.r B.r <;> rfl

/-- `A * B` (elementwise). -/
def mul (A B : Arr2) : Py Arr2 := bop (· * ·) A B
/-- `A + B`. -/
def add (A B : Arr2) : Py Arr2 := bop (· + ·) A B
/-- `A - B`. -/
def sub (A B : Arr2) : Py Arr2 := bop (· - ·) A B
/-- `x * A`. -/
def smul (x : ℝ) (A : Arr2) : Arr2 := A.map (x * ·)
@[simp] theorem smul_r (x A) : (smul x A).r = A.r := (rfl)
@[simp] theorem smul_c (x A) : (smul x A).c = A.c := (rfl)
@[simp] theorem smul_get (x A i j) : (smul x A).get i j = x * A.get i j := rfl

theorem mul_ok {A B : Arr2} (hr : A.r = B.r) (hc : A.c = B.c) :
    A.mul B = .ok ⟨A.r, A.c, fun i j => A.get i j * B.get i j⟩ := bop_ok hr hc
theorem add_ok {A B : Arr2} (hr : A.r = B.r) (hc : A.c = B.c) :
    A.add B = .ok ⟨A.r, A.c, fun i j => A.get i j + B.get i j⟩ := bop_ok hr hc
theorem sub_ok {A B : Arr2} (hr : A.r = B.r) (hc : A.c = B.c) :
    A.sub B = .ok ⟨A.r, A.c, fun i j => A.get i j - B.get i j⟩ := bop_ok hr hc

/-- In-place update of a slice, `A[r1:r2, c1:c2] op= V`: slices are clamped to the array and `V`
is broadcast to the shape of the slice; a shape mismatch raises. `f old new` is the entry written. -/
def modSlice (f : ℝ → ℝ → ℝ) (A : Arr2) (r1 r2 c1 c2 : ℕ) (V : Arr2) : Py Arr2 :=
  let lr := min r2 A.r - min r1 A.r
  let lc := min c2 A.c - min c1 A.c
  if (V.r = lr ∨ V.r = 1) ∧ (V.c = lc ∨ V.c = 1) then
    .ok ⟨A.r, A.c, fun i j =>
      if r1 ≤ i ∧ i < r2 ∧ c1 ≤ j ∧ j < c2 then
        f (A.get i j) (V.get (bidx V.r lr (i - r1)) (bidx V.c lc (j - c1)))
      else A.get i j⟩
  else .error .shape

/-- `A[r1:r2, c1:c2] = V`. -/
def setSlice (A : Arr2) (r1 r2 c1 c2 : ℕ) (V : Arr2) : Py Arr2 := modSlice (fun _ v => v) A r1 r2 c1 c2 V
/-- `A[r1:r2, c1:c2] += V`. -/
def addSlice (A : Arr2) (r1 r2 c1 c2 : ℕ) (V : Arr2) : Py Arr2 := modSlice (fun o v => o + v) A r1 r2 c1 c2 V
/-- `A[r1:r2, c1:c2] -= V`. -/
def subSlice (A : Arr2) (r1 r2 c1 c2 : ℕ) (V : Arr2) : Py Arr2 := modSlice (fun o v => o - v) A r1 r2 c1 c2 V

/-- The array after a well-shaped slice update. -/
def upd (f : ℝ → ℝ → ℝ) (A : Arr2) (r1 r2 c1 c2 : ℕ) (V : Arr2) : Arr2 :=
  ⟨A.r, A.c, fun i j =>
      if r1 ≤ i ∧ i < r2 ∧ c1 ≤ j ∧ j < c2 then f (A.get i j) (V.get (i - r1) (j - c1)) else A.get i j⟩
@[simp] theorem upd_r (f A r1 r2 c1 c2 V) : (upd f A r1 r2 c1 c2 V).r = A.r := (rfl)
@[simp] theorem upd_c (f A r1 r2 c1 c2 V) : (upd f A r1 r2 c1 c2 V).c = A.c := (rfl)
theorem upd_get (f A r1 r2 c1 c2 V i j) : (upd f A r1 r2 c1 c2 V).get i j =
    if r1 ≤ i ∧ i < r2 ∧ c1 ≤ j ∧ j < c2 then f (A.get i j) (V.get (i - r1) (j - c1)) else A.get i j := rfl

theorem modSlice_ok {f : ℝ → ℝ → ℝ} {A V : Arr2} {r1 r2 c1 c2 : ℕ}
    (h1 : r1 + V.r = r2) (h2 : r2 ≤ A.r) (h3 : c1 + V.c = c2) (h4 : c2 ≤ A.c) :
    modSlice f A r1 r2 c1 c2 V = .ok (upd f A r1 r2 c1 c2 V) := by
  have hr : min r2 A.r - min r1 A.r = V.r := by omega
  have hc : min c2 A.c - min c1 A.c = V.c := by omega
  simp [modSlice, upd, hr, hc]

/-- `A[r1:r2, c1:c2]` (clamped). -/
def slice (A : Arr2) (r1 r2 c1 c2 : ℕ) : Arr2 :=
  ⟨min r2 A.r - min r1 A.r, min c2 A.c - min c1 A.c, fun i j => A.get (i + min r1 A.r) (j + min c1 A.c)⟩

end Arr2

namespace Arr3

/-- `np.zeros((d, r, c))`. -/
def zeros (d r c : ℕ) : Arr3 := ⟨d, r, c, fun _ _ _ => 0⟩
@[simp] theorem zeros_d (d r c) : (zeros d r c).d = d := (rfl)
@[simp] theorem zeros_r (d r c) : (zeros d r c).r = r := (rfl)
@[simp] theorem zeros_c (d r c) : (zeros d r c).c = c := (rfl)
@[simp] theorem zeros_get (d r c i j k) : (zeros d r c).get i j k = 0 := rfl

/-- A ufunc on every entry. -/
def map (f : ℝ → ℝ) (A : Arr3) : Arr3 := ⟨A.d, A.r, A.c, fun i j k => f (A.get i j k)⟩
@[simp] theorem map_d (f A) : (map f A).d = A.d := (rfl)
@[simp] theorem map_r (f A) : (map f A).r = A.r := (rfl)
@[simp] theorem map_c (f A) : (map f A).c = A.c := (rfl)
@[simp] theorem map_get (f A i j k) : (map f A).get i j k = f (A.get i j k) := rfl

/-- The 2-d array `A[i]` without bounds check (specification helper). -/
def slabD (A : Arr3) (i : ℕ) : Arr2 := ⟨A.r, A.c, fun p q => A.get i p q⟩
@[simp] theorem slabD_r (A i) : (slabD A i).r = A.r := (rfl)
@[simp] theorem slabD_c (A i) : (slabD A i).c = A.c := (rfl)
@[simp] theorem slabD_get (A i p q) : (slabD A i).get p q = A.get i p q := rfl

/-- `A[i]`, `A[i,:,:]`. -/
def slab (A : Arr3) (i : ℕ) : Py Arr2 := if i < A.d then .ok (slabD A i) else .error .index
@[simp] theorem slab_ok {A : Arr3} {i : ℕ} (h : i < A.d) : A.slab i = .ok (A.slabD i) := by simp [slab, h]

/-- Replace slab `k`. -/
def putSlab (A : Arr3) (k : ℕ) (B : Arr2) : Arr3 :=
  ⟨A.d, A.r, A.c, fun d i j => if d = k then B.get i j else A.get d i j⟩
@[simp] theorem putSlab_d (A k B) : (putSlab A k B).d = A.d := (rfl)
@[simp] theorem putSlab_r (A k B) : (putSlab A k B).r = A.r := (rfl)
@[simp] theorem putSlab_c (A k B) : (putSlab A k B).c = A.c := (rfl)
theorem putSlab_get (A k B d i j) : (putSlab A k B).get d i j = if d = k then B.get i j else A.get d i j := rfl

/-- In-place update `A[k, r1:r2, c1:c2] op= V`. -/
def modSlice (f : ℝ → ℝ → ℝ) (A : Arr3) (k r1 r2 c1 c2 : ℕ) (V : Arr2) : Py Arr3 := do
  let S ← A.slab k
  let S' ← S.modSlice f r1 r2 c1 c2 V
  pure (A.putSlab k S')
/-- `A[k, r1:r2, c1:c2] = V`. -/
def setSlice (A : Arr3) (k r1 r2 c1 c2 : ℕ) (V : Arr2) : Py Arr3 := modSlice (fun _ v => v) A k r1 r2 c1 c2 V
/-- `A[k, r1:r2, c1:c2] += V`. -/
def addSlice (A : Arr3) (k r1 r2 c1 c2 : ℕ) (V : Arr2) : Py Arr3 := modSlice (fun o v => o + v) A k r1 r2 c1 c2 V
/-- `A[k, r1:r2, c1:c2] -= V`. -/
def subSlice (A : Arr3) (k r1 r2 c1 c2 : ℕ) (V : Arr2) : Py Arr3 := modSlice (fun o v => o - v) A k r1 r2 c1 c2 V

/-- The array after a well-shaped slice update. -/
def upd (f : ℝ → ℝ → ℝ) (A : Arr3) (k r1 r2 c1 c2 : ℕ) (V : Arr2) : Arr3 :=
  ⟨A.d, A.r, A.c, fun d i j =>
      if d = k ∧ r1 ≤ i ∧ i < r2 ∧ c1 ≤ j ∧ j < c2 then f (A.get d i j) (V.get (i - r1) (j - c1))
      else A.get d i j⟩
@[simp] theorem upd_d (f A k r1 r2 c1 c2 V) : (upd f A k r1 r2 c1 c2 V).d = A.d := (rfl)
@[simp] theorem upd_r (f A k r1 r2 c1 c2 V) : (upd f A k r1 r2 c1 c2 V).r = A.r := (rfl)
@[simp] theorem upd_c (f A k r1 r2 c1 c2 V) : (upd f A k r1 r2 c1 c2 V).c = A.c := (rfl)
theorem upd_get (f A k r1 r2 c1 c2 V d i j) : (upd f A k r1 r2 c1 c2 V).get d i j =
    if d = k ∧ r1 ≤ i ∧ i < r2 ∧ c1 ≤ j ∧ j < c2 then f (A.get d i j) (V.get (i - r1) (j - c1))
      else A.get d i j := rfl

theorem modSlice_ok {f : ℝ → ℝ → ℝ} {A : Arr3} {V : Arr2} {k r1 r2 c1 c2 : ℕ} (hk : k < A.d)
    (h1 : r1 + V.r = r2) (h2 : r2 ≤ A.r) (h3 : c1 + V.c = c2) (h4 : c2 ≤ A.c) :
    modSlice f A k r1 r2 c1 c2 V = .ok (upd f A k r1 r2 c1 c2 V) := by
  unfold modSlice
  rw [slab_ok hk, ok_bind, Arr2.modSlice_ok h1 (by simpa using h2) h3 (by simpa using h4)]
  simp only [ok_bind, pure_eq_ok, putSlab, upd, Except.ok.injEq, Arr3.mk.injEq, true_and]
  funext d i j
  by_cases hd : d = k
  · subst hd; simp [Arr2.upd_get]
  · simp [hd]

/-- `A[:, :, :c] = B` for a 3-d `B` of the slice's shape. -/
def setCols (A : Arr3) (c : ℕ) (B : Arr3) : Py Arr3 :=
  if B.d = A.d ∧ B.r = A.r ∧ B.c = min c A.c then
    .ok ⟨A.d, A.r, A.c, fun d i j => if j < c then B.get d i j else A.get d i j⟩
  else .error .shape

end Arr3

/-! ## Boolean masks -/

/-- Positions of the true entries, in order. -/
def selIdx (m : List Bool) : List ℕ := (List.range m.length).filter (fun i => m.getD i false)

/-- `np.sum(mask)`. -/
def nTrue (m : List Bool) : ℕ := (selIdx m).length

/-- The source index of masked row `a`. -/
def sel (m : List Bool) (a : ℕ) : ℕ := (selIdx m).getD a 0

theorem sel_mem {m : List Bool} {a : ℕ} (h : a < nTrue m) : sel m a ∈ selIdx m := by
  unfold sel; unfold nTrue at h
  rw [List.getD_eq_getElem _ _ h]; exact List.getElem_mem h

theorem sel_lt {m : List Bool} {a : ℕ} (h : a < nTrue m) : sel m a < m.length := by
  have := sel_mem h
  simp only [selIdx, List.mem_filter, List.mem_range] at this
  exact this.1

theorem sel_true {m : List Bool} {a : ℕ} (h : a < nTrue m) : m.getD (sel m a) false = true := by
  have := sel_mem h
  simp only [selIdx, List.mem_filter, List.mem_range] at this
  exact this.2

theorem nTrue_le (m : List Bool) : nTrue m ≤ m.length := by
  unfold nTrue selIdx
  exact (List.length_filter_le _ _).trans (by simp)

theorem selIdx_sorted (m : List Bool) : (selIdx m).Pairwise (· < ·) :=
  (List.pairwise_lt_range).filter _

/-- Mask indices are strictly increasing: order is preserved. -/
theorem sel_strictMono {m : List Bool} {a b : ℕ} (hab : a < b) (hb : b < nTrue m) : sel m a < sel m b := by
  unfold sel; unfold nTrue at hb
  rw [List.getD_eq_getElem _ _ hb, List.getD_eq_getElem _ _ (hab.trans hb)]
  exact List.pairwise_iff_getElem.mp (selIdx_sorted m) a b (hab.trans hb) hb hab

/-- Every true position is selected. -/
theorem sel_surj {m : List Bool} {p : ℕ} (hp : p < m.length) (ht : m.getD p false = true) :
    ∃ a, a < nTrue m ∧ sel m a = p := by
  have : p ∈ selIdx m := by simp only [selIdx, List.mem_filter, List.mem_range]; exact ⟨hp, ht⟩
  obtain ⟨a, ha, hpa⟩ := List.getElem_of_mem this
  exact ⟨a, ha, by unfold sel; rw [List.getD_eq_getElem _ _ ha, hpa]⟩

theorem sel_injective {m : List Bool} {a b : ℕ} (ha : a < nTrue m) (hb : b < nTrue m)
    (h : sel m a = sel m b) : a = b := by
  rcases lt_trichotomy a b with h1 | h1 | h1
  · have := sel_strictMono h1 hb; omega
  · exact h1
  · have := sel_strictMono h1 ha; omega

/-- `A[mask, :]`. -/
def Arr2.maskRows (A : Arr2) (m : List Bool) : Py Arr2 :=
  if m.length = A.r then .ok ⟨nTrue m, A.c, fun i j => A.get (sel m i) j⟩ else .error .index
/-- `A[:, mask]`. -/
def Arr2.maskCols (A : Arr2) (m : List Bool) : Py Arr2 :=
  if m.length = A.c then .ok ⟨A.r, nTrue m, fun i j => A.get i (sel m j)⟩ else .error .index
/-- `A[:, mask, :]`. -/
def Arr3.maskRows (A : Arr3) (m : List Bool) : Py Arr3 :=
  if m.length = A.r then .ok ⟨A.d, nTrue m, A.c, fun d i j => A.get d (sel m i) j⟩ else .error .index
/-- `A[:, :, mask]`. -/
def Arr3.maskCols (A : Arr3) (m : List Bool) : Py Arr3 :=
  if m.length = A.c then .ok ⟨A.d, A.r, nTrue m, fun d i j => A.get d i (sel m j)⟩ else .error .index

theorem Arr2.maskRows_ok {A : Arr2} {m} (h : m.length = A.r) :
    A.maskRows m = .ok ⟨nTrue m, A.c, fun i j => A.get (sel m i) j⟩ := by simp [Arr2.maskRows, h]
theorem Arr2.maskCols_ok {A : Arr2} {m} (h : m.length = A.c) :
    A.maskCols m = .ok ⟨A.r, nTrue m, fun i j => A.get i (sel m j)⟩ := by simp [Arr2.maskCols, h]
theorem Arr3.maskRows_ok {A : Arr3} {m} (h : m.length = A.r) :
    A.maskRows m = .ok ⟨A.d, nTrue m, A.c, fun d i j => A.get d (sel m i) j⟩ := by simp [Arr3.maskRows, h]
theorem Arr3.maskCols_ok {A : Arr3} {m} (h : m.length = A.c) :
    A.maskCols m = .ok ⟨A.d, A.r, nTrue m, fun d i j => A.get d i (sel m j)⟩ := by simp [Arr3.maskCols, h]

/-! ## Block index arithmetic -/

/-- Position `n + I*g + a` lies in the row slice of block `i` iff `I = i`. -/
theorem blk_iff {n g i I a : ℕ} (ha : a < g) :
    (n + i * g ≤ n + I * g + a ∧ n + I * g + a < n + i * g + g) ↔ I = i := by
  constructor
  · rintro ⟨h1, h2⟩
    rcases lt_trichotomy I i with h | h | h
    · have : (I + 1) * g ≤ i * g := Nat.mul_le_mul_right g h
      rw [Nat.add_mul, Nat.one_mul] at this; omega
    · exact h
    · have : (i + 1) * g ≤ I * g := Nat.mul_le_mul_right g h
      rw [Nat.add_mul, Nat.one_mul] at this; omega
  · rintro rfl; omega

theorem blk_iff0 {g i I a : ℕ} (ha : a < g) :
    (i * g ≤ I * g + a ∧ I * g + a < i * g + g) ↔ I = i := by
  have := @blk_iff 0 g i I a ha
  simpa using this

theorem blk_le {g i dim : ℕ} (h : i < dim) : i * g + g ≤ g * dim := by
  have : (i + 1) * g ≤ dim * g := Nat.mul_le_mul_right g h
  rw [Nat.add_mul, Nat.one_mul, Nat.mul_comm dim] at this; exact this

theorem blk_lt {n g i a dim : ℕ} (h : i < dim) (ha : a < g) : n + i * g + a < n + g * dim := by
  have := blk_le (g := g) h; omega

/-- Every row is a value row or a gradient row. -/
theorem row_cases {n g dim p : ℕ} (hp : p < n + g * dim) :
    p < n ∨ ∃ i a, i < dim ∧ a < g ∧ p = n + i * g + a := by
  by_cases h : p < n
  · exact .inl h
  · right
    have hg : 0 < g := by
      rcases Nat.eq_zero_or_pos g with h0 | h0
      · subst h0; simp at hp; omega
      · exact h0
    refine ⟨(p - n) / g, (p - n) % g, ?_, Nat.mod_lt _ hg, ?_⟩
    · rw [Nat.div_lt_iff_lt_mul hg, Nat.mul_comm]; omega
    · have := Nat.div_add_mod (p - n) g
      rw [Nat.mul_comm] at this; omega

end Np
