import Verif.Proofs.Block

/-! Additive (accumulating) updates of 3-d arrays: every statement adds a contribution. -/

namespace Np

/-- `V a b` when both local indices exist, else zero. -/
def pairVal (V : ℕ → ℕ → ℝ) : Option ℕ → Option ℕ → ℝ
  | some a, some b => V a b
  | _, _ => 0
@[simp] theorem pairVal_some (V a b) : pairVal V (some a) (some b) = V a b := rfl
@[simp] theorem pairVal_none_left (V o) : pairVal V none o = 0 := by cases o <;> rfl
@[simp] theorem pairVal_none_right (V o) : pairVal V o none = 0 := by cases o <;> rfl
theorem pairVal_gg (V : ℕ → ℕ → ℝ) (i j I J a b : ℕ) :
    pairVal V (if I = i then some a else none) (if J = j then some b else none) =
      if I = i ∧ J = j then V a b else 0 := by
  by_cases h1 : I = i <;> by_cases h2 : J = j <;> simp [h1, h2]
theorem pairVal_gs (V : ℕ → ℕ → ℝ) (i I a b : ℕ) :
    pairVal V (if I = i then some a else none) (some b) = if I = i then V a b else 0 := by
  by_cases h1 : I = i <;> simp [h1]
theorem pairVal_sg (V : ℕ → ℕ → ℝ) (j J a b : ℕ) :
    pairVal V (some a) (if J = j then some b else none) = if J = j then V a b else 0 := by
  by_cases h1 : J = j <;> simp [h1]

/-- The contribution of `A[k, s, t] += V` at `(d, x, y)`. -/
def contrib (k : ℕ) (s t : Sl) (V : ℕ → ℕ → ℝ) (d : ℕ) (x y : Ix) : ℝ :=
  if d = k then pairVal V (s.hit x) (t.hit y) else 0

/-- `body` never raises on arrays of this shape and adds `C` to every entry. -/
def Adds (D n1 g1 n2 g2 dim : ℕ) (body : Arr3 → Py Arr3) (C : ℕ → Ix → Ix → ℝ) : Prop :=
  ∀ A F, Rep3 D n1 g1 n2 g2 dim A F → ∃ A', body A = .ok A' ∧
    Rep3 D n1 g1 n2 g2 dim A' (fun k x y => F k x y + C k x y)

variable {D n1 g1 n2 g2 dim : ℕ}

theorem Adds.congr {body body' : Arr3 → Py Arr3} {C C' : ℕ → Ix → Ix → ℝ}
    (h : Adds D n1 g1 n2 g2 dim body C) (hb : ∀ A, body' A = body A)
    (e : ∀ k x y, k < D → x.ok n1 g1 dim → y.ok n2 g2 dim → C k x y = C' k x y) :
    Adds D n1 g1 n2 g2 dim body' C' := by
  intro A F hA
  obtain ⟨A', h1, h2⟩ := h A F hA
  exact ⟨A', by rw [hb, h1], h2.congr fun k x y hk hx hy => by rw [e k x y hk hx hy]⟩

theorem Adds.bind {b1 b2 : Arr3 → Py Arr3} {C1 C2 : ℕ → Ix → Ix → ℝ}
    (h1 : Adds D n1 g1 n2 g2 dim b1 C1) (h2 : Adds D n1 g1 n2 g2 dim b2 C2) :
    Adds D n1 g1 n2 g2 dim (fun A => b1 A >>= b2) (fun k x y => C1 k x y + C2 k x y) := by
  intro A F hA
  obtain ⟨A1, e1, r1⟩ := h1 A F hA
  obtain ⟨A2, e2, r2⟩ := h2 A1 _ r1
  exact ⟨A2, by show (b1 A >>= b2) = _; rw [e1, ok_bind, e2], r2.congr fun k x y _ _ _ => by ring⟩

theorem Adds.forRange {lo hi : ℕ} (hle : lo ≤ hi) {body : ℕ → Arr3 → Py Arr3} {C : ℕ → ℕ → Ix → Ix → ℝ}
    (h : ∀ i, lo ≤ i → i < hi → Adds D n1 g1 n2 g2 dim (body i) (C i)) :
    Adds D n1 g1 n2 g2 dim (fun A => Np.forRange lo hi A body)
      (fun k x y => ∑ i ∈ Finset.Ico lo hi, C i k x y) := by
  intro A F hA
  have := forRange_inv (fun i A => Rep3 D n1 g1 n2 g2 dim A
    (fun k x y => F k x y + ∑ j ∈ Finset.Ico lo i, C j k x y)) hle (init := A) (body := body)
    (by simpa using hA)
    (by
      intro i A' h1 h2 hA'
      obtain ⟨A2, e2, r2⟩ := h i h1 h2 A' _ hA'
      refine ⟨A2, e2, r2.congr ?_⟩
      intro k x y _ _ _
      rw [Finset.sum_Ico_succ_top h1]; ring)
  exact this

theorem Adds.add {V : Arr2} (k : ℕ) (hk : k < D) (s t : Sl) (hs : s.ok dim) (ht : t.ok dim)
    (hr : V.r = s.len n1 g1) (hc : V.c = t.len n2 g2) :
    Adds D n1 g1 n2 g2 dim
      (fun A => A.addSlice k (s.lo n1 g1) (s.hi n1 g1) (t.lo n2 g2) (t.hi n2 g2) V)
      (contrib k s t V.get) := by
  intro A F hA
  obtain ⟨A', e, r⟩ := hA.mod (fun o v => o + v) k hk s t hs ht hr hc
  refine ⟨A', e, r.congr ?_⟩
  intro d x y _ _ _
  unfold contrib symUpd
  by_cases hd : d = k
  · simp only [hd, if_true]; rcases s.hit x with _ | a <;> rcases t.hit y with _ | b <;> simp
  · simp [hd]

theorem Adds.sub {V : Arr2} (k : ℕ) (hk : k < D) (s t : Sl) (hs : s.ok dim) (ht : t.ok dim)
    (hr : V.r = s.len n1 g1) (hc : V.c = t.len n2 g2) :
    Adds D n1 g1 n2 g2 dim
      (fun A => A.subSlice k (s.lo n1 g1) (s.hi n1 g1) (t.lo n2 g2) (t.hi n2 g2) V)
      (contrib k s t (fun a b => -V.get a b)) := by
  intro A F hA
  obtain ⟨A', e, r⟩ := hA.mod (fun o v => o - v) k hk s t hs ht hr hc
  refine ⟨A', e, r.congr ?_⟩
  intro d x y _ _ _
  unfold contrib symUpd
  by_cases hd : d = k
  · simp only [hd, if_true]; rcases s.hit x with _ | a <;> rcases t.hit y with _ | b <;> simp [sub_eq_add_neg]
  · simp [hd]

/-- Overwriting a block that is still zero adds its contribution. -/
theorem Rep3.set_zero {A : Arr3} {V : Arr2} {F : ℕ → Ix → Ix → ℝ} (hA : Rep3 D n1 g1 n2 g2 dim A F)
    (k : ℕ) (hk : k < D) (s t : Sl) (hs : s.ok dim) (ht : t.ok dim)
    (hr : V.r = s.len n1 g1) (hc : V.c = t.len n2 g2)
    (h0 : ∀ x y, (s.hit x).isSome → (t.hit y).isSome → F k x y = 0) :
    ∃ A', A.setSlice k (s.lo n1 g1) (s.hi n1 g1) (t.lo n2 g2) (t.hi n2 g2) V = .ok A' ∧
      Rep3 D n1 g1 n2 g2 dim A' (fun d x y => F d x y + contrib k s t V.get d x y) := by
  obtain ⟨A', e, r⟩ := hA.mod (fun _ v => v) k hk s t hs ht hr hc
  refine ⟨A', e, r.congr ?_⟩
  intro d x y _ _ _
  unfold contrib symUpd
  by_cases hd : d = k
  · subst hd
    simp only [if_true]
    rcases hx : s.hit x with _ | a <;> rcases hy : t.hit y with _ | b <;> simp
    exact h0 x y (by simp [hx]) (by simp [hy])
  · simp [hd]

/-- Slices of a represented matrix. -/
theorem Rep.slice {A : Arr2} {F : Ix → Ix → ℝ} (h : Rep n1 g1 n2 g2 dim A F) {s t : Sl} (hs : s.ok dim)
    (ht : t.ok dim) :
    (A.slice (s.lo n1 g1) (s.hi n1 g1) (t.lo n2 g2) (t.hi n2 g2)).r = s.len n1 g1 ∧
    (A.slice (s.lo n1 g1) (s.hi n1 g1) (t.lo n2 g2) (t.hi n2 g2)).c = t.len n2 g2 ∧
    ∀ x y a b, x.ok n1 g1 dim → y.ok n2 g2 dim → s.hit x = some a → t.hit y = some b →
      (A.slice (s.lo n1 g1) (s.hi n1 g1) (t.lo n2 g2) (t.hi n2 g2)).get a b = F x y := by
  have hs1 := Sl.lo_add_len n1 g1 s
  have hs2 := Sl.hi_le (n := n1) (g := g1) hs
  have ht1 := Sl.lo_add_len n2 g2 t
  have ht2 := Sl.hi_le (n := n2) (g := g2) ht
  have hr := h.r
  have hc := h.c
  refine ⟨?_, ?_, ?_⟩
  · simp only [Arr2.slice]; omega
  · simp only [Arr2.slice]; omega
  · intro x y a b hx hy hxa hyb
    obtain ⟨p1, p2⟩ := Sl.hit_some hx hxa
    obtain ⟨q1, q2⟩ := Sl.hit_some hy hyb
    rw [← h.get x y hx hy]
    simp only [Arr2.slice]
    congr 1 <;> omega

end Np
