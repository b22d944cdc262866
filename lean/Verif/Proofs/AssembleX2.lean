import Verif.Proofs.AssembleX

/-! Accumulating x-derivative loops (Matérn and rational quadratic). -/

namespace Np

/-- Target of the accumulating `hess_x` loops. -/
def hxAccTarget (W : ℕ → ℕ → ℕ → ℝ) (V : ℕ → ℕ → ℕ → ℕ → ℝ) (k : ℕ) : Ix → Ix → ℝ
  | .g i a, .v q => (if i = k then -W k a q else 0) + V k i a q
  | _, _ => 0

theorem hxAcc_spec {g n2 dim : ℕ} {W : ℕ → Arr2} {V : ℕ → ℕ → Arr2}
    (hW : ∀ k < dim, (W k).r = g ∧ (W k).c = n2)
    (hV : ∀ k < dim, ∀ i < dim, (V k i).r = g ∧ (V k i).c = n2) :
    ∃ A, (forRange 0 dim (Arr3.zeros dim (g * dim) n2) fun k H => do
        let H ← H.subSlice k (k * g) (k * g + g) 0 n2 (W k)
        forRange 0 dim H fun i H => H.addSlice k (i * g) (i * g + g) 0 n2 (V k i)) = .ok A ∧
      Rep3 dim 0 g n2 0 dim A (hxAccTarget (fun k => (W k).get) fun k i => (V k i).get) := by
  have z : Rep3 dim 0 g n2 0 dim (Arr3.zeros dim (g * dim) n2) (fun _ _ _ => 0) :=
    ⟨rfl, by simp, by simp, fun _ _ _ _ _ _ => by simp⟩
  have s1 := fun k (hk : k < dim) => Adds.sub (D := dim) (n1 := 0) (g1 := g) (n2 := n2) (g2 := 0) (dim := dim)
    (V := W k) k hk (.g k) .v hk trivial (hW k hk).1 (hW k hk).2
  have a1 := fun k (hk : k < dim) i (hi : i < dim) =>
    Adds.add (D := dim) (n1 := 0) (g1 := g) (n2 := n2) (g2 := 0) (dim := dim)
    (V := V k i) k hk (.g i) .v hi trivial (hV k hk i hi).1 (hV k hk i hi).2
  simp only [Sl.lo, Sl.hi, Nat.zero_add] at s1 a1
  have all := Adds.forRange (Nat.zero_le dim) fun k (_ : 0 ≤ k) (hk : k < dim) =>
    (s1 k hk).bind (Adds.forRange (Nat.zero_le dim) fun i (_ : 0 ≤ i) (hi : i < dim) => a1 k hk i hi)
  obtain ⟨A, hA, hR⟩ := all _ _ z
  refine ⟨A, hA, hR.congr ?_⟩
  intro k x y hk hx hy
  cases x with
  | v p => simp at hx
  | g I a => cases y with
    | g J b => simp at hy
    | v q =>
      simp only [Ix.ok_g] at hx
      have hkm : k ∈ Finset.Ico 0 dim := Finset.mem_Ico.mpr ⟨Nat.zero_le _, hk⟩
      have hIm : I ∈ Finset.Ico 0 dim := Finset.mem_Ico.mpr ⟨Nat.zero_le _, hx.1⟩
      simp only [contrib, Sl.hit_gg, Sl.hit_vv, pairVal_gs, zero_add, hxAccTarget, Finset.sum_add_distrib]
      congr 1
      · rw [Finset.sum_ite_eq, if_pos hkm]
      · rw [Finset.sum_comm]
        simp only [Finset.sum_ite_eq, hkm, if_true]
        simp only [Finset.sum_ite_eq, hIm, if_true]

/-- Target of the accumulating `grad_x` loops. -/
def gxAccTarget (W : ℕ → ℕ → ℕ → ℝ) (V : ℕ → ℕ → ℕ → ℕ → ℝ) (P Q S : ℕ → ℕ → ℕ → ℕ → ℝ)
    (U : ℕ → ℕ → ℕ → ℕ → ℕ → ℝ) (k : ℕ) : Ix → Ix → ℝ
  | .g i a, .v q => (if i = k then -W k a q else 0) + V k i a q
  | .g i a, .g j b => (if i = j then -P k i a b else 0) + (if j = k then -Q k i a b else 0)
      + (if i = k then -S k j a b else 0) + U k i j a b
  | _, _ => 0

theorem gxAcc_spec {g n2 g2 dim : ℕ} {W : ℕ → Arr2} {V P Q S : ℕ → ℕ → Arr2} {U : ℕ → ℕ → ℕ → Arr2}
    (hW : ∀ k < dim, (W k).r = g ∧ (W k).c = n2)
    (hV : ∀ k < dim, ∀ i < dim, (V k i).r = g ∧ (V k i).c = n2)
    (hP : ∀ k < dim, ∀ i < dim, (P k i).r = g ∧ (P k i).c = g2)
    (hQ : ∀ k < dim, ∀ i < dim, (Q k i).r = g ∧ (Q k i).c = g2)
    (hS : ∀ k < dim, ∀ i < dim, (S k i).r = g ∧ (S k i).c = g2)
    (hU : ∀ k < dim, ∀ i < dim, ∀ j < dim, (U k i j).r = g ∧ (U k i j).c = g2) :
    ∃ A, (forRange 0 dim (Arr3.zeros dim (g * dim) (n2 + g2 * dim)) fun k H => do
        let H ← H.subSlice k (k * g) (k * g + g) 0 n2 (W k)
        forRange 0 dim H fun i H => do
          let H ← H.addSlice k (i * g) (i * g + g) 0 n2 (V k i)
          let H ← H.subSlice k (i * g) (i * g + g) (n2 + i * g2) (n2 + i * g2 + g2) (P k i)
          let H ← H.subSlice k (i * g) (i * g + g) (n2 + k * g2) (n2 + k * g2 + g2) (Q k i)
          let H ← H.subSlice k (k * g) (k * g + g) (n2 + i * g2) (n2 + i * g2 + g2) (S k i)
          forRange 0 dim H fun j H =>
            H.addSlice k (i * g) (i * g + g) (n2 + j * g2) (n2 + j * g2 + g2) (U k i j)) = .ok A ∧
      Rep3 dim 0 g n2 g2 dim A (gxAccTarget (fun k => (W k).get) (fun k i => (V k i).get) (fun k i => (P k i).get)
        (fun k i => (Q k i).get) (fun k i => (S k i).get) (fun k i j => (U k i j).get)) := by
  have z : Rep3 dim 0 g n2 g2 dim (Arr3.zeros dim (g * dim) (n2 + g2 * dim)) (fun _ _ _ => 0) :=
    ⟨rfl, by simp, by simp, fun _ _ _ _ _ _ => by simp⟩
  have s1 := fun k (hk : k < dim) => Adds.sub (D := dim) (n1 := 0) (g1 := g) (n2 := n2) (g2 := g2) (dim := dim)
    (V := W k) k hk (.g k) .v hk trivial (hW k hk).1 (hW k hk).2
  have a1 := fun k (hk : k < dim) i (hi : i < dim) =>
    Adds.add (D := dim) (n1 := 0) (g1 := g) (n2 := n2) (g2 := g2) (dim := dim)
    (V := V k i) k hk (.g i) .v hi trivial (hV k hk i hi).1 (hV k hk i hi).2
  have a2 := fun k (hk : k < dim) i (hi : i < dim) =>
    Adds.sub (D := dim) (n1 := 0) (g1 := g) (n2 := n2) (g2 := g2) (dim := dim)
    (V := P k i) k hk (.g i) (.g i) hi hi (hP k hk i hi).1 (hP k hk i hi).2
  have a3 := fun k (hk : k < dim) i (hi : i < dim) =>
    Adds.sub (D := dim) (n1 := 0) (g1 := g) (n2 := n2) (g2 := g2) (dim := dim)
    (V := Q k i) k hk (.g i) (.g k) hi hk (hQ k hk i hi).1 (hQ k hk i hi).2
  have a4 := fun k (hk : k < dim) i (hi : i < dim) =>
    Adds.sub (D := dim) (n1 := 0) (g1 := g) (n2 := n2) (g2 := g2) (dim := dim)
    (V := S k i) k hk (.g k) (.g i) hk hi (hS k hk i hi).1 (hS k hk i hi).2
  have a5 := fun k (hk : k < dim) i (hi : i < dim) j (hj : j < dim) =>
    Adds.add (D := dim) (n1 := 0) (g1 := g) (n2 := n2) (g2 := g2) (dim := dim)
    (V := U k i j) k hk (.g i) (.g j) hi hj (hU k hk i hi j hj).1 (hU k hk i hi j hj).2
  simp only [Sl.lo, Sl.hi, Nat.zero_add] at s1 a1 a2 a3 a4 a5
  have all := Adds.forRange (Nat.zero_le dim) fun k (_ : 0 ≤ k) (hk : k < dim) =>
    (s1 k hk).bind (Adds.forRange (Nat.zero_le dim) fun i (_ : 0 ≤ i) (hi : i < dim) =>
      (a1 k hk i hi).bind ((a2 k hk i hi).bind ((a3 k hk i hi).bind ((a4 k hk i hi).bind
        (Adds.forRange (Nat.zero_le dim) fun j (_ : 0 ≤ j) (hj : j < dim) => a5 k hk i hi j hj)))))
  obtain ⟨A, hA, hR⟩ := all _ _ z
  refine ⟨A, hA, hR.congr ?_⟩
  intro k x y hk hx hy
  have hkm : k ∈ Finset.Ico 0 dim := Finset.mem_Ico.mpr ⟨Nat.zero_le _, hk⟩
  cases x with
  | v p => simp at hx
  | g I a =>
    simp only [Ix.ok_g] at hx
    have hIm : I ∈ Finset.Ico 0 dim := Finset.mem_Ico.mpr ⟨Nat.zero_le _, hx.1⟩
    cases y with
    | v q =>
      simp only [contrib, Sl.hit_gg, Sl.hit_gv, Sl.hit_vv, pairVal_gs, pairVal_none_right, ite_self, add_zero,
        Finset.sum_const_zero, zero_add, gxAccTarget, Finset.sum_add_distrib]
      congr 1
      · rw [Finset.sum_ite_eq, if_pos hkm]
      · rw [Finset.sum_comm]
        simp only [Finset.sum_ite_eq, hkm, if_true]
        simp only [Finset.sum_ite_eq, hIm, if_true]
    | g J b =>
      simp only [Ix.ok_g] at hy
      have hJm : J ∈ Finset.Ico 0 dim := Finset.mem_Ico.mpr ⟨Nat.zero_le _, hy.1⟩
      simp only [contrib, Sl.hit_gg, Sl.hit_vg, pairVal_gg, pairVal_none_right, ite_self,
        Finset.sum_const_zero, zero_add, gxAccTarget]
      have one : ∀ f : ℕ → ℝ, (∑ k' ∈ Finset.Ico 0 dim, if k = k' then f k' else 0) = f k := by
        intro f; rw [Finset.sum_ite_eq, if_pos hkm]
      have outer : ∀ k' ∈ Finset.Ico 0 dim, ∑ i ∈ Finset.Ico 0 dim,
          ((if k = k' then if I = i ∧ J = i then -(P k' i).get a b else 0 else 0) +
            ((if k = k' then if I = i ∧ J = k' then -(Q k' i).get a b else 0 else 0) +
              ((if k = k' then if I = k' ∧ J = i then -(S k' i).get a b else 0 else 0) +
                ∑ j ∈ Finset.Ico 0 dim, if k = k' then if I = i ∧ J = j then (U k' i j).get a b else 0 else 0))) =
          if k = k' then ((if I = J then -(P k I).get a b else 0) + (if J = k then -(Q k I).get a b else 0)
      + (if I = k then -(S k J).get a b else 0) + (U k I J).get a b) else 0 := by
        intro k' _
        by_cases h : k = k'
        swap
        · simp [h]
        subst h
        simp only [if_true, Finset.sum_add_distrib]
        have t1 : (∑ i ∈ Finset.Ico 0 dim, if I = i ∧ J = i then -(P k i).get a b else 0) =
            if I = J then -(P k I).get a b else 0 := by
          rw [Finset.sum_eq_single I]
          · simp [eq_comm]
          · intro i _ hne; rw [if_neg]; rintro ⟨h, -⟩; exact hne h.symm
          · intro h; exact absurd hIm h
        have t2 : (∑ i ∈ Finset.Ico 0 dim, if I = i ∧ J = k then -(Q k i).get a b else 0) =
            if J = k then -(Q k I).get a b else 0 := by
          rw [Finset.sum_eq_single I]
          · simp
          · intro i _ hne; rw [if_neg]; rintro ⟨h, -⟩; exact hne h.symm
          · intro h; exact absurd hIm h
        have t3 : (∑ i ∈ Finset.Ico 0 dim, if I = k ∧ J = i then -(S k i).get a b else 0) =
            if I = k then -(S k J).get a b else 0 := by
          rw [Finset.sum_eq_single J]
          · simp
          · intro i _ hne; rw [if_neg]; rintro ⟨-, h⟩; exact hne h.symm
          · intro h; exact absurd hJm h
        have t4 : (∑ i ∈ Finset.Ico 0 dim, ∑ j ∈ Finset.Ico 0 dim, if I = i ∧ J = j then (U k i j).get a b else 0) =
            (U k I J).get a b := by
          rw [Finset.sum_eq_single I, Finset.sum_eq_single J]
          · simp
          · intro i _ hne; rw [if_neg]; rintro ⟨-, h⟩; exact hne h.symm
          · intro h; exact absurd hJm h
          · intro i _ hne; apply Finset.sum_eq_zero; intro j _; rw [if_neg]; rintro ⟨h, -⟩; exact hne h.symm
          · intro h; exact absurd hIm h
        rw [t1, t2, t3, t4]; ring
      rw [Finset.sum_congr rfl outer, one]

end Np
