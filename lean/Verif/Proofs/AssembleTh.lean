import Verif.Proofs.Additive

/-! The common assembly loop of the three `calc_KernGrad_grad_th` functions. -/

namespace Np

/-- Target entries of the `grad_th` assembly loop. -/
def thTarget (W0 W1 W2 : ℕ → ℕ → ℕ → ℝ) (X1 Y Y' Z : ℕ → ℕ → ℕ → ℕ → ℝ) (U : ℕ → ℕ → ℕ → ℕ → ℕ → ℝ)
    (d : ℕ) : Ix → Ix → ℝ
  | .v p, .v q => W0 d p q
  | .g I a, .v q => (if I = d then W1 d a q else 0) + X1 d I a q
  | .v p, .g J b => (if J = d then W1 d b p else 0) + X1 d J b p
  | .g I a, .g J b => (if I = d ∧ J = d then W2 d a b else 0) + (if I = d then Y d J a b else 0)
      + (if J = d then Y' d I a b else 0) + (if I = J then Z d I a b else 0)
      + (if I < J then U d I J a b else if J < I then U d J I a b else 0)

theorem sum_ite_pair {M : Type*} [AddCommMonoid M] (s : Finset ℕ) (I J : ℕ) (f : ℕ → M) (hI : I ∈ s) :
    (∑ i ∈ s, if I = i then (if J = i then f i else 0) else 0) = if I = J then f I else 0 := by
  rw [Finset.sum_ite_eq s I]
  simp only [hI, if_true, eq_comm]

variable {n g dim : ℕ}

theorem gradTh_spec {W0 W1 W2 : ℕ → Arr2} {X1 Y Y' Z : ℕ → ℕ → Arr2} {U : ℕ → ℕ → ℕ → Arr2}
    (hW0 : ∀ d < dim, (W0 d).r = n ∧ (W0 d).c = n)
    (hW1 : ∀ d < dim, (W1 d).r = g ∧ (W1 d).c = n)
    (hW2 : ∀ d < dim, (W2 d).r = g ∧ (W2 d).c = g)
    (hX1 : ∀ d < dim, ∀ i < dim, (X1 d i).r = g ∧ (X1 d i).c = n)
    (hY : ∀ d < dim, ∀ i < dim, (Y d i).r = g ∧ (Y d i).c = g)
    (hY' : ∀ d < dim, ∀ i < dim, (Y' d i).r = g ∧ (Y' d i).c = g)
    (hZ : ∀ d < dim, ∀ i < dim, (Z d i).r = g ∧ (Z d i).c = g)
    (hU : ∀ d < dim, ∀ i < dim, ∀ j < dim, (U d i j).r = g ∧ (U d i j).c = g) :
    ∃ A, (forRange 0 dim (Arr3.zeros dim (n + g * dim) (n + g * dim)) fun d D => do
        let D ← D.setSlice d 0 n 0 n (W0 d)
        let D ← D.addSlice d (n + d * g) (n + d * g + g) 0 n (W1 d)
        let D ← D.addSlice d 0 n (n + d * g) (n + d * g + g) (W1 d).T
        let D ← D.addSlice d (n + d * g) (n + d * g + g) (n + d * g) (n + d * g + g) (W2 d)
        forRange 0 dim D fun i D => do
          let D ← D.addSlice d (n + i * g) (n + i * g + g) 0 n (X1 d i)
          let D ← D.addSlice d 0 n (n + i * g) (n + i * g + g) (X1 d i).T
          let D ← D.addSlice d (n + d * g) (n + d * g + g) (n + i * g) (n + i * g + g) (Y d i)
          let D ← D.addSlice d (n + i * g) (n + i * g + g) (n + d * g) (n + d * g + g) (Y' d i)
          let D ← D.addSlice d (n + i * g) (n + i * g + g) (n + i * g) (n + i * g + g) (Z d i)
          forRange (i + 1) dim D fun j D => do
            let D ← D.addSlice d (n + i * g) (n + i * g + g) (n + j * g) (n + j * g + g) (U d i j)
            D.addSlice d (n + j * g) (n + j * g + g) (n + i * g) (n + i * g + g) (U d i j)) = .ok A ∧
      Rep3 dim n g n g dim A (thTarget (fun d => (W0 d).get) (fun d => (W1 d).get) (fun d => (W2 d).get)
        (fun d i => (X1 d i).get) (fun d i => (Y d i).get) (fun d i => (Y' d i).get)
        (fun d i => (Z d i).get) (fun d i j => (U d i j).get)) := by
  set Tt := thTarget (fun d => (W0 d).get) (fun d => (W1 d).get) (fun d => (W2 d).get)
        (fun d i => (X1 d i).get) (fun d i => (Y d i).get) (fun d i => (Y' d i).get)
        (fun d i => (Z d i).get) (fun d i j => (U d i j).get) with hTt
  have hs : ∀ d A, 0 ≤ d → d < dim → Rep3 dim n g n g dim A (fun k x y => if k < d then Tt k x y else 0) →
    ∃ A', (do
        let D ← A.setSlice d 0 n 0 n (W0 d)
        let D ← D.addSlice d (n + d * g) (n + d * g + g) 0 n (W1 d)
        let D ← D.addSlice d 0 n (n + d * g) (n + d * g + g) (W1 d).T
        let D ← D.addSlice d (n + d * g) (n + d * g + g) (n + d * g) (n + d * g + g) (W2 d)
        forRange 0 dim D fun i D => do
          let D ← D.addSlice d (n + i * g) (n + i * g + g) 0 n (X1 d i)
          let D ← D.addSlice d 0 n (n + i * g) (n + i * g + g) (X1 d i).T
          let D ← D.addSlice d (n + d * g) (n + d * g + g) (n + i * g) (n + i * g + g) (Y d i)
          let D ← D.addSlice d (n + i * g) (n + i * g + g) (n + d * g) (n + d * g + g) (Y' d i)
          let D ← D.addSlice d (n + i * g) (n + i * g + g) (n + i * g) (n + i * g + g) (Z d i)
          forRange (i + 1) dim D fun j D => do
            let D ← D.addSlice d (n + i * g) (n + i * g + g) (n + j * g) (n + j * g + g) (U d i j)
            D.addSlice d (n + j * g) (n + j * g + g) (n + i * g) (n + i * g + g) (U d i j) : Py Arr3)
        = .ok A' ∧ Rep3 dim n g n g dim A' (fun k x y => if k < d + 1 then Tt k x y else 0) := by
    intro d A _ hd hA
    obtain ⟨A1, e1, r1⟩ := hA.set_zero d hd .v .v (V := W0 d) trivial trivial (hW0 d hd).1 (hW0 d hd).2
      (by intro x y _ _; simp)
    have a1 := Adds.add (D := dim) (n1 := n) (g1 := g) (n2 := n) (g2 := g) (dim := dim) (V := W1 d)
      d hd (.g d) .v hd trivial (hW1 d hd).1 (hW1 d hd).2
    have a2 := Adds.add (D := dim) (n1 := n) (g1 := g) (n2 := n) (g2 := g) (dim := dim) (V := (W1 d).T)
      d hd .v (.g d) trivial hd (hW1 d hd).2 (hW1 d hd).1
    have a3 := Adds.add (D := dim) (n1 := n) (g1 := g) (n2 := n) (g2 := g) (dim := dim) (V := W2 d)
      d hd (.g d) (.g d) hd hd (hW2 d hd).1 (hW2 d hd).2
    have b1 := fun i (hi : i < dim) => Adds.add (D := dim) (n1 := n) (g1 := g) (n2 := n) (g2 := g) (dim := dim)
      (V := X1 d i) d hd (.g i) .v hi trivial (hX1 d hd i hi).1 (hX1 d hd i hi).2
    have b2 := fun i (hi : i < dim) => Adds.add (D := dim) (n1 := n) (g1 := g) (n2 := n) (g2 := g) (dim := dim)
      (V := (X1 d i).T) d hd .v (.g i) trivial hi (hX1 d hd i hi).2 (hX1 d hd i hi).1
    have b3 := fun i (hi : i < dim) => Adds.add (D := dim) (n1 := n) (g1 := g) (n2 := n) (g2 := g) (dim := dim)
      (V := Y d i) d hd (.g d) (.g i) hd hi (hY d hd i hi).1 (hY d hd i hi).2
    have b4 := fun i (hi : i < dim) => Adds.add (D := dim) (n1 := n) (g1 := g) (n2 := n) (g2 := g) (dim := dim)
      (V := Y' d i) d hd (.g i) (.g d) hi hd (hY' d hd i hi).1 (hY' d hd i hi).2
    have b5 := fun i (hi : i < dim) => Adds.add (D := dim) (n1 := n) (g1 := g) (n2 := n) (g2 := g) (dim := dim)
      (V := Z d i) d hd (.g i) (.g i) hi hi (hZ d hd i hi).1 (hZ d hd i hi).2
    have c1 := fun i (hi : i < dim) j (hj : j < dim) =>
      (Adds.add (D := dim) (n1 := n) (g1 := g) (n2 := n) (g2 := g) (dim := dim)
      (V := U d i j) d hd (.g i) (.g j) hi hj (hU d hd i hi j hj).1 (hU d hd i hi j hj).2).bind
      (Adds.add (D := dim) (n1 := n) (g1 := g) (n2 := n) (g2 := g) (dim := dim)
      (V := U d i j) d hd (.g j) (.g i) hj hi (hU d hd i hi j hj).1 (hU d hd i hi j hj).2)
    have bj := fun i (hi : i < dim) => Adds.forRange (Nat.succ_le_of_lt hi)
      (fun j (_ : i.succ ≤ j) (hj : j < dim) => c1 i hi j hj)
    have bi := Adds.forRange (Nat.zero_le dim) (fun i (_ : 0 ≤ i) (hi : i < dim) =>
      (b1 i hi).bind ((b2 i hi).bind ((b3 i hi).bind ((b4 i hi).bind ((b5 i hi).bind (bj i hi))))))
    have all := a1.bind (a2.bind (a3.bind bi))
    obtain ⟨A2, e2, r2⟩ := all A1 _ r1
    refine ⟨A2, ?_, r2.congr ?_⟩
    · rw [show A.setSlice d 0 n 0 n (W0 d) = .ok A1 from e1, ok_bind]
      exact e2
    · intro k x y hk hx hy
      by_cases hkd : k = d
      swap
      · have h1 : (k < d + 1) ↔ (k < d) := by omega
        simp [contrib, hkd, h1]
      subst hkd
      simp only [lt_irrefl, if_false, Nat.lt_succ_self, if_true, zero_add, contrib]
      cases x with
      | v p => cases y with
        | v q => simp [hTt, thTarget]
        | g J b =>
          simp only [Ix.ok_g] at hy
          simp only [Sl.hit_vv, Sl.hit_gv, Sl.hit_vg, Sl.hit_gg, pairVal_none_left, pairVal_none_right,
            pairVal_sg, add_zero, zero_add, Finset.sum_const_zero, Finset.sum_ite_eq, Finset.mem_Ico,
            Nat.zero_le, hy.1, and_true, if_true, hTt, thTarget, Arr2.T_get]
      | g I a =>
        simp only [Ix.ok_g] at hx
        have hImem : I ∈ Finset.Ico 0 dim := Finset.mem_Ico.mpr ⟨Nat.zero_le _, hx.1⟩
        cases y with
        | v q =>
          simp only [Sl.hit_vv, Sl.hit_gv, Sl.hit_vg, Sl.hit_gg, pairVal_none_left, pairVal_none_right,
            pairVal_gs, add_zero, zero_add, Finset.sum_const_zero, Finset.sum_ite_eq, Finset.mem_Ico,
            Nat.zero_le, hx.1, and_true, if_true, hTt, thTarget]
        | g J b =>
          simp only [Ix.ok_g] at hy
          have hJmem : J ∈ Finset.Ico 0 dim := Finset.mem_Ico.mpr ⟨Nat.zero_le _, hy.1⟩
          simp only [Sl.hit_vg, Sl.hit_gg, pairVal_gg, pairVal_none_left, pairVal_none_right, zero_add]
          have hU1 : ∀ i ∈ Finset.Ico 0 dim, ∑ j ∈ Finset.Ico i.succ dim,
              ((if I = i ∧ J = j then (U k i j).get a b else 0) +
                if I = j ∧ J = i then (U k i j).get a b else 0) =
              (if I = i then (if I < J then (U k I J).get a b else 0) else 0) +
              (if J = i then (if J < I then (U k J I).get a b else 0) else 0) := by
            intro i hi
            rw [Finset.sum_add_distrib]
            congr 1
            · by_cases h : I = i
              · subst h
                simp only [true_and, if_true]
                rw [Finset.sum_ite_eq]
                simp only [Finset.mem_Ico, Nat.succ_le_iff, hy.1, and_true]
              · simp [h]
            · by_cases h : J = i
              · subst h
                simp only [and_true, if_true]
                rw [Finset.sum_ite_eq]
                simp only [Finset.mem_Ico, Nat.succ_le_iff, hx.1, and_true]
              · simp [h]
          rw [Finset.sum_congr rfl fun i hi => by rw [hU1 i hi]]
          simp only [Finset.sum_add_distrib]
          have s1 : ∀ f : ℕ → ℝ, ∑ i ∈ Finset.Ico 0 dim, (if I = k ∧ J = i then f i else 0) =
              if I = k then f J else 0 := by
            intro f
            by_cases h : I = k
            · simp only [h, true_and, if_true]; rw [Finset.sum_ite_eq]; simp [hy.1]
            · simp [h]
          have s2 : ∀ f : ℕ → ℝ, ∑ i ∈ Finset.Ico 0 dim, (if I = i ∧ J = k then f i else 0) =
              if J = k then f I else 0 := by
            intro f
            by_cases h : J = k
            · simp only [h, and_true, if_true]; rw [Finset.sum_ite_eq]; simp [hx.1]
            · simp [h]
          have s3 : ∀ f : ℕ → ℝ, ∑ i ∈ Finset.Ico 0 dim, (if I = i ∧ J = i then f i else 0) =
              if I = J then f I else 0 := by
            intro f
            rw [← sum_ite_pair (Finset.Ico 0 dim) I J f hImem]
            apply Finset.sum_congr rfl
            intro i _
            by_cases h1 : I = i <;> by_cases h2 : J = i <;> simp [h1, h2]
          rw [s1, s2, s3, Finset.sum_ite_eq, Finset.sum_ite_eq]
          simp only [hImem, hJmem, if_true, hTt, thTarget]
          by_cases h1 : I < J
          · have : ¬ J < I := by omega
            simp only [h1, this, if_true, if_false]; ring
          · simp only [h1, if_false]; ring
  obtain ⟨A, hA, hR⟩ := forRange_inv
    (fun d A => Rep3 dim n g n g dim A (fun k x y => if k < d then Tt k x y else 0)) (Nat.zero_le dim)
    ((Rep3.zeros dim n g n g dim).congr (by intro k x y _ _ _; simp)) hs
  exact ⟨A, hA, hR.congr (by intro k x y hk _ _; simp [hk])⟩

end Np
