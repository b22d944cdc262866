import Verif.Proofs.Additive

/-! Assembly loops of the x-derivative functions (`hess_x`, `grad_x`): rows are `i*n1 + a`. -/

namespace Np

/-- Row block of a purely gradient-indexed row. -/
def Ix.blk : Ix → ℕ
  | .v _ => 0
  | .g i _ => i

/-- Target of the `hess_x` loops. -/
def hxTarget (V : ℕ → ℕ → ℕ → ℕ → ℝ) (k : ℕ) : Ix → Ix → ℝ
  | .g i a, .v q => V k i a q
  | _, _ => 0

/-- Two nested loops that overwrite `H[k, i*n1:(i+1)*n1, :]`. -/
theorem set2_spec {g n2 dim : ℕ} {V : ℕ → ℕ → Arr2} (hV : ∀ k < dim, ∀ i < dim, (V k i).r = g ∧ (V k i).c = n2) :
    ∃ A, (forRange 0 dim (Arr3.zeros dim (g * dim) n2) fun k H =>
        forRange 0 dim H fun i H => H.setSlice k (i * g) (i * g + g) 0 n2 (V k i)) = .ok A ∧
      Rep3 dim 0 g n2 0 dim A (hxTarget fun k i => (V k i).get) := by
  set T := hxTarget fun k i => (V k i).get with hT
  have h0 : Rep3 dim 0 g n2 0 dim (Arr3.zeros dim (g * dim) n2)
      (fun k x y => if k < 0 then T k x y else 0) :=
    ⟨rfl, by simp, by simp, fun _ _ _ _ _ _ => by simp⟩
  obtain ⟨A, hA, hR⟩ := forRange_inv (body := fun k H => forRange 0 dim H fun i H =>
      H.setSlice k (i * g) (i * g + g) 0 n2 (V k i))
    (fun k A => Rep3 dim 0 g n2 0 dim A (fun k' x y => if k' < k then T k' x y else 0)) (Nat.zero_le dim) h0
    (by
      intro k A _ hk hA
      obtain ⟨A', hA', hR'⟩ := forRange_inv (body := fun i H => H.setSlice k (i * g) (i * g + g) 0 n2 (V k i))
        (fun i A => Rep3 dim 0 g n2 0 dim A
          (fun k' x y => if k' < k ∨ (k' = k ∧ x.blk < i) then T k' x y else 0)) (Nat.zero_le dim)
        (hA.congr (by intro k' x y _ _ _; simp))
        (by
          intro i A _ hi hA
          obtain ⟨B, e, r⟩ := hA.mod (fun _ v => v) k hk (.g i) .v (V := V k i) hi trivial (hV k hk i hi).1 (hV k hk i hi).2
          simp only [Sl.lo, Sl.hi, Nat.zero_add] at e
          refine ⟨B, e, r.congr ?_⟩
          intro k' x y _ hx hy
          cases x with
          | v p => simp at hx
          | g I a => cases y with
            | g J b => simp at hy
            | v q =>
              by_cases hk' : k' = k
              · subst hk'
                simp only [if_true, symUpd, Sl.hit_gg, Sl.hit_vv, Ix.blk, lt_irrefl, false_or, true_and]
                by_cases hI : I = i
                · subst hI; simp [hT, hxTarget]
                · have : (I < i + 1) ↔ (I < i) := by omega
                  simp [hI, this]
              · simp [hk'])
      refine ⟨A', hA', hR'.congr ?_⟩
      intro k' x y _ hx hy
      cases x with
      | v p => simp at hx
      | g I a =>
        simp only [Ix.ok_g] at hx
        simp only [Ix.blk, hx.1, and_true]
        congr 1
        simp only [eq_iff_iff]; omega)
  exact ⟨A, hA, hR.congr (by intro k x y hk _ _; simp [hk])⟩

/-- `A[:, :, :n2] = B` on a zero array. -/
theorem setCols_zero {g n2 g2 dim : ℕ} {B : Arr3} {F : ℕ → Ix → Ix → ℝ} (hB : Rep3 dim 0 g n2 0 dim B F) :
    ∃ A, (Arr3.zeros dim (g * dim) (n2 + g2 * dim)).setCols n2 B = .ok A ∧
      Rep3 dim 0 g n2 g2 dim A (fun k x y => match y with | .v q => F k x (.v q) | .g _ _ => 0) := by
  have h : B.d = dim ∧ B.r = g * dim ∧ B.c = min n2 (n2 + g2 * dim) := by
    refine ⟨hB.d, ?_, ?_⟩
    · have := hB.r; simpa using this
    · have := hB.c; simp at this; rw [this]; omega
  refine ⟨_, by unfold Arr3.setCols; rw [if_pos (by simpa using h)], ⟨rfl, by simp, by simp, ?_⟩⟩
  intro k x y hk hx hy
  cases y with
  | v q =>
    have := hB.get k x (.v q) hk hx hy
    simp only [Ix.pos_v, Ix.ok_v] at *
    simp [hy, this]
  | g j b =>
    simp only [Ix.pos_g]
    have : ¬ (n2 + j * g2 + b < n2) := by omega
    simp [this]

/-- Target of the `grad_x` loops given the value columns. -/
def gxTarget (F0 : ℕ → Ix → Ix → ℝ) (V : ℕ → ℕ → ℕ → ℕ → ℕ → ℝ) (k : ℕ) : Ix → Ix → ℝ
  | .g i a, .g j b => V k i j a b
  | x, y => F0 k x y

/-- Three nested loops that overwrite `D[k, i*n1:(i+1)*n1, n2+j*g2 : n2+(j+1)*g2]`. -/
theorem set3_spec {g n2 g2 dim : ℕ} {A0 : Arr3} {F0 : ℕ → Ix → Ix → ℝ} (h0 : Rep3 dim 0 g n2 g2 dim A0 F0)
    {V : ℕ → ℕ → ℕ → Arr2} (hV : ∀ k < dim, ∀ i < dim, ∀ j < dim, (V k i j).r = g ∧ (V k i j).c = g2) :
    ∃ A, (forRange 0 dim A0 fun k H => forRange 0 dim H fun i H => forRange 0 dim H fun j H =>
        H.setSlice k (i * g) (i * g + g) (n2 + j * g2) (n2 + j * g2 + g2) (V k i j)) = .ok A ∧
      Rep3 dim 0 g n2 g2 dim A (gxTarget F0 fun k i j => (V k i j).get) := by
  set T := gxTarget F0 fun k i j => (V k i j).get with hT
  obtain ⟨A, hA, hR⟩ := forRange_inv (body := fun k H => forRange 0 dim H fun i H => forRange 0 dim H fun j H =>
        H.setSlice k (i * g) (i * g + g) (n2 + j * g2) (n2 + j * g2 + g2) (V k i j))
    (fun k A => Rep3 dim 0 g n2 g2 dim A (fun k' x y => if k' < k then T k' x y else F0 k' x y)) (Nat.zero_le dim)
    (h0.congr (by intro k' x y _ _ _; simp))
    (by
      intro k A _ hk hA
      obtain ⟨A', hA', hR'⟩ := forRange_inv (body := fun i H => forRange 0 dim H fun j H =>
          H.setSlice k (i * g) (i * g + g) (n2 + j * g2) (n2 + j * g2 + g2) (V k i j))
        (fun i A => Rep3 dim 0 g n2 g2 dim A
          (fun k' x y => if k' < k ∨ (k' = k ∧ x.blk < i) then T k' x y else F0 k' x y)) (Nat.zero_le dim)
        (hA.congr (by intro k' x y _ _ _; simp))
        (by
          intro i A _ hi hA
          obtain ⟨A', hA', hR'⟩ := forRange_inv (body := fun j H =>
              H.setSlice k (i * g) (i * g + g) (n2 + j * g2) (n2 + j * g2 + g2) (V k i j))
            (fun j A => Rep3 dim 0 g n2 g2 dim A
              (fun k' x y => if k' < k ∨ (k' = k ∧ (x.blk < i ∨ (x.blk = i ∧ y.blk < j))) then T k' x y
                else F0 k' x y)) (Nat.zero_le dim)
            (hA.congr (by intro k' x y _ _ _; simp))
            (by
              intro j A _ hj hA
              obtain ⟨B, e, r⟩ := hA.mod (fun _ v => v) k hk (.g i) (.g j) (V := V k i j) hi hj
                (hV k hk i hi j hj).1 (hV k hk i hi j hj).2
              simp only [Sl.lo, Sl.hi, Nat.zero_add] at e
              refine ⟨B, e, r.congr ?_⟩
              intro k' x y _ hx hy
              cases x with
              | v p => simp at hx
              | g I a => cases y with
                | v q => by_cases hk' : k' = k <;> simp [symUpd, hT, gxTarget, hk']
                | g J b =>
                  by_cases hk' : k' = k
                  · subst hk'
                    simp only [if_true, symUpd, Sl.hit_gg, Ix.blk, lt_irrefl, false_or, true_and]
                    by_cases hI : I = i
                    · subst hI
                      by_cases hJ : J = j
                      · subst hJ; simp [hT, gxTarget]
                      · have : (J < j + 1) ↔ (J < j) := by omega
                        simp [hJ, this]
                    · simp [hI]
                  · simp [hk'])
          refine ⟨A', hA', hR'.congr ?_⟩
          intro k' x y _ hx hy
          cases x with
          | v p => simp at hx
          | g I a => cases y with
            | v q => simp [hT, gxTarget]
            | g J b =>
              simp only [Ix.ok_g] at hy
              simp only [Ix.blk, hy.1, and_true]
              congr 1
              simp only [eq_iff_iff]; omega)
      refine ⟨A', hA', hR'.congr ?_⟩
      intro k' x y _ hx hy
      cases x with
      | v p => simp at hx
      | g I a =>
        simp only [Ix.ok_g] at hx
        simp only [Ix.blk, hx.1, and_true]
        congr 1
        simp only [eq_iff_iff]; omega)
  exact ⟨A, hA, hR.congr (by intro k x y hk _ _; simp [hk])⟩

end Np
