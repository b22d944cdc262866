import Verif.Proofs.Block

/-! The common assembly loop of the three `calc_KernGrad` functions. -/

namespace Np

/-- The target entries of the assembly loop. -/
def asmTarget (B : ℕ → ℕ → ℝ) (V1 V2 Dg : ℕ → ℕ → ℕ → ℝ) (T : ℕ → ℕ → ℕ → ℕ → ℝ) : Ix → Ix → ℝ
  | .v p, .v q => B p q
  | .g i a, .v q => V1 i a q
  | .v p, .g j b => V2 j p b
  | .g i a, .g j b => if i = j then Dg i a b else if i < j then T i j a b else T j i a b

/-- Entries after `i` outer iterations and, in the current one, inner iterations up to `j`. -/
def asmPartial (B : ℕ → ℕ → ℝ) (V1 V2 Dg : ℕ → ℕ → ℕ → ℝ) (T : ℕ → ℕ → ℕ → ℕ → ℝ) (i : ℕ) :
    Ix → Ix → ℝ
  | .v p, .v q => B p q
  | .g I a, .v q => if I < i then V1 I a q else 0
  | .v p, .g J b => if J < i then V2 J p b else 0
  | .g I a, .g J b => if min I J < i then asmTarget B V1 V2 Dg T (.g I a) (.g J b) else 0

def asmInner (B : ℕ → ℕ → ℝ) (V1 V2 Dg : ℕ → ℕ → ℕ → ℝ) (T : ℕ → ℕ → ℕ → ℕ → ℝ) (i j : ℕ) :
    Ix → Ix → ℝ
  | .v p, .v q => B p q
  | .g I a, .v q => if I < i + 1 then V1 I a q else 0
  | .v p, .g J b => if J < i + 1 then V2 J p b else 0
  | .g I a, .g J b =>
    if min I J < i ∨ (min I J = i ∧ max I J < j) then asmTarget B V1 V2 Dg T (.g I a) (.g J b) else 0

/-- The assembly loop establishes the target. -/
theorem asm_spec {n1 g1 n2 g2 dim : ℕ} {A0 : Arr2} {B : ℕ → ℕ → ℝ}
    {V1 V2 Dg : ℕ → Arr2} {T : ℕ → ℕ → Arr2}
    (h0 : Rep n1 g1 n2 g2 dim A0 (asmPartial B (fun i => (V1 i).get) (fun i => (V2 i).get)
      (fun i => (Dg i).get) (fun i j => (T i j).get) 0))
    (hV1 : ∀ i < dim, (V1 i).r = g1 ∧ (V1 i).c = n2)
    (hV2 : ∀ i < dim, (V2 i).r = n1 ∧ (V2 i).c = g2)
    (hD : ∀ i < dim, (Dg i).r = g1 ∧ (Dg i).c = g2)
    (hT : ∀ i < dim, ∀ j < dim, (T i j).r = g1 ∧ (T i j).c = g2) :
    ∃ A, (forRange 0 dim A0 fun i A => do
        let A ← A.setSlice (n1 + i * g1) (n1 + i * g1 + g1) 0 n2 (V1 i)
        let A ← A.setSlice 0 n1 (n2 + i * g2) (n2 + i * g2 + g2) (V2 i)
        let A ← A.setSlice (n1 + i * g1) (n1 + i * g1 + g1) (n2 + i * g2) (n2 + i * g2 + g2) (Dg i)
        forRange (i + 1) dim A fun j A => do
          let A ← A.addSlice (n1 + i * g1) (n1 + i * g1 + g1) (n2 + j * g2) (n2 + j * g2 + g2) (T i j)
          A.addSlice (n1 + j * g1) (n1 + j * g1 + g1) (n2 + i * g2) (n2 + i * g2 + g2) (T i j)) = .ok A ∧
      Rep n1 g1 n2 g2 dim A (asmTarget B (fun i => (V1 i).get) (fun i => (V2 i).get)
        (fun i => (Dg i).get) (fun i j => (T i j).get)) := by
  set P := asmPartial B (fun i => (V1 i).get) (fun i => (V2 i).get)
        (fun i => (Dg i).get) (fun i j => (T i j).get) with hP
  set Q := asmInner B (fun i => (V1 i).get) (fun i => (V2 i).get)
        (fun i => (Dg i).get) (fun i j => (T i j).get) with hQ
  have hs : ∀ i A, 0 ≤ i → i < dim → Rep n1 g1 n2 g2 dim A (P i) → ∃ A', (do
        let A ← A.setSlice (n1 + i * g1) (n1 + i * g1 + g1) 0 n2 (V1 i)
        let A ← A.setSlice 0 n1 (n2 + i * g2) (n2 + i * g2 + g2) (V2 i)
        let A ← A.setSlice (n1 + i * g1) (n1 + i * g1 + g1) (n2 + i * g2) (n2 + i * g2 + g2) (Dg i)
        forRange (i + 1) dim A fun j A => do
          let A ← A.addSlice (n1 + i * g1) (n1 + i * g1 + g1) (n2 + j * g2) (n2 + j * g2 + g2) (T i j)
          A.addSlice (n1 + j * g1) (n1 + j * g1 + g1) (n2 + i * g2) (n2 + i * g2 + g2) (T i j) : Py Arr2) = .ok A' ∧ Rep n1 g1 n2 g2 dim A' (P (i + 1)) := by
    intro i A _ hi hA
    obtain ⟨A1, e1, r1⟩ := hA.mod (fun _ v => v) (.g i) .v (V := V1 i) hi trivial (hV1 i hi).1 (hV1 i hi).2
    obtain ⟨A2, e2, r2⟩ := r1.mod (fun _ v => v) .v (.g i) (V := V2 i) trivial hi (hV2 i hi).1 (hV2 i hi).2
    obtain ⟨A3, e3, r3⟩ := r2.mod (fun _ v => v) (.g i) (.g i) (V := Dg i) hi hi (hD i hi).1 (hD i hi).2
    have r3' : Rep n1 g1 n2 g2 dim A3 (Q i (i + 1)) := by
      refine r3.congr ?_
      intro x y hx hy
      cases x with
      | v p => cases y with
        | v q => simp [symUpd, hP, hQ, asmPartial, asmInner]
        | g J b =>
          simp only [symUpd, hP, hQ, asmPartial, asmInner, Sl.hit_gv, Sl.hit_vv, Sl.hit_gg]
          by_cases hJ : J = i
          · subst hJ; simp
          · simp only [hJ, if_false]
            have : (J < i + 1) ↔ (J < i) := by omega
            simp [this]
      | g I a => cases y with
        | v q =>
          simp only [symUpd, hP, hQ, asmPartial, asmInner, Sl.hit_gv, Sl.hit_vv, Sl.hit_gg, Sl.hit_vg]
          by_cases hI : I = i
          · subst hI; simp
          · simp only [hI, if_false]
            have : (I < i + 1) ↔ (I < i) := by omega
            simp [this]
        | g J b =>
          simp only [symUpd, hP, hQ, asmPartial, asmInner, Sl.hit_gg, Sl.hit_vg]
          by_cases hI : I = i
          · subst hI
            by_cases hJ : J = I
            · subst hJ; simp [asmTarget]
            · have h1 : (min I J < I ∨ (min I J = I ∧ max I J < I + 1)) ↔ min I J < I := by omega
              simp only [h1, if_true, hJ, if_false]
          · have h1 : (min I J < i ∨ (min I J = i ∧ max I J < i + 1)) ↔ min I J < i := by omega
            simp only [h1, hI, if_false]
    obtain ⟨A4, e4, r4⟩ := forRange_inv (fun j A => Rep n1 g1 n2 g2 dim A (Q i j)) (Nat.succ_le_of_lt hi) r3'
      (body := fun j A => do
          let A ← A.addSlice (n1 + i * g1) (n1 + i * g1 + g1) (n2 + j * g2) (n2 + j * g2 + g2) (T i j)
          A.addSlice (n1 + j * g1) (n1 + j * g1 + g1) (n2 + i * g2) (n2 + i * g2 + g2) (T i j))
      (by
        intro j A hij hj hA
        obtain ⟨B1, f1, s1⟩ := hA.mod (fun o v => o + v) (.g i) (.g j) (V := T i j) hi hj
          (hT i hi j hj).1 (hT i hi j hj).2
        obtain ⟨B2, f2, s2⟩ := s1.mod (fun o v => o + v) (.g j) (.g i) (V := T i j) hj hi
          (hT i hi j hj).1 (hT i hi j hj).2
        simp only [Sl.lo, Sl.hi] at f1 f2
        refine ⟨B2, ?_, s2.congr ?_⟩
        · simp only [Arr2.addSlice]; rw [f1, ok_bind, f2]
        · intro x y hx hy
          cases x with
          | v p => cases y <;> simp [symUpd, hQ, asmInner]
          | g I a => cases y with
            | v q => simp [symUpd, hQ, asmInner]
            | g J b =>
              simp only [symUpd, hQ, asmInner, Sl.hit_gg, asmTarget]
              have hne : ¬ i = j := by omega
              have hne' : ¬ j = i := by omega
              by_cases h1 : I = i ∧ J = j
              · obtain ⟨rfl, rfl⟩ := h1
                have c1 : ¬ (min I J < I ∨ (min I J = I ∧ max I J < J)) := by omega
                have c2 : (min I J < I ∨ (min I J = I ∧ max I J < J + 1)) := by omega
                have c3 : I < J := by omega
                rw [if_neg c1, if_pos c2]; simp [c3, hne]
              · by_cases h2 : I = j ∧ J = i
                · obtain ⟨rfl, rfl⟩ := h2
                  have c1 : ¬ (min I J < J ∨ (min I J = J ∧ max I J < I)) := by omega
                  have c2 : (min I J < J ∨ (min I J = J ∧ max I J < I + 1)) := by omega
                  have c3 : ¬ I < J := by omega
                  rw [if_neg c1, if_pos c2]; simp [c3, hne']
                · have c : (min I J < i ∨ (min I J = i ∧ max I J < j + 1)) ↔
                      (min I J < i ∨ (min I J = i ∧ max I J < j)) := by omega
                  simp only [c]
                  by_cases hI : I = i
                  · have hJ : J ≠ j := fun h => h1 ⟨hI, h⟩
                    have : I ≠ j := by omega
                    simp [hI, hJ, hne]
                  · by_cases hI' : I = j
                    · have hJ : J ≠ i := fun h => h2 ⟨hI', h⟩
                      simp [hI', hJ, hne']
                    · simp [hI, hI'])
    simp only [Sl.lo, Sl.hi] at e1 e2 e3
    refine ⟨A4, ?_, r4.congr ?_⟩
    · simp only [Arr2.setSlice]; rw [e1, ok_bind, e2, ok_bind, e3, ok_bind, e4]
    · intro x y hx hy
      cases x <;> cases y <;> simp only [hP, hQ, asmPartial, asmInner]
      simp only [Ix.ok_g] at hx hy
      congr 1
      simp only [eq_iff_iff]; omega
  obtain ⟨A, hA, hR⟩ := forRange_inv (fun i A => Rep n1 g1 n2 g2 dim A (P i)) (Nat.zero_le dim) h0 hs
  refine ⟨A, hA, hR.congr ?_⟩
  intro x y hx hy
  cases x <;> cases y <;> simp only [hP, asmPartial, asmTarget] <;> simp only [Ix.ok_v, Ix.ok_g] at hx hy
  · simp [hy.1]
  · simp [hx.1]
  · rw [if_pos (by omega)]

end Np
