import Verif.Model.Results
import Mathlib.Order.Bounds.Basic
import Mathlib.Data.Real.Basic
import Mathlib.Data.Set.Insert

/-! C105: the convergence history is the running best. -/

open Np GP

noncomputable section

namespace Props

/-- The numbers among the first `i + 1` entries. -/
def upTo (data : FVec) (i : ℕ) : Set ℝ := {x | ∃ j ≤ i, data.get j = some x}

theorem foldl_max_ge (l : List ℕ) : ∀ a, a ≤ l.foldl max a ∧ (∀ x ∈ l, x ≤ l.foldl max a) ∧ (l.foldl max a = a ∨ l.foldl max a ∈ l) := by
  induction l with
  | nil => intro a; simp
  | cons y l ih =>
    intro a
    obtain ⟨h1, h2, h3⟩ := ih (max a y)
    refine ⟨(le_max_left a y).trans h1, ?_, ?_⟩
    · intro x hx
      rcases List.mem_cons.1 hx with rfl | hx
      · exact (le_max_right a x).trans h1
      · exact h2 x hx
    · rcases h3 with h3 | h3
      · rcases max_choice a y with h | h
        · exact .inl (h3.trans h)
        · exact .inr (by rw [List.foldl_cons, h3, h]; simp)
      · exact .inr (List.mem_cons_of_mem _ h3)

open Classical in
theorem nMax_iff (data : FVec) (i : ℕ) (hi : i < data.n)
    (hne : ((List.range data.n).filter fun i => (data.get i).isSome).length ≠ 0) :
    i < (if ∃ i < data.n, data.get i = none then
        min data.n (((List.range data.n).filter fun i => (data.get i).isSome).foldl max 0 + 1) else data.n) ↔
      ∃ j, i ≤ j ∧ j < data.n ∧ data.get j ≠ none := by
  have hmem : ∀ j, j ∈ ((List.range data.n).filter fun i => (data.get i).isSome) ↔ j < data.n ∧ data.get j ≠ none := by
    intro j
    simp [Option.isSome_iff_ne_none]
  generalize hl : ((List.range data.n).filter fun i => (data.get i).isSome) = l at hmem hne
  obtain ⟨-, h2, h3⟩ := foldl_max_ge l 0
  split_ifs with h
  · rw [lt_min_iff]
    constructor
    · rintro ⟨-, h4⟩
      rcases h3 with h3 | h3
      · rw [h3] at h4
        obtain rfl : i = 0 := by omega
        obtain ⟨x, hx⟩ := List.exists_mem_of_length_pos (Nat.pos_of_ne_zero hne)
        obtain ⟨h5, h6⟩ := (hmem x).1 hx
        exact ⟨x, Nat.zero_le _, h5, h6⟩
      · obtain ⟨h5, h6⟩ := (hmem _).1 h3
        exact ⟨_, by omega, h5, h6⟩
    · rintro ⟨j, h4, h5, h6⟩
      have := h2 j ((hmem j).2 ⟨h5, h6⟩)
      omega
  · push Not at h
    exact ⟨fun _ => ⟨i, le_rfl, hi, h i hi⟩, fun _ => hi⟩

/-- What is common to the smallest and the largest value. -/
structure BestOp (op : Fl → Fl → Fl) (B : Set ℝ → ℝ → Prop) : Prop where
  one : ∀ x, B {x} x
  left : ∀ x, op (some x) none = some x
  right : ∀ b, op none b = b
  both : ∀ S x y, B S x → ∃ z, op (some x) (some y) = some z ∧ B (insert y S) z

theorem best_min : BestOp nanMin2 IsLeast where
  one x := ⟨rfl, by rintro y rfl; exact le_rfl⟩
  left _ := rfl
  right _ := rfl
  both S x y h := ⟨min x y, rfl, by rw [min_comm]; exact h.insert y⟩

theorem best_max : BestOp nanMax2 IsGreatest where
  one x := ⟨rfl, by rintro y rfl; exact le_rfl⟩
  left _ := rfl
  right _ := rfl
  both S x y h := ⟨max x y, rfl, by rw [max_comm]; exact h.insert y⟩

theorem upTo_succ (data : FVec) (i : ℕ) :
    upTo data (i + 1) = match data.get (i + 1) with | some x => insert x (upTo data i) | none => upTo data i := by
  ext y
  cases h : data.get (i + 1) with
  | none =>
    simp only [upTo, Set.mem_setOf_eq]
    constructor
    · rintro ⟨j, h1, h2⟩
      rcases Nat.lt_or_ge i j with h3 | h3
      · obtain rfl : j = i + 1 := by omega
        rw [h] at h2; cases h2
      · exact ⟨j, h3, h2⟩
    · rintro ⟨j, h1, h2⟩; exact ⟨j, by omega, h2⟩
  | some x =>
    simp only [upTo, Set.mem_setOf_eq, Set.mem_insert_iff]
    constructor
    · rintro ⟨j, h1, h2⟩
      rcases Nat.lt_or_ge i j with h3 | h3
      · obtain rfl : j = i + 1 := by omega
        rw [h] at h2
        exact .inl (Option.some.inj h2).symm
      · exact .inr ⟨j, h3, h2⟩
    · rintro (rfl | ⟨j, h1, h2⟩)
      · exact ⟨i + 1, le_rfl, h⟩
      · exact ⟨j, by omega, h2⟩

theorem loop_best {op : Fl → Fl → Fl} {B : Set ℝ → ℝ → Prop} (hB : BestOp op B) (data : FVec) {m : ℕ} (hm : 1 ≤ m) :
    ∃ r, forRange 1 m (⟨data.n, fun i => if i = 0 then data.get 0 else none⟩ : FVec)
        (fun i b => .ok ⟨b.n, Function.update b.get i (op (b.get (i - 1)) (data.get i))⟩) = .ok r ∧ r.n = data.n ∧
      ∀ i, (i < m → (∀ v, r.get i = some v → B (upTo data i) v) ∧ (r.get i = none → upTo data i = ∅)) ∧
        (m ≤ i → r.get i = none) := by
  have := forRange_inv
    (fun k (b : FVec) => b.n = data.n ∧
      ∀ i, (i < k → (∀ v, b.get i = some v → B (upTo data i) v) ∧ (b.get i = none → upTo data i = ∅)) ∧
        (k ≤ i → b.get i = none)) hm
    (init := (⟨data.n, fun i => if i = 0 then data.get 0 else none⟩ : FVec))
    (body := fun i b => .ok ⟨b.n, Function.update b.get i (op (b.get (i - 1)) (data.get i))⟩)
    ⟨rfl, fun i => ⟨fun h => by
        obtain rfl : i = 0 := by omega
        have h0 : upTo data 0 = {x | data.get 0 = some x} := by
          ext x; simp [upTo]
        refine ⟨fun v hv => ?_, fun hv => ?_⟩
        · have hv : data.get 0 = some v := hv
          rw [h0, hv]
          have : {x | some v = some x} = {v} := by ext x; simp [eq_comm]
          rw [this]; exact hB.one v
        · have hv : data.get 0 = none := hv
          rw [h0, hv]; simp, fun h => by
        show (if i = 0 then _ else none) = none
        rw [if_neg (by omega)]⟩⟩
    (by
      intro k b hk _ ⟨hn, h⟩
      refine ⟨_, rfl, hn, fun i => ⟨fun hi => ?_, fun hi => ?_⟩⟩
      · by_cases hik : i = k
        · subst hik
          obtain ⟨p, rfl⟩ : ∃ p, i = p + 1 := ⟨i - 1, by omega⟩
          obtain ⟨h1, h2⟩ := (h p).1 (by omega)
          have e : ∀ w, Function.update b.get (p + 1) w (p + 1) = w := fun w => Function.update_self ..
          rw [upTo_succ]
          simp only [e, Nat.add_sub_cancel]
          cases hb : b.get p with
          | none =>
            rw [hB.right, h2 hb]
            cases hd : data.get (p + 1) with
            | none => simp
            | some y =>
              refine ⟨fun v hv => ?_, fun hv => by cases hv⟩
              cases hv
              simpa using hB.one y
          | some x =>
            cases hd : data.get (p + 1) with
            | none =>
              rw [hB.left]
              refine ⟨fun v hv => ?_, fun hv => by cases hv⟩
              cases hv
              exact h1 x hb
            | some y =>
              obtain ⟨z, hz, hz'⟩ := hB.both _ _ y (h1 x hb)
              rw [hz]
              refine ⟨fun v hv => ?_, fun hv => by cases hv⟩
              cases hv
              exact hz'
        · have e : Function.update b.get k (op (b.get (k - 1)) (data.get k)) i = b.get i := Function.update_of_ne hik ..
          simp only [e]
          exact (h i).1 (by omega)
      · have e : Function.update b.get k (op (b.get (k - 1)) (data.get k)) i = b.get i := Function.update_of_ne (by omega) ..
        simp only [e]
        exact (h i).2 (by omega))
  exact this

open Classical in
theorem best_common {op : Fl → Fl → Fl} {B : Set ℝ → ℝ → Prop} (hB : BestOp op B) (hu : ∀ S x y, B S x → B S y → x = y)
    (hne : ∀ S x, B S x → S.Nonempty) (data : FVec) (hn : 0 < data.n) {method : String}
    (hrun : ((List.range data.n).filter fun i => (data.get i).isSome).length ≠ 0 → bestAtAllIter data method =
      forRange 1 (if ∃ i < data.n, data.get i = none then
        min data.n (((List.range data.n).filter fun i => (data.get i).isSome).foldl max 0 + 1) else data.n)
        (⟨data.n, fun i => if i = 0 then data.get 0 else none⟩ : FVec)
        (fun i b => .ok ⟨b.n, Function.update b.get i (op (b.get (i - 1)) (data.get i))⟩)) :
    ∃ r, bestAtAllIter data method = .ok r ∧ r.n = data.n ∧ ∀ i < data.n, ∀ v,
      r.get i = some v ↔ (∃ j, i ≤ j ∧ j < data.n ∧ data.get j ≠ none) ∧ B (upTo data i) v := by
  by_cases h0 : ((List.range data.n).filter fun i => (data.get i).isSome).length = 0
  · have hall : ∀ i < data.n, data.get i = none := by
      intro i hi
      by_contra hc
      have : i ∈ ((List.range data.n).filter fun i => (data.get i).isSome) := by
        simp [hi, Option.isSome_iff_ne_none, hc]
      rw [List.length_eq_zero_iff.1 h0] at this
      cases this
    refine ⟨⟨data.n, fun i => if i = 0 then data.get 0 else none⟩, ?_, rfl, fun i hi v => ?_⟩
    · unfold bestAtAllIter
      rw [if_neg (by omega)]
      simp only [h0, if_true]
    · constructor
      · intro h
        dsimp only at h
        split_ifs at h with h1
        rw [hall 0 hn] at h
        cases h
      · rintro ⟨⟨j, -, h2, h3⟩, -⟩
        exact absurd (hall j h2) h3
  · rw [hrun h0]
    have hm : 1 ≤ (if ∃ i < data.n, data.get i = none then
        min data.n (((List.range data.n).filter fun i => (data.get i).isSome).foldl max 0 + 1) else data.n) := by
      split_ifs <;> omega
    obtain ⟨r, hr, h1, h2⟩ := loop_best hB data hm
    refine ⟨r, hr, h1, fun i hi v => ?_⟩
    have hi' := nMax_iff data i hi h0
    constructor
    · intro hv
      by_cases hlt : i < (if ∃ i < data.n, data.get i = none then
        min data.n (((List.range data.n).filter fun i => (data.get i).isSome).foldl max 0 + 1) else data.n)
      · exact ⟨hi'.1 hlt, ((h2 i).1 hlt).1 v hv⟩
      · rw [(h2 i).2 (not_lt.1 hlt)] at hv
        cases hv
    · rintro ⟨hj, hb⟩
      obtain ⟨h3, h4⟩ := (h2 i).1 (hi'.2 hj)
      cases hr' : r.get i with
      | none =>
        have := hne _ _ hb
        rw [h4 hr'] at this
        exact absurd this (by simp)
      | some w => rw [hu _ _ _ (h3 w hr') hb]

/-- C105: entry `i` of the history is the smallest of the numbers among the first `i + 1` entries of the data; it is NaN if there is
none yet, or if no number follows (at `i` or later). -/
theorem C105_running_min (data : FVec) (hn : 0 < data.n) :
    ∃ r, bestAtAllIter data "min" = .ok r ∧ r.n = data.n ∧ ∀ i < data.n, ∀ v,
      r.get i = some v ↔ (∃ j, i ≤ j ∧ j < data.n ∧ data.get j ≠ none) ∧ IsLeast {x | ∃ j ≤ i, data.get j = some x} v := by
  classical
  refine best_common best_min (fun S x y h h' => h.unique h') (fun S x h => h.nonempty) data hn fun h0 => ?_
  unfold bestAtAllIter
  rw [if_neg (by omega)]
  simp only [h0, if_false, if_true]

/-- C105: with the method `max` the largest. -/
theorem C105_running_max (data : FVec) (hn : 0 < data.n) :
    ∃ r, bestAtAllIter data "max" = .ok r ∧ r.n = data.n ∧ ∀ i < data.n, ∀ v,
      r.get i = some v ↔ (∃ j, i ≤ j ∧ j < data.n ∧ data.get j ≠ none) ∧ IsGreatest {x | ∃ j ≤ i, data.get j = some x} v := by
  classical
  refine best_common best_max (fun S x y h h' => h.unique h') (fun S x h => h.nonempty) data hn fun h0 => ?_
  unfold bestAtAllIter
  rw [if_neg (by omega)]
  simp only [h0, if_false, show ("max" : String) = "min" ↔ False by decide, if_true]

/-- C105: an unknown method is refused as soon as there is a number; no data raise an IndexError. -/
theorem C105_refuses (data : FVec) (m : String) :
    (data.n = 0 → bestAtAllIter data m = .error .index) ∧
    (m ≠ "min" → m ≠ "max" → (∃ i < data.n, data.get i ≠ none) → bestAtAllIter data m = .error .raised) := by
  constructor
  · intro h; simp [bestAtAllIter, h]
  · rintro h1 h2 ⟨i, hi, hd⟩
    have h0 : ((List.range data.n).filter fun i => (data.get i).isSome).length ≠ 0 := by
      intro h
      have : i ∈ ((List.range data.n).filter fun i => (data.get i).isSome) := by
        simp [hi, Option.isSome_iff_ne_none, hd]
      rw [List.length_eq_zero_iff.1 h] at this
      cases this
    unfold bestAtAllIter
    rw [if_neg (by omega)]
    simp only [h0, if_false, h1, h2]

/-- A history with a gap at the start, one in the middle and one at the end: NaN, 3, NaN, 2, NaN. -/
def exHistory : FVec := ⟨5, fun i => if i = 1 then some 3 else if i = 3 then some 2 else none⟩

example : ∃ r, bestAtAllIter exHistory "min" = .ok r ∧ r.get 2 = some 3 ∧ r.get 3 = some 2 ∧ r.get 4 = none := by
  obtain ⟨r, h1, -, h2⟩ := C105_running_min exHistory (by decide)
  refine ⟨r, h1, (h2 2 (by decide) 3).2 ⟨⟨3, by decide, by decide, by simp [exHistory]⟩, ?_, ?_⟩,
    (h2 3 (by decide) 2).2 ⟨⟨3, by decide, by decide, by simp [exHistory]⟩, ?_, ?_⟩, ?_⟩
  · exact ⟨1, by decide, by simp [exHistory]⟩
  · rintro x ⟨j, hj, hx⟩
    simp only [exHistory] at hx
    split_ifs at hx with ha hb
    · cases hx; norm_num
    · omega
  · exact ⟨3, by decide, by simp [exHistory]⟩
  · rintro x ⟨j, hj, hx⟩
    simp only [exHistory] at hx
    split_ifs at hx with ha hb <;> cases hx <;> norm_num
  · cases h : r.get 4 with
    | none => rfl
    | some v =>
      obtain ⟨⟨j, h3, h4, h5⟩, -⟩ := (h2 4 (by decide) v).1 h
      have h4 : j < 5 := h4
      obtain rfl : j = 4 := by omega
      simp [exHistory] at h5

end Props
