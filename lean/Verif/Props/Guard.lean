import Verif.Model.HpGuard

/-! Property C44: the stale-model guard. -/

open Np

namespace Props
open GP.Guard

/-- The stored references still hold the values of the last `setup_eval_model`. -/
def Fresh (s : GState) : Prop := s.setup.vals s.heap = s.atSetup

theorem fresh_step_alloc {s : GState} (h : Fresh s) {a : ℕ} (c : Cell) (ha : Unused s a) : Fresh (step s (.alloc a c)) := by
  unfold Fresh at *
  rw [show (step s (.alloc a c)).atSetup = s.atSetup from rfl, ← h]
  simp only [step, HpRef.vals]
  refine List.map_congr_left fun x hx => ?_
  have : x ≠ a := fun e => ha.2 (e ▸ hx)
  simp [Function.update_of_ne this]

theorem fresh_reach {s s' : GState} (h : Fresh s) (hr : Reach s s') : Fresh s' := by
  induction hr with
  | refl => exact h
  | setHp _ _ ih => exact ih
  | alloc a c _ ha ih => exact fresh_step_alloc ih c ha
  | setup _ _ => rfl

theorem tupleEq_self (heap : ℕ → Cell) (l : List ℕ) : tupleEq heap l l = .ok true := by
  induction l with
  | nil => rfl
  | cons a l ih => simp [tupleEq, ih]

/-- A true comparison means equal values (floats equal to one-element arrays count as equal). -/
inductive CellSame : Cell → Cell → Prop
  | refl (c) : CellSame c c
  | fltArr (x : ℝ) : CellSame (.flt (some x)) (.arr [x])
  | arrFlt (x : ℝ) : CellSame (.arr [x]) (.flt (some x))

theorem cellSame_of {a b : Cell} (h : cellEq a b = .ok true) : CellSame a b := by
  cases a with
  | nil =>
    cases b with
    | nil => exact .refl _
    | flt y => simp [cellEq] at h
    | arr m => simp only [cellEq] at h; split_ifs at h <;> simp at h
  | flt x =>
    cases b with
    | nil => simp [cellEq] at h
    | flt y =>
      simp only [cellEq, Except.ok.injEq, decide_eq_true_eq] at h
      rw [h.1]; exact .refl _
    | arr m =>
      simp only [cellEq] at h
      split_ifs at h with h1
      · obtain ⟨z, rfl⟩ := List.length_eq_one_iff.mp h1
        have h' : x = some z := by simp only [Except.ok.injEq] at h; exact of_decide_eq_true h
        rw [h']; exact .fltArr z
      · simp at h
  | arr l =>
    cases b with
    | nil => simp only [cellEq] at h; split_ifs at h <;> simp at h
    | flt y =>
      simp only [cellEq] at h
      split_ifs at h with h1
      · obtain ⟨z, rfl⟩ := List.length_eq_one_iff.mp h1
        have h' : y = some z := by simp only [Except.ok.injEq] at h; exact of_decide_eq_true h
        rw [h']; exact .arrFlt z
      · simp at h
    | arr m =>
      simp only [cellEq] at h
      split_ifs at h with h1 h2
      · simp at h
        rw [h]; exact .refl _
      · simp at h

theorem tupleEq_true {heap : ℕ → Cell} {l m : List ℕ} (h : tupleEq heap l m = .ok true) :
    List.Forall₂ CellSame (l.map heap) (m.map heap) := by
  induction l generalizing m with
  | nil =>
    cases m with
    | nil => exact .nil
    | cons b m => simp [tupleEq] at h
  | cons a l ih =>
    cases m with
    | nil => simp [tupleEq] at h
    | cons b m =>
      simp only [tupleEq] at h
      split_ifs at h with hab
      · subst hab
        exact .cons (.refl _) (ih h)
      · cases he : cellEq (heap a) (heap b) with
        | error e => rw [he] at h; cases h
        | ok t =>
          rw [he] at h
          cases t with
          | false => cases h
          | true => exact .cons (cellSame_of he) (ih h)

/-- **C44.** For every sequence of replacing the hyperparameters, creating arrays and setting the model up, starting right
after a setup: whenever evaluation is accepted, the values of the current hyperparameters are those with which the model
was last set up (so evaluation after replacing them by different values is rejected); and evaluation right after a setup
is accepted. -/
theorem C44_guard_rejects_stale {s0 s : GState} (h0 : Fresh s0) (hr : Reach s0 s) :
    (checkHp s = .ok () → List.Forall₂ CellSame (s.hp.vals s.heap) s.atSetup) ∧ checkHp (step s .setup) = .ok () := by
  constructor
  · intro h
    have hf : Fresh s := fresh_reach h0 hr
    unfold checkHp at h
    cases ht : tupleEq s.heap s.hp.list s.setup.list with
    | error e => rw [ht] at h; cases h
    | ok b =>
      cases b with
      | false => rw [ht] at h; cases h
      | true =>
        rw [← hf]
        exact tupleEq_true ht
  · show checkHp { s with setup := s.hp, atSetup := _ } = _
    unfold checkHp
    simp only [tupleEq_self]
    rfl

/-- **C44**, in-place changes. The stored copy shares the arrays of `hp_vals`, so that changing one of them in place after
the setup is never detected: evaluation is accepted with hyperparameters that differ from those of the setup. -/
theorem C44_inplace_change_undetected (s : GState) (a : ℕ) (c : Cell) :
    checkHp (step (step s .setup) (.mutate a c)) = .ok () ∧
    (step (step s .setup) (.mutate a c)).atSetup = s.hp.vals s.heap ∧
    (a ∈ s.hp.list → c ∈ (step (step s .setup) (.mutate a c)).hp.vals (step (step s .setup) (.mutate a c)).heap) := by
  refine ⟨?_, rfl, fun ha => ?_⟩
  · unfold checkHp
    simp only [step, tupleEq_self]
    rfl
  · simp only [step, HpRef.vals]
    exact List.mem_map.mpr ⟨a, ha, by simp⟩

/-- **C44**, spurious rejection. Replacing `theta` by an equal but distinct array of two or more entries makes evaluation
fail (the truth value of an elementwise comparison is ambiguous). -/
theorem C44_equal_copy_rejected (s : GState) (b : ℕ) (l : List ℝ) (hl : 2 ≤ l.length) (hne : b ≠ s.hp.theta)
    (h1 : s.heap s.hp.theta = .arr l) (h2 : s.heap b = .arr l) :
    checkHp (step (step s .setup) (.setHp { s.hp with theta := b })) = .error .raised := by
  unfold checkHp
  have e : cellEq (s.heap b) (s.heap s.hp.theta) = .error .raised := by
    rw [h1, h2]
    simp only [cellEq]
    rw [if_neg (by omega), if_neg (by omega)]
  simp only [step, HpRef.list, tupleEq, if_true, hne, if_false, e]
  rfl

/-- A concrete history: a model with two length scales is set up, then `theta` is replaced by other values: rejected. -/
example : ∃ s0 s, Fresh s0 ∧ Reach s0 s ∧ checkHp s = .error .raised ∧ s.hp.vals s.heap ≠ s.atSetup := by
  let h : HpRef := ⟨0, 1, 2, 3, 2, 2⟩
  let heap : ℕ → Cell := fun a => if a = 0 then .arr [5] else if a = 1 then .arr [1, 2] else if a = 3 then .flt (some 7) else .nil
  let s0 : GState := ⟨heap, h, h, h.vals heap⟩
  let s1 := step s0 (.alloc 4 (.arr [1, 3]))
  let s2 := step s1 (.setHp { h with theta := 4 })
  refine ⟨s0, s2, rfl, .setHp _ (.alloc 4 _ (.refl _) (by simp [Unused, s0, h, HpRef.list])), ?_, ?_⟩
  · unfold checkHp
    simp [s2, s1, s0, h, heap, step, HpRef.list, tupleEq, cellEq, Function.update]
  · simp [s2, s1, s0, h, heap, step, HpRef.list, HpRef.vals, Function.update]

/-! C44 applied to a heap with `theta` an array of two entries (address 1) and an equal copy of it (address 4). -/
def exHeap : ℕ → Cell := fun a => if a = 0 then .arr [5] else if a = 1 ∨ a = 4 then .arr [1, 2] else if a = 3 then .flt (some 7) else .nil
def exGuard : GState := ⟨exHeap, ⟨0, 1, 2, 3, 2, 2⟩, ⟨0, 1, 2, 3, 2, 2⟩, HpRef.vals exHeap ⟨0, 1, 2, 3, 2, 2⟩⟩
example := C44_guard_rejects_stale (s0 := exGuard) (s := step exGuard (.setHp ⟨0, 4, 2, 3, 2, 2⟩)) rfl (.setHp _ (.refl _))
example := C44_inplace_change_undetected exGuard 1 (.arr [7, 8])
example := C44_equal_copy_rejected exGuard 4 [1, 2] (le_refl 2) (by decide) (by simp [exGuard, exHeap]) (by simp [exGuard, exHeap])

end Props
