import Verif.Np

/-! The stale-model guard of `eval_model`, at the level of object identity. `hp_vals` is a dataclass whose fields refer to
numpy arrays, floats or `None`; `setup_eval_model` stores `copy.copy(hp_vals)`, a new dataclass object with the *same*
references (eval/GpEvalModel.py:25), and `eval_model` compares the two dataclasses with `==` (lines 105-111, 238-244). -/

open Np

namespace GP.Guard

/-- An object that a field can refer to. `none` in `flt` is NaN. -/
inductive Cell where
  | nil
  | flt (x : Option ℝ)
  | arr (l : List ℝ)

/-- The fields of `HparaOptzVal` as references (addresses): base/GpHpara.py:12-19. -/
structure HpRef where
  beta : ℕ
  theta : ℕ
  kernel : ℕ
  varK : ℕ
  varFval : ℕ
  varFgrad : ℕ

/-- The fields in the order of the dataclass. -/
def HpRef.list (h : HpRef) : List ℕ := [h.beta, h.theta, h.kernel, h.varK, h.varFval, h.varFgrad]

/-- The values behind the references. -/
def HpRef.vals (heap : ℕ → Cell) (h : HpRef) : List Cell := h.list.map heap

open Classical in
/-- `bool(a == b)` for objects that are not identical: floats compare as usual (NaN differs from everything), comparing
with an array is elementwise with broadcasting, and only an elementwise result of size 1 has a truth value. An empty result
counts as `False`. -/
noncomputable def cellEq : Cell → Cell → Py Bool
  | .nil, .nil => .ok true
  | .nil, .flt _ => .ok false
  | .flt _, .nil => .ok false
  | .flt x, .flt y => .ok (decide (x = y ∧ x ≠ none))
  | .arr l, .nil => if l.length = 1 ∨ l.length = 0 then .ok false else .error .raised
  | .nil, .arr l => if l.length = 1 ∨ l.length = 0 then .ok false else .error .raised
  | .arr l, .flt x => if l.length = 1 then .ok (decide (x = l.head?)) else if l.length = 0 then .ok false else .error .raised
  | .flt x, .arr l => if l.length = 1 then .ok (decide (x = l.head?)) else if l.length = 0 then .ok false else .error .raised
  | .arr l, .arr m =>
    if l.length = 1 ∧ m.length = 1 then .ok (decide (l = m))
    else if l.length = 0 ∨ m.length = 0 then .ok false
    else .error .raised

/-- Comparison of the tuples of fields: dataclass `__eq__` (`a` is compared with `b` by identity first, then with `==`;
Python before 3.13). Stops at the first difference. -/
noncomputable def tupleEq (heap : ℕ → Cell) : List ℕ → List ℕ → Py Bool
  | [], [] => .ok true
  | a :: l, b :: m => if a = b then tupleEq heap l m else do
      let e ← cellEq (heap a) (heap b)
      if e then tupleEq heap l m else .ok false
  | _, _ => .ok false

/-- The part of the object state that the guard depends on. -/
structure GState where
  heap : ℕ → Cell
  /-- `self.hp_vals` -/
  hp : HpRef
  /-- `self._hp_vals_model_setup` -/
  setup : HpRef
  /-- ghost: the values of the hyperparameters when `setup_eval_model` was last called -/
  atSetup : List Cell

/-- What a program can do between calls. -/
inductive Op where
  /-- `set_custom_hp` or `self.hp_vals = h` -/
  | setHp (h : HpRef)
  /-- a new object is created at an unused address -/
  | alloc (a : ℕ) (c : Cell)
  /-- an existing array is changed in place -/
  | mutate (a : ℕ) (c : Cell)
  /-- `setup_eval_model` -/
  | setup

/-- An address that the two dataclass objects do not refer to. -/
def Unused (s : GState) (a : ℕ) : Prop := a ∉ s.hp.list ∧ a ∉ s.setup.list

def step (s : GState) : Op → GState
  | .setHp h => { s with hp := h }
  | .alloc a c => { s with heap := Function.update s.heap a c }
  | .mutate a c => { s with heap := Function.update s.heap a c }
  | .setup => { s with setup := s.hp, atSetup := s.hp.vals s.heap }                             -- line 25

/-- The guard: `some` exception unless the comparison is `True`: eval/GpEvalModel.py:105-111. -/
noncomputable def checkHp (s : GState) : Py Unit := do
  let e ← tupleEq s.heap s.hp.list s.setup.list
  if e then .ok () else .error .raised

/-- Executions: allocations use unused addresses, arrays are not changed in place. -/
inductive Reach : GState → GState → Prop
  | refl (s) : Reach s s
  | setHp {s s'} (h : HpRef) : Reach s s' → Reach s (step s' (.setHp h))
  | alloc {s s'} (a : ℕ) (c : Cell) : Reach s s' → Unused s' a → Reach s (step s' (.alloc a c))
  | setup {s s'} : Reach s s' → Reach s (step s' .setup)

end GP.Guard
