import Verif.Model.Rescale

/-! What it means that scaled data correspond to original data, and that two arrays are equal. -/

open Np GP

noncomputable section

namespace Spec

/-- The image of a point under shift and scale. -/
def sclPt (s : Scl) (x : ℕ → ℝ) (d : ℕ) : ℝ := (x d - s.xShift.get d) * s.xScale.get d

/-- Equal arrays: same shape, same entries. -/
def Eq1 (a b : Arr1) : Prop := a.n = b.n ∧ ∀ i < a.n, a.get i = b.get i
/-- Equal arrays: same shape, same entries. -/
def Eq2 (a b : Arr2) : Prop := a.r = b.r ∧ a.c = b.c ∧ ∀ i < a.r, ∀ j < a.c, a.get i j = b.get i j
/-- Equal arrays: same shape, same entries. -/
def Eq3 (a b : Arr3) : Prop :=
  a.d = b.d ∧ a.r = b.r ∧ a.c = b.c ∧ ∀ i < a.d, ∀ j < a.r, ∀ k < a.c, a.get i j k = b.get i j k
/-- Both absent, or both present and related. -/
def OptRel {α : Type} (r : α → α → Prop) : Option α → Option α → Prop
  | none, none => True
  | some a, some b => r a b
  | _, _ => False

/-- The arrays that describe functions of a point: the last axis has one entry per coordinate. -/
structure Obj6Ok (dim : ℕ) (a : Obj6) : Prop where
  dmu : ∀ A, a.dmu = some A → A.c = dim
  dsig : ∀ A, a.dsig = some A → A.c = dim
  d2mu : ∀ A, a.d2mu = some A → A.c = dim
  d2sig : ∀ A, a.d2sig = some A → A.c = dim

/-- Equal tuples of arrays. -/
structure Obj6Eq (a b : Obj6) : Prop where
  mu : OptRel Eq1 a.mu b.mu
  sig : OptRel Eq1 a.sig b.sig
  dmu : OptRel Eq2 a.dmu b.dmu
  dsig : OptRel Eq2 a.dsig b.dsig
  d2mu : OptRel Eq3 a.d2mu b.d2mu
  d2sig : OptRel Eq3 a.d2sig b.d2sig

/-- `G'` holds the gradients wrt the scaled point of the scaled function whose gradients wrt the original point are in `G`:
`d(c f)/d(s_i x_i) = c/s_i df/dx_i`. -/
def GradImage (s : Scl) (c : ℝ) (G G' : Arr2) : Prop :=
  G.c = s.xInit.c → G'.r = G.r ∧ G'.c = G.c ∧ ∀ a < G.r, ∀ i < G.c, G'.get a i = c * G.get a i / s.xScale.get i

/-- The same for several functions. -/
def GradImage3 (s : Scl) (c : ℝ) (G G' : Arr3) : Prop :=
  G.c = s.xInit.c → G'.d = G.d ∧ G'.r = G.r ∧ G'.c = G.c ∧
    ∀ a < G.d, ∀ b < G.r, ∀ i < G.c, G'.get a b i = c * G.get a b i / s.xScale.get i

/-- `o'` holds the objective data `o`, shifted and scaled. -/
structure ObjImage (s : Scl) (o o' : ObjData) : Prop where
  val : o'.val.n = o.val.n ∧ ∀ a < o.val.n, o'.val.get a = s.objScale * (o.val.get a - s.objShift)
  std : OptRel (fun t t' => t'.n = t.n ∧ ∀ a < t.n, t'.get a = s.objScale * t.get a) o.std o'.std
  grad : OptRel (GradImage s s.objScale) o.grad o'.grad
  stdGrad : OptRel (GradImage s s.objScale) o.stdGrad o'.stdGrad

/-- `b'` is the image of the bounds `b` (of the right size). -/
def BoundImage (s : Scl) (b b' : Arr1) : Prop :=
  b.n = s.xInit.c → b'.n = b.n ∧ ∀ d < b.n, b'.get d = sclPt s b.get d

/-- `c'` are the linear constraints `c` in terms of the scaled point `(x - x_shift) * scale`. -/
def LinImage (s : Scl) (c c' : Arr2 × Arr1 × Arr1) : Prop :=
  c.1.c = s.xInit.c ∧ c'.1.r = c.1.r ∧ c'.1.c = c.1.c ∧
  (∀ a < c.1.r, ∀ d < c.1.c, c'.1.get a d = c.1.get a d / s.xScale.get d) ∧
  (c.2.1.n = c.1.r → c'.2.1.n = c.1.r ∧
    ∀ a < c.1.r, c'.2.1.get a = c.2.1.get a - ∑ d ∈ Finset.range c.1.c, c.1.get a d * s.xShift.get d) ∧
  (c.2.2.n = c.1.r → c'.2.2.n = c.1.r ∧
    ∀ a < c.1.r, c'.2.2.get a = c.2.2.get a - ∑ d ∈ Finset.range c.1.c, c.1.get a d * s.xShift.get d)

/-- `o'` holds the nonlinear-constraint data `o`, shifted and scaled. -/
structure NlcImage (s : Scl) (o o' : NlcData) : Prop where
  val : o.val.c = s.nlcShift.n → o'.val.r = o.val.r ∧ o'.val.c = o.val.c ∧
    ∀ a < o.val.r, ∀ j < o.val.c, o'.val.get a j = s.nlcScale * (o.val.get a j - s.nlcShift.get j)
  std : OptRel (fun t t' => t'.r = t.r ∧ t'.c = t.c ∧ ∀ a < t.r, ∀ j < t.c, t'.get a j = s.nlcScale * t.get a j) o.std o'.std
  grad : OptRel (GradImage3 s s.nlcScale) o.grad o'.grad
  stdGrad : OptRel (GradImage3 s s.nlcScale) o.stdGrad o'.stdGrad

/-- The scaled data held by the object are the images of the stored original data under its current scaling. -/
structure Images (s : Scl) : Prop where
  shift_n : s.xShift.n = s.xInit.c
  scale_n : s.xScale.n = s.xInit.c
  x : s.xScl.r = s.xInit.r ∧ s.xScl.c = s.xInit.c ∧
    ∀ a < s.xInit.r, ∀ d < s.xInit.c, s.xScl.get a d = sclPt s (s.xInit.get a) d
  R : s.R.d = s.xInit.c ∧ s.R.r = s.xInit.r ∧ s.R.c = s.xInit.r ∧
    ∀ d < s.xInit.c, ∀ a < s.xInit.r, ∀ b < s.xInit.r, s.R.get d a b = s.xScl.get a d - s.xScl.get b d
  obj : ∀ o, s.obj = some o → ∃ o', s.objScl = some o' ∧ ObjImage s o o'
  box : ∀ b, s.box = some b → ∃ b', s.boxScl = some b' ∧ BoundImage s b.1 b'.1 ∧ BoundImage s b.2 b'.2
  lin : ∀ c, s.lin = some c → ∃ c', s.linScl = some c' ∧ LinImage s c c'
  nlc : ∀ o, s.nlc = some o → ∃ o', s.nlcScl = some o' ∧ NlcImage s o o'

/-- Euclidean distance of two rows. -/
def ptDist (X : Arr2) (a b : ℕ) : ℝ := Real.sqrt (∑ d ∈ Finset.range X.c, (X.get a d - X.get b d) ^ 2)

/-- `D` is the smallest distance between two of the points. -/
def IsMinDist (X : Arr2) (D : ℝ) : Prop :=
  (∃ a < X.r, ∃ b < X.r, a ≠ b ∧ ptDist X a b = D) ∧ ∀ a < X.r, ∀ b < X.r, a ≠ b → D ≤ ptDist X a b

/-- `D` is the largest distance between two of the points. -/
def IsMaxDist (X : Arr2) (D : ℝ) : Prop :=
  (∃ a < X.r, ∃ b < X.r, a ≠ b ∧ ptDist X a b = D) ∧ ∀ a < X.r, ∀ b < X.r, a ≠ b → ptDist X a b ≤ D

/-- The points after multiplying coordinate `d` by `w d`. -/
def stretched (X : Arr2) (w : ℕ → ℝ) : Arr2 := ⟨X.r, X.c, fun a d => X.get a d * w d⟩

/-- A history: the object is created and then methods are called; none of the calls raised. -/
inductive SclReach : Scl → Prop
  | new {x idx u m d s} : newScl x idx u m d = (s, .ok ()) → SclReach s
  | call {s s'} (op : SclOp) : SclReach s → op.run s = (s', .ok ()) → SclReach s'

end Spec
