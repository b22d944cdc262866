import Verif.Model.GaussProc
import Verif.Spec.Ready
import Verif.Spec.SclSpec

/-! Specification of the state of a `GaussianProcess` object: which arguments of `set_data` fit together, how the noise is
classified, what is stored, and what the configuration of the conditioning method means. -/

open Np GP

noncomputable section

namespace Spec

/-! ### Data -/

/-- The number of points with a gradient. -/
def numGrads (d : DataIn) : ℕ := match d.bvec with | none => d.fval.size | some b => b.count true

/-- The noise level is known: standard deviations are given and none of them is NaN. -/
def NoiseKnown (s : Option (Nd Fl)) (S : Nd Fl) : Prop := s = some S ∧ ∀ k < S.size, S.flat k ≠ none

/-- The noise level is unknown: no standard deviations are given, or one of them is NaN. -/
def NoiseUnknown (s : Option (Nd Fl)) : Prop := ∀ S, s = some S → ∃ k < S.size, S.flat k = none

/-- The data are given as free of noise: all standard deviations are known and below `1e-10`. -/
def NoiseZero (s : Option (Nd Fl)) : Prop := ∃ S, NoiseKnown s S ∧ ∀ k < S.size, ∃ v, S.flat k = some v ∧ v < 1 / 10 ^ 10

/-- The shapes of the values, gradients, standard deviations and mask fit together (the points: see `PointsFit`). -/
structure Consistent (dim : ℕ) (useGrad : Bool) (d : DataIn) : Prop where
  x : d.x.shape.length = 2
  mask : ∀ b, d.bvec = some b → useGrad = true ∧ b.length = d.fval.size
  grad : d.grad.isSome = useGrad
  gradShape : ∀ G, d.grad = some G → G.shape = [numGrads d, dim]
  stdFval : ∀ S, NoiseKnown d.stdFval S → S.size = d.fval.size
  stdGrad : useGrad = true → ∀ S, NoiseKnown d.stdGrad S → S.shape = [numGrads d, dim]

/-- One row per function value, one column per coordinate. -/
def PointsFit (dim : ℕ) (d : DataIn) : Prop := d.x.shape = [d.fval.size, dim]

/-- What `set_data` leaves in the object: counters, flags and data as given by the arguments. -/
structure Loaded (d : DataIn) (o o' : GpObj) : Prop where
  st : o'.st = o.st
  mtd : o'.mtd = o.mtd
  etaConst : o'.etaConst = o.etaConst
  useCstr : o'.useCstr = o.useCstr
  useScl : o'.useScl = o.useScl
  nEval : o'.nEval = d.fval.size
  nGrad : o'.nGrad = if o.st.useGrad then numGrads d else 0
  nData : o'.nData = o'.nEval + o'.nGrad * o.st.dim
  x : ∃ X, o'.xIn = some X ∧ d.x.shape = [X.r, X.c] ∧ ∀ i j, X.get i j = d.x.get [i, j]
  fval : ∃ f, o'.fvalIn = some f ∧ f.n = d.fval.size ∧ ∀ k, f.get k = d.fval.flat k
  grad : (d.grad = none ∧ o'.gradIn = none) ∨
    ∃ G G', d.grad = some G ∧ o'.gradIn = some G' ∧ G.shape = [G'.r, G'.c] ∧ ∀ i j, G'.get i j = G.get [i, j]
  mask : o'.bvec = d.bvec
  stdFval : (NoiseUnknown d.stdFval ∧ o'.knownFval = false ∧ o'.stdFvalIn = none) ∨
    ∃ S s, NoiseKnown d.stdFval S ∧ o'.knownFval = true ∧ o'.stdFvalIn = some s ∧ s.n = S.size ∧ ∀ k < s.n, S.flat k = some (s.get k)
  stdGrad : ((o.st.useGrad = false ∨ NoiseUnknown d.stdGrad) ∧ o'.knownFgrad = false ∧ o'.stdGradIn = none) ∨
    ∃ S s, o.st.useGrad = true ∧ NoiseKnown d.stdGrad S ∧ o'.knownFgrad = true ∧ o'.stdGradIn = some s ∧ S.shape = [s.r, s.c] ∧
      ∀ i < s.r, ∀ j < s.c, S.get [i, j] = some (s.get i j)
  fvalZero : o'.fvalZero = true ↔ NoiseZero d.stdFval
  fgradZero : o'.fgradZero = true ↔ (o.st.useGrad = false ∨ NoiseZero d.stdGrad)
  noisy : o'.noisy = false ↔ (NoiseZero d.stdFval ∧ (o.st.useGrad = false ∨ NoiseZero d.stdGrad))
  optFval : o'.optzVarFval = true ↔ NoiseUnknown d.stdFval
  optFgrad : o'.optzVarFgrad = true ↔ (o.st.useGrad = true ∧ NoiseUnknown d.stdGrad)
  eta : calcNugget o.nugOpts d.fval.size = .ok (o'.etaKbase, o'.etaKgrad)
  etaK : if o.st.useGrad then o'.etaKgrad = some o'.etaK else o'.etaK = o'.etaKbase
  rtensor : o.useScl = false → ∃ X R, o'.xIn = some X ∧ calcRtensor X X = .ok R ∧ o'.rInit = some R
  scl : o.useScl = true → ∃ s, o'.scl = some s ∧ SclReach s ∧ some s.xInit = o'.xIn ∧
    ∃ od, s.obj = some od ∧ some od.val = o'.fvalIn ∧ od.grad = o'.gradIn ∧ od.std = o'.stdFvalIn ∧
      (o.st.useGrad = true → od.stdGrad = o'.stdGradIn)

/-! ### Conditioning method -/

/-- The names of the methods. -/
def wcName : WcMtd → String
  | .base => "base"
  | .precon => "precon"
  | .rescaleOrigin => "rescale_origin"
  | .rescaleEtaVary => "rescale_eta_vary"
  | .dfltVmin => "dflt_vmin"
  | .dfltVmax => "dflt_vmax"

/-- The supported methods. -/
def wcAvail : List String := ["base", "precon", "rescale_origin", "rescale_eta_vary", "dflt_vmin", "dflt_vmax"]

/-- The configuration that a request for method `m` asks for: without gradients the base method is used; the condition number is
constrained unless the method is preconditioning; the rescaling and default-distance methods scale the data. -/
structure Configured (useGrad : Bool) (m : String) (o : GpObj) : Prop where
  mtd : wcName o.mtd = if useGrad then m else "base"
  cstr : o.useCstr = true ↔ wcName o.mtd ≠ "precon"
  scl : o.useScl = true ↔ wcName o.mtd ∈ ["rescale_origin", "rescale_eta_vary", "dflt_vmin", "dflt_vmax"]

/-- A sequence of requests, each of which may raise; execution goes on after an exception. -/
def requests (l : List (Option String)) (o : GpObj) : GpObj := l.foldl (fun o m => (setWellcond m o).1) o

/-- Objects that a program can have: created, then any requests and data, whether or not they raised. -/
inductive GpReach (st : GpStatic) : GpObj → Prop
  | new {m o} : newGp st m = .ok o → GpReach st o
  | wellcond {o} (m) : GpReach st o → GpReach st (setWellcond m o).1
  | data {o} (d) : GpReach st o → GpReach st (setData d o).1

end Spec
