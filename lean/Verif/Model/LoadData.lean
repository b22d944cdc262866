import Verif.Model.Results

/-! Model of the loading of the results of optimisations and of the bounds drawn around them: `load_npz_data` and the data of
`plt_conv_nx0` of `gpgradpy/results/PltOptzResults.py`. Drawing is left out; a file is its name and its arrays. -/

open Np

noncomputable section

namespace GP

/-- A 3-d array of floats. -/
structure FArr3 where
  a : ℕ
  r : ℕ
  c : ℕ
  get : ℕ → ℕ → ℕ → Fl

/-- The arrays of a file that are read: results/PltOptzResults.py:46-57. -/
structure NpzFile where
  /-- `merit_all` -/
  merit : FMat
  /-- `opt_all` -/
  opt : FMat
  /-- `fsb_all` -/
  fsb : FMat
  /-- `merit_wo_noise_all` -/
  meritF : FMat
  /-- `opt_wo_noise_all` -/
  optF : FMat
  /-- `fsb_wo_noise_all` -/
  fsbF : FMat

/-- An axis of length `s` is broadcast to length `t`. -/
def fitsAxis (s t : ℕ) : Bool := s == t || s == 1

/-- `A[i, :n, :k] = B[:, :k]`: results/PltOptzResults.py:51-57, with broadcasting; raises if the shapes do not match. -/
def setBlock (A : FArr3) (i n k : ℕ) (B : FMat) : Py FArr3 :=
  if fitsAxis B.r (min n A.r) && fitsAxis (min k B.c) (min k A.c) then
    .ok ⟨A.a, A.r, A.c, fun p j l =>
      if p = i ∧ j < min n A.r ∧ l < min k A.c then B.get (if B.r = 1 then 0 else j) (if min k B.c = 1 then 0 else l) else A.get p j l⟩
  else .error .shape

/-- `np.full((a, r, c), np.nan)`: results/PltOptzResults.py:31-33. -/
def fullNan (a r c : ℕ) : FArr3 := ⟨a, r, c, fun _ _ _ => none⟩

/-- `A[:, :n, :k]`: results/PltOptzResults.py:63-68. -/
def FArr3.clip (A : FArr3) (n k : ℕ) : FArr3 := ⟨A.a, min n A.r, min k A.c, A.get⟩

/-- What the loop of `load_npz_data` carries along. -/
structure LoadState where
  merit : FArr3
  opt : FArr3
  fsb : FArr3
  x0Max : ℕ := 0
  iterMax : ℕ := 0

open Classical in
/-- The body of the loop: results/PltOptzResults.py:38-60. `none` as contents of a file: `np.load` raises. -/
def loadFile (nIterMax : ℕ) (wo : Bool) (i : ℕ) (f : String × Option NpzFile) (s : LoadState) : Py LoadState :=
  if ¬ ".npz".toList <:+: f.1.toList then .error .raised                                          -- lines 41-42
  else match f.2 with
    | none => .error .raised                                                                     -- line 44
    | some z => do
      let n := z.merit.r
      let k := min z.merit.c nIterMax                                                            -- lines 47-48
      let m ← setBlock s.merit i n k (if wo then z.meritF else z.merit)
      let o ← setBlock s.opt i n k (if wo then z.optF else z.opt)
      let b ← setBlock s.fsb i n k (if wo then z.fsbF else z.fsb)
      pure { merit := m, opt := o, fsb := b, x0Max := max s.x0Max n, iterMax := max s.iterMax k }

/-- The loop over the files. -/
def loadLoop (nIterMax : ℕ) (wo : Bool) : ℕ → List (String × Option NpzFile) → LoadState → Py LoadState
  | _, [], s => .ok s
  | i, f :: l, s => do
    let s ← loadFile nIterMax wo i f s
    loadLoop nIterMax wo (i + 1) l s

/-- `load_npz_data`: results/PltOptzResults.py:22-70. `n_iter_max` may be `None`. Returns `merit_all`, `opt_all`, `fsb_all`. -/
def loadNpz (files : List (String × Option NpzFile)) (nIterMax : Option ℕ) (nX0 : ℕ) (wo : Bool) : Py (FArr3 × FArr3 × FArr3) := do
  let N := nIterMax.getD 1000                                                                     -- lines 24-28
  let e := fullNan files.length nX0 N
  let s ← loadLoop N wo 0 files { merit := e, opt := e, fsb := e }
  match nIterMax with
  | none => pure (s.merit.clip s.x0Max s.iterMax, s.opt.clip s.x0Max s.iterMax, s.fsb.clip s.x0Max s.iterMax)
  | some _ => pure (s.merit.clip s.x0Max N, s.opt.clip s.x0Max N, s.fsb)                         -- lines 67-68: `fsb_all` stays

/-- `min` or `max` of two floats, NaN if one of them is NaN. -/
def strict2 (f : ℝ → ℝ → ℝ) : Fl → Fl → Fl
  | some x, some y => some (f x y)
  | _, _ => none

/-- `np.min`, `np.max` along an axis of length `n + 1`. -/
def reduceFl (f : ℝ → ℝ → ℝ) (get : ℕ → Fl) : ℕ → Fl
  | 0 => get 0
  | n + 1 => strict2 f (reduceFl f get n) (get (n + 1))

/-- One row of a 3-d array. -/
def FArr3.row (A : FArr3) (i j : ℕ) : FVec := ⟨A.c, fun l => A.get i j l⟩

/-- `best_optz_data_all` of `plt_conv_nx0`: results/PltOptzResults.py:153-157. -/
def bestAll (A : FArr3) (method : String) : Py FArr3 :=
  forRange 0 A.a ⟨A.a, A.r, A.c, fun _ _ _ => some 0⟩ fun i B =>
    forRange 0 A.r B fun j B => do
      let b ← bestAtAllIter (A.row i j) method
      if b.n = A.c then .ok ⟨B.a, B.r, B.c, fun p q l => if p = i ∧ q = j then b.get l else B.get p q l⟩ else .error .shape

/-- The bounds of the area drawn by `plt_conv_nx0`, for an array of three dimensions: results/PltOptzResults.py:148-161. `np.min` over an empty axis raises
unless the result is empty too. -/
def convBand (A : FArr3) (method : String) : Py (FMat × FMat) := do
  let B ← bestAll A method
  if B.r = 0 ∧ 0 < B.a ∧ 0 < B.c then .error .raised
  else pure (⟨B.a, B.c, fun i l => reduceFl min (fun j => B.get i j l) (B.r - 1)⟩, ⟨B.a, B.c, fun i l => reduceFl max (fun j => B.get i j l) (B.r - 1)⟩)

end GP
