import Verif.Model.Cov
import Verif.Model.Rescale
import Mathlib.Logic.Function.Basic

/-! Model of the history of hyperparameters: `GpParaDef` (base/GpParaDef.py) and `set_hp_from_idx` (base/GpHpara.py:33-54).
Floats that may be NaN are `Option ℝ`; `none` is NaN. -/

open Np

noncomputable section

namespace GP

/-- A float; `none` is NaN. -/
abbrev Fl := Option ℝ

/-- A vector of floats. -/
structure FVec where
  n : ℕ
  get : ℕ → Fl
/-- A matrix of floats. -/
structure FMat where
  r : ℕ
  c : ℕ
  get : ℕ → ℕ → Fl
/-- A vector of Booleans. -/
structure BVec where
  n : ℕ
  get : ℕ → Bool

/-- `HparaOptzVal` (base/GpHpara.py:12-19) with entries that may be NaN. The outer `none` is `None`. -/
structure HpF where
  beta : Option FVec := none
  theta : Option FVec := none
  kernel : Option Fl := none
  varK : Option Fl := none
  varFval : Option Fl := none
  varFgrad : Option Fl := none

/-- The one-dimensional float arrays of the history: base/GpParaDef.py:25-65. -/
inductive Fld1
  | varK | varFval | varFgrad | kernel
  | minNugget | cond
  | etaKbase | etaKgrad | vminInit | vminReq
  | success | iterMean | iterMax | conGood
  | choFail | cond2big | maxInitCond
  | timePick | timeOptz | timeChofac
  | varF | varKVarF
  deriving DecidableEq

/-- The two-dimensional arrays of the history: `hp_beta_all`, `hp_theta_all`, `xvec_rescaling_all`. -/
inductive Fld2
  | beta | theta | xvec
  deriving DecidableEq

/-- The history. -/
structure Surr where
  one : Fld1 → FVec
  two : Fld2 → FMat
  /-- `Kcov_cond_at_max_all` -/
  atMax : BVec

/-- What `set_data` stores and `store_new_para_surr` reads. -/
structure DataAttrs where
  /-- `self._fval_in` -/
  fvalIn : Arr1
  etaKbase : Fl
  etaKgrad : Fl
  vminInit : Fl

/-- The attributes of the object used by the methods of `GpParaDef` and by `set_hp_from_idx`. -/
structure SurrObj where
  dim : ℕ
  nBeta : ℕ
  useGrad : Bool
  condMax : ℝ
  /-- `self.surr_name` -/
  name : String
  /-- `self._save_data` -/
  save : Bool := false
  /-- the arrays, absent before `init_optz_surr` -/
  h : Option Surr := none
  /-- `self.hp_vals`, absent before it is assigned -/
  hpVals : Option HpF := none
  knownFval : Bool := false
  knownFgrad : Bool := false
  /-- absent before `set_data` -/
  data : Option DataAttrs := none
  /-- `self._vmin_req_grad`: NaN is the class default, GaussianProcess.py:133 -/
  vminReq : Fl := none
  useScl : Bool := false
  /-- `self.DataScl.xvec_scale` -/
  xScale : Option Arr1 := none

/-- Number of columns of the two-dimensional arrays. -/
def fld2Cols (dim nBeta : ℕ) : Fld2 → ℕ
  | .beta => nBeta
  | .theta => dim
  | .xvec => dim

/-- `init_optz_surr`: base/GpParaDef.py:20-65. -/
def initSurr (n : ℕ) (o : SurrObj) : SurrObj :=
  { o with
    save := true
    h := some { one := fun _ => ⟨n, fun _ => none⟩
                two := fun f => ⟨n, fld2Cols o.dim o.nBeta f, fun _ _ => none⟩
                atMax := ⟨n, fun _ => false⟩ } }

/-- One assignment to row `idx` of an array. `None` is stored as NaN. -/
inductive Asg
  | one (f : Fld1) (v : Fl)
  | two (f : Fld2) (v : Option FVec)
  | atMax (b : Bool)
  /-- evaluating the right-hand side raises -/
  | fail (e : Err)

/-- The effect of an assignment to row `k`. -/
def Asg.write (h : Surr) (k : ℕ) : Asg → Surr
  | .one f v => { h with one := Function.update h.one f ⟨(h.one f).n, Function.update (h.one f).get k v⟩ }
  | .two f v => { h with two := Function.update h.two f ⟨(h.two f).r, (h.two f).c,
      Function.update (h.two f).get k (match v with
        | none => fun _ => none
        | some w => fun d => w.get (bidx w.n (h.two f).c d))⟩ }
  | .atMax b => { h with atMax := ⟨h.atMax.n, Function.update h.atMax.get k b⟩ }
  | .fail _ => h

/-- `arr[idx] = v` and `arr[idx,:] = v`: the index may be negative; a vector is broadcast to the row. -/
def Asg.run (i : ℤ) (h : Surr) (a : Asg) : Py Surr :=
  match a with
  | .one f _ => do let k ← pyIdx i (h.one f).n; pure (a.write h k)
  | .two f v => do
    let k ← pyIdx i (h.two f).r
    match v with
    | none => pure (a.write h k)
    | some w => if w.n = (h.two f).c ∨ w.n = 1 then pure (a.write h k) else .error .shape
  | .atMax _ => do let k ← pyIdx i h.atMax.n; pure (a.write h k)
  | .fail e => .error e

/-- Assignments one after the other; those before the first that raises have been done. -/
def runAsgs (i : ℤ) : List Asg → Surr → Surr × Py Unit
  | [], h => (h, .ok ())
  | a :: l, h =>
    match a.run i h with
    | .ok h' => runAsgs i l h'
    | .error e => (h, .error e)

/-- `surr_optz_info`; the first four entries may be missing. -/
structure OptzInfo where
  success : Option Fl
  iterMean : Option Fl
  iterMax : Option Fl
  conGood : Option Fl
  choFail : Fl
  cond2big : Fl
  maxInitCond : Fl

/-- `if 'key' in surr_optz_info: ...`. -/
def optAsg (f : Fld1) : Option Fl → List Asg
  | none => []
  | some v => [.one f v]

/-- `np.var` of a vector (NaN for the empty one). -/
def npVarF (v : Arr1) : Fl :=
  if v.n = 0 then none
  else
    let m := (∑ i ∈ Finset.range v.n, v.get i) / v.n
    some ((∑ i ∈ Finset.range v.n, (v.get i - m) ^ 2) / v.n)

open Classical in
/-- `cond_val >= (0.99 * self.cond_max)`, false for NaN. -/
def condAtMax (condMax : ℝ) : Fl → Bool
  | none => false
  | some c => decide (0.99 * condMax ≤ c)

/-- A vector of numbers as a vector of floats. -/
def FVec.ofArr (v : Arr1) : FVec := ⟨v.n, fun i => some (v.get i)⟩

/-- The arguments of `store_new_para_surr` other than the index. -/
structure StoreArgs where
  hp : HpF
  info : Option OptzInfo := none
  cond : Fl := none
  timeOptz : Fl := none
  timeChofac : Fl := none
  timePick : Fl := none

/-- `if self.b_use_data_scl: self.xvec_rescaling_all[idx] = self.DataScl.xvec_scale`: base/GpParaDef.py:257-258. -/
def sclAsgs (o : SurrObj) : List Asg :=
  if o.useScl then
    match o.xScale with
    | none => [.fail .attribute]
    | some v => [.two .xvec (some (FVec.ofArr v))]
  else []

/-- The assignments of `store_new_para_surr` up to line 279, in order: base/GpParaDef.py:230-279. -/
def storeAsgs (o : SurrObj) (s : StoreArgs) : List Asg :=
  [.one .timeOptz s.timeOptz, .one .timeChofac s.timeChofac, .one .timePick s.timePick,         -- lines 230-232
   .two .beta s.hp.beta, .two .theta s.hp.theta, .one .kernel s.hp.kernel.join,                 -- lines 234-236
   .one .varK s.hp.varK.join, .one .varFval s.hp.varFval.join, .one .varFgrad s.hp.varFgrad.join] ++  -- lines 238-240
  (match o.data with
   | none => [.fail .attribute]
   | some d =>
     [.one .minNugget (if o.useGrad then d.etaKgrad else d.etaKbase),                           -- lines 243-246
      .one .cond s.cond, .atMax (condAtMax o.condMax s.cond),                                   -- lines 248-249
      .one .etaKbase d.etaKbase, .one .etaKgrad d.etaKgrad, .one .vminInit d.vminInit, .one .vminReq o.vminReq] ++  -- lines 252-255
     sclAsgs o ++                                                                               -- lines 257-258
     (match s.info with                                                                         -- lines 261-277
      | none => []
      | some t => optAsg .success t.success ++ optAsg .iterMean t.iterMean ++ optAsg .iterMax t.iterMax ++
          optAsg .conGood t.conGood ++
          [.one .choFail t.choFail, .one .cond2big t.cond2big, .one .maxInitCond t.maxInitCond]) ++
     [.one .varF (npVarF d.fvalIn)])                                                            -- line 280

open Classical in
/-- `if self.var_fval[idx] > 0: self.varK_var_fval[idx] = self.hp_varK_all[idx] / self.var_fval[idx]`: base/GpParaDef.py:282-283. -/
def storeRatio (i : ℤ) (h : Surr) : Surr × Py Unit :=
  match pyIdx i (h.one .varF).n, pyIdx i (h.one .varK).n with
  | .ok k, .ok k' =>
    match (h.one .varF).get k with
    | some v =>
      if 0 < v then runAsgs i [.one .varKVarF (((h.one .varK).get k').map (· / v))] h else (h, .ok ())
    | none => (h, .ok ())
  | .error e, _ => (h, .error e)
  | _, .error e => (h, .error e)

/-- `store_new_para_surr`: base/GpParaDef.py:219-283. -/
def storeSurr (i : ℤ) (s : StoreArgs) (o : SurrObj) : SurrObj × Py Unit :=
  let o := { o with hpVals := some s.hp }                                                       -- line 223
  if o.save then
    match o.h with
    | none => (o, .error .attribute)
    | some h =>
      match runAsgs i (storeAsgs o s) h with
      | (h1, .error e) => ({ o with h := some h1 }, .error e)
      | (h1, .ok ()) =>
        match storeRatio i h1 with
        | (h2, r) => ({ o with h := some h2 }, r)
  else (o, .ok ())                                                                              -- lines 225-226

/-- A stored variance: `(known, value)`, NaN standing for a known noise level: base/GpHpara.py:35-47. -/
def stdFromHist (v : Fl) : Bool × Option Fl :=
  match v with
  | none => (true, none)
  | some x => (false, some (some x))

/-- `set_hp_from_idx`: base/GpHpara.py:33-54. (The arrays of an object have the same number of rows, so the first access is the
only one that can raise; the rows are views of the history, here values.) -/
def setHpFromIdx (i : ℤ) (o : SurrObj) : SurrObj × Py Unit :=
  match o.h with
  | none => (o, .error .attribute)
  | some h =>
    match pyIdx i (h.one .varFval).n with
    | .error e => (o, .error e)
    | .ok k =>
      let a := stdFromHist ((h.one .varFval).get k)
      let b := stdFromHist ((h.one .varFgrad).get k)
      ({ o with
         knownFval := a.1
         knownFgrad := b.1
         hpVals := some { beta := some ⟨(h.two .beta).c, (h.two .beta).get k⟩
                          theta := some ⟨(h.two .theta).c, (h.two .theta).get k⟩
                          kernel := some ((h.one .kernel).get k)
                          varK := some ((h.one .varK).get k)
                          varFval := a.2
                          varFgrad := b.2 } }, .ok ())

/-- The number of entries of `arr[:n]` for an array with `len` entries. -/
def sliceLen (n : ℤ) (len : ℕ) : ℕ := if n < 0 then (len + n).toNat else min n.toNat len

/-- `finish_optz_surr`: base/GpParaDef.py:67-113. -/
def finishSurr (n : ℤ) (o : SurrObj) : SurrObj × Py Unit :=
  if o.save then                                                                                -- line 69
    match o.h with
    | none => (o, .error .attribute)
    | some h =>
      ({ o with h := some { one := fun f => ⟨sliceLen n (h.one f).n, (h.one f).get⟩
                            two := fun f => ⟨sliceLen n (h.two f).r, (h.two f).c, (h.two f).get⟩
                            atMax := ⟨sliceLen n h.atMax.n, h.atMax.get⟩ } }, .ok ())
  else (o, .error .assertion)

/-- The dictionary made by `export_data_surr`: the prefix of the names and the arrays. -/
structure Exported where
  name : String
  h : Surr

/-- `export_data_surr`: base/GpParaDef.py:171-217. Saving to a file always raises: without file names `self.path_data_surr_npz`
(or `self.path_data_surr_old_npz`) is not an attribute, and with them there is no method `save_npz_data` in the package. (The
arrays of the dictionary are those of the object, here values.) -/
def exportSurr (save2file : Bool) (o : SurrObj) : Py Exported :=
  if o.save then
    match o.h with
    | none => .error .attribute
    | some h => if save2file then .error .attribute else .ok ⟨o.name, h⟩
  else .error .assertion

/-- The result of `dst[:idx] = src` (and `dst[:idx,:] = src`): row `k` of `src` (its only row if there is one) is copied to row `k`
of the first `m` rows. -/
def copyRow (m len k : ℕ) : Option ℕ := if k < m then some (bidx len m k) else none

/-- One assignment of `load_data_surr`. -/
inductive LoadAsg
  | one (f : Fld1)
  | two (f : Fld2)
  | atMax

/-- `self.a[:idx] = all_data[name + 'a']`, with numpy's broadcasting of the rows and columns. -/
def LoadAsg.run (idx : ℕ) (src h : Surr) : LoadAsg → Py Surr
  | .one f =>
    let m := min idx (h.one f).n
    if (src.one f).n = m ∨ (src.one f).n = 1 then
      pure { h with one := Function.update h.one f ⟨(h.one f).n, fun k =>
        match copyRow m (src.one f).n k with
        | some j => (src.one f).get j
        | none => (h.one f).get k⟩ }
    else .error .shape
  | .two f =>
    let m := min idx (h.two f).r
    if ((src.two f).r = m ∨ (src.two f).r = 1) ∧ ((src.two f).c = (h.two f).c ∨ (src.two f).c = 1) then
      pure { h with two := Function.update h.two f ⟨(h.two f).r, (h.two f).c, fun k d =>
        match copyRow m (src.two f).r k with
        | some j => (src.two f).get j (bidx (src.two f).c (h.two f).c d)
        | none => (h.two f).get k d⟩ }
    else .error .shape
  | .atMax =>
    let m := min idx h.atMax.n
    if src.atMax.n = m ∨ src.atMax.n = 1 then
      pure { h with atMax := ⟨h.atMax.n, fun k =>
        match copyRow m src.atMax.n k with
        | some j => src.atMax.get j
        | none => h.atMax.get k⟩ }
    else .error .shape

/-- The order of the assignments of `load_data_surr`: base/GpParaDef.py:129-168. -/
def loadAsgs : List LoadAsg :=
  [.two .beta, .one .varK, .one .varFval, .one .varFgrad, .two .theta, .one .kernel, .one .minNugget, .one .cond, .atMax,
   .one .etaKbase, .one .etaKgrad, .one .vminInit, .one .vminReq, .two .xvec, .one .success, .one .iterMean, .one .iterMax,
   .one .conGood, .one .choFail, .one .cond2big, .one .maxInitCond, .one .timePick, .one .timeOptz, .one .timeChofac,
   .one .varF, .one .varKVarF]

/-- Assignments of `load_data_surr` one after the other. -/
def runLoads (idx : ℕ) (src : Surr) : List LoadAsg → Surr → Surr × Py Unit
  | [], h => (h, .ok ())
  | a :: l, h =>
    match a.run idx src h with
    | .ok h' => runLoads idx src l h'
    | .error e => (h, .error e)

/-- `load_data_surr`: base/GpParaDef.py:115-169. Without data it raises: `self.path_data_acq_npz` is not an attribute. A dictionary
made for another `surr_name` has none of the keys (`KeyError`, a `LookupError`). -/
def loadSurr (data : Option Exported) (o : SurrObj) : SurrObj × Py Unit :=
  if o.save then
    match data with
    | none => (o, .error .attribute)
    | some d =>
      if d.name = o.name then
        match o.h with
        | none => (o, .error .attribute)
        | some h =>
          match runLoads ((d.h.two .beta).r * (d.h.two .beta).c) d.h loadAsgs h with            -- line 127
          | (h', r) => ({ o with h := some h' }, r)
      else (o, .error .index)
  else (o, .error .assertion)

end GP
