import Verif.Model.ParaDef

/-! What it means to restore stored hyperparameters. -/

open Np GP

noncomputable section

namespace Spec

/-- Every array of the history has `n` rows, and the matrices have as many columns as there are coefficients of the mean
function and dimensions. -/
structure Sized (dim nBeta n : ℕ) (h : Surr) : Prop where
  one : ∀ f, (h.one f).n = n
  two_r : ∀ f, (h.two f).r = n
  beta : (h.two .beta).c = nBeta
  theta : (h.two .theta).c = dim
  xvec : (h.two .xvec).c = dim
  atMax : h.atMax.n = n

/-- Hyperparameters with the right number of mean coefficients and length scales. -/
structure HpFits (dim nBeta : ℕ) (hp : HpF) : Prop where
  beta : ∃ b, hp.beta = some b ∧ b.n = nBeta
  theta : ∃ t, hp.theta = some t ∧ t.n = dim

/-- The same vector. -/
def SameVec (v w : Option FVec) : Prop := ∃ a b, v = some a ∧ w = some b ∧ b.n = a.n ∧ ∀ d < a.n, b.get d = a.get d

/-- `r` is `hp` after storing and restoring: the same numbers; an absent or NaN noise variance is absent (the noise level is
known), and an absent kernel parameter has become NaN. -/
structure Restored (hp r : HpF) : Prop where
  beta : SameVec hp.beta r.beta
  theta : SameVec hp.theta r.theta
  kernel : r.kernel = some hp.kernel.join
  varK : r.varK = some hp.varK.join
  varFval : r.varFval = hp.varFval.join.map some
  varFgrad : r.varFgrad = hp.varFgrad.join.map some

/-- Python index `i` means row `k` of `n` rows. -/
def Denotes (n : ℕ) (i : ℤ) (k : ℕ) : Prop := k < n ∧ (i = k ∨ i + n = k)

open Classical in
/-- The arguments of the last of the calls `(i, s)` of the store that was for row `k`. -/
def lastStored (n : ℕ) : List (ℤ × StoreArgs) → ℕ → Option StoreArgs
  | [], _ => none
  | (i, s) :: l, k =>
    match lastStored n l k with
    | some t => some t
    | none => if Denotes n i k then some s else none

/-- The object after these calls of `store_new_para_surr`; calls that raised count with what they did before raising. -/
def runStores : List (ℤ × StoreArgs) → SurrObj → SurrObj
  | [], o => o
  | (i, s) :: l, o => runStores l (storeSurr i s o).1

/-- The object has data, and a scale where data scaling is used. -/
structure StoreReady (o : SurrObj) : Prop where
  data : ∃ d, o.data = some d
  scale : o.useScl = true → ∃ v, o.xScale = some v ∧ v.n = o.dim

/-- Row `k` of the two histories is the same. -/
def SameRow (h h' : Surr) (k : ℕ) : Prop :=
  (∀ f, (h'.one f).get k = (h.one f).get k) ∧ (∀ f, ∀ d < (h.two f).c, (h'.two f).get k d = (h.two f).get k d) ∧
    h'.atMax.get k = h.atMax.get k

/-- The row `k` written by a store: hyperparameters (an absent number is NaN), condition number and its comparison with the
limit, timings, nuggets, distances, scale, information on the optimisation, and the variance of the values (the mean of their
squares minus the square of their mean). -/
structure StoredCore (o : SurrObj) (s : StoreArgs) (h' : Surr) (k : ℕ) : Prop where
  beta : ∀ b, s.hp.beta = some b → ∀ d < b.n, (h'.two .beta).get k d = b.get d
  theta : ∀ t, s.hp.theta = some t → ∀ d < t.n, (h'.two .theta).get k d = t.get d
  kernel : (h'.one .kernel).get k = s.hp.kernel.join
  varK : (h'.one .varK).get k = s.hp.varK.join
  varFval : (h'.one .varFval).get k = s.hp.varFval.join
  varFgrad : (h'.one .varFgrad).get k = s.hp.varFgrad.join
  cond : (h'.one .cond).get k = s.cond
  atMax : h'.atMax.get k = true ↔ ∃ c, s.cond = some c ∧ 0.99 * o.condMax ≤ c
  times : (h'.one .timeOptz).get k = s.timeOptz ∧ (h'.one .timeChofac).get k = s.timeChofac ∧
    (h'.one .timePick).get k = s.timePick
  data : ∀ d, o.data = some d → (h'.one .etaKbase).get k = d.etaKbase ∧ (h'.one .etaKgrad).get k = d.etaKgrad ∧
    (h'.one .minNugget).get k = (if o.useGrad then d.etaKgrad else d.etaKbase) ∧ (h'.one .vminInit).get k = d.vminInit
  vminReq : (h'.one .vminReq).get k = o.vminReq
  scale : o.useScl = true → ∀ v, o.xScale = some v → ∀ e < o.dim, (h'.two .xvec).get k e = some (v.get e)
  info : ∀ t, s.info = some t → (h'.one .choFail).get k = t.choFail ∧ (h'.one .cond2big).get k = t.cond2big ∧
    (h'.one .maxInitCond).get k = t.maxInitCond ∧ (∀ v, t.success = some v → (h'.one .success).get k = v) ∧
    (∀ v, t.iterMean = some v → (h'.one .iterMean).get k = v) ∧ (∀ v, t.iterMax = some v → (h'.one .iterMax).get k = v) ∧
    ∀ v, t.conGood = some v → (h'.one .conGood).get k = v
  variance : ∀ d, o.data = some d → 0 < d.fvalIn.n → (h'.one .varF).get k = some
    ((∑ a ∈ Finset.range d.fvalIn.n, d.fvalIn.get a ^ 2) / d.fvalIn.n -
      ((∑ a ∈ Finset.range d.fvalIn.n, d.fvalIn.get a) / d.fvalIn.n) ^ 2)

/-- All of that, and the ratio of the variance of the model to that of the values. -/
structure StoredRow (o : SurrObj) (s : StoreArgs) (h' : Surr) (k : ℕ) : Prop extends StoredCore o s h' k where
  ratio : ∀ v, (h'.one .varF).get k = some v → 0 < v → (h'.one .varKVarF).get k = s.hp.varK.join.map (· / v)

end Spec
