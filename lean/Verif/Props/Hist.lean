import Verif.Spec.HistSpec

/-! C59, C60, C61: the stored history of hyperparameters. -/

open Np GP Spec

noncomputable section

namespace Props

theorem pyIdx_denotes {n : ℕ} {i : ℤ} {k : ℕ} : pyIdx i n = .ok k ↔ Denotes n i k := by
  unfold pyIdx Denotes
  split
  · rename_i h
    constructor
    · intro e
      have e' : i.toNat = k := by injection e
      omega
    · intro e
      have : i.toNat = k := by omega
      rw [this]
  · split
    · rename_i h
      constructor
      · intro e
        have e' : (i + n).toNat = k := by injection e
        omega
      · intro e
        have : (i + n).toNat = k := by omega
        rw [this]
    · constructor
      · intro e; cases e
      · intro e; omega

theorem pyIdx_out {n : ℕ} {i : ℤ} (h : ∀ k, ¬ Denotes n i k) : pyIdx i n = .error .index := by
  unfold pyIdx
  split
  · rename_i h1
    exact absurd ⟨by omega, Or.inl (by omega)⟩ (h i.toNat)
  · split
    · rename_i h1
      exact absurd ⟨by omega, Or.inr (by omega)⟩ (h (i + n).toNat)
    · rfl

theorem denotes_unique {n : ℕ} {i : ℤ} {k k' : ℕ} (h : Denotes n i k) (h' : Denotes n i k') : k = k' := by
  have := pyIdx_denotes.mpr h
  rw [pyIdx_denotes.mpr h'] at this
  injection this with e
  exact e.symm

theorem fld2Cols_eq {dim nBeta n : ℕ} {h : Surr} (hs : Sized dim nBeta n h) (f : Fld2) : (h.two f).c = fld2Cols dim nBeta f := by
  cases f
  · exact hs.beta
  · exact hs.theta
  · exact hs.xvec

/-- The assignment does not raise for lack of fit. -/
def AsgFits (dim nBeta : ℕ) : Asg → Prop
  | .two f (some w) => w.n = fld2Cols dim nBeta f
  | .fail _ => False
  | _ => True

theorem sized_write {dim nBeta n : ℕ} {h : Surr} (hs : Sized dim nBeta n h) (k : ℕ) (a : Asg) : Sized dim nBeta n (a.write h k) := by
  cases a with
  | one f v =>
    refine ⟨fun g => ?_, hs.two_r, hs.beta, hs.theta, hs.xvec, hs.atMax⟩
    simp only [Asg.write]
    by_cases e : g = f
    · subst e; simp [hs.one]
    · simp [Function.update_of_ne e, hs.one]
  | two f v =>
    refine ⟨hs.one, fun g => ?_, ?_, ?_, ?_, hs.atMax⟩
    · simp only [Asg.write]
      by_cases e : g = f
      · subst e; simp [hs.two_r]
      · simp [Function.update_of_ne e, hs.two_r]
    all_goals
      simp only [Asg.write]
      cases f <;> simp [Function.update, hs.beta, hs.theta, hs.xvec]
  | atMax b => exact ⟨hs.one, hs.two_r, hs.beta, hs.theta, hs.xvec, hs.atMax⟩
  | fail e => exact hs

theorem asg_run_ok {dim nBeta n : ℕ} {h : Surr} (hs : Sized dim nBeta n h) {i : ℤ} {k : ℕ} (hi : Denotes n i k) {a : Asg}
    (ha : AsgFits dim nBeta a) : a.run i h = .ok (a.write h k) := by
  have hi' := pyIdx_denotes.mpr hi
  cases a with
  | one f v => unfold Asg.run; simp only [hs.one f, hi']; rfl
  | two f v =>
    unfold Asg.run
    simp only [hs.two_r f, hi']
    cases v with
    | none => rfl
    | some w =>
      have : w.n = (h.two f).c := by rw [fld2Cols_eq hs]; exact ha
      simp only [ok_bind]
      rw [if_pos (Or.inl this)]; rfl
  | atMax b => unfold Asg.run; simp only [hs.atMax, hi']; rfl
  | fail e => exact absurd ha id

theorem runAsgs_ok {dim nBeta n : ℕ} {i : ℤ} {k : ℕ} (hi : Denotes n i k) : ∀ {l : List Asg} {h : Surr}, Sized dim nBeta n h →
    (∀ a ∈ l, AsgFits dim nBeta a) → runAsgs i l h = (l.foldl (fun h a => a.write h k) h, .ok ()) ∧
      Sized dim nBeta n (l.foldl (fun h a => a.write h k) h)
  | [], h, hs, _ => ⟨rfl, hs⟩
  | a :: l, h, hs, hl => by
    unfold runAsgs
    rw [asg_run_ok hs hi (hl a (List.mem_cons_self ..))]
    exact runAsgs_ok hi (sized_write hs k a) (fun b hb => hl b (List.mem_cons_of_mem _ hb))

theorem runAsgs_out {n : ℕ} {i : ℤ} (hi : ∀ k, ¬ Denotes n i k) {f : Fld1} {v : Fl} {l : List Asg} {h : Surr} (hn : (h.one f).n = n) :
    runAsgs i (.one f v :: l) h = (h, .error .index) := by
  simp only [runAsgs, Asg.run, hn, pyIdx_out hi]
  rfl

/-- The value assigned to a one-dimensional array. -/
def asgOne (f : Fld1) : Asg → Option Fl
  | .one g v => if g = f then some v else none
  | _ => none
/-- The row assigned to a matrix. -/
def asgTwo (f : Fld2) : Asg → Option (Option FVec)
  | .two g v => if g = f then some v else none
  | _ => none
/-- The value assigned to the flags. -/
def asgMax : Asg → Option Bool
  | .atMax b => some b
  | _ => none
/-- The last value assigned to a one-dimensional array. -/
def lastOne (f : Fld1) : List Asg → Option Fl
  | [] => none
  | a :: l => (lastOne f l).or (asgOne f a)
/-- The last row assigned to a matrix. -/
def lastTwo (f : Fld2) : List Asg → Option (Option FVec)
  | [] => none
  | a :: l => (lastTwo f l).or (asgTwo f a)
/-- The last value assigned to the flags. -/
def lastMax : List Asg → Option Bool
  | [] => none
  | a :: l => (lastMax l).or (asgMax a)

/-- A row of numbers as it is after the assignment of `v`. -/
def rowOf (c : ℕ) (v : Option FVec) (d : ℕ) : Fl := (match v with | none => fun _ => none | some w => fun d => w.get (bidx w.n c d)) d

theorem fold_one (k : ℕ) (f : Fld1) : ∀ (l : List Asg) (h : Surr), ((l.foldl (fun h a => Asg.write h k a) h).one f).get k =
    (lastOne f l).getD ((h.one f).get k)
  | [], h => rfl
  | a :: l, h => by
    rw [List.foldl_cons, fold_one k f l, lastOne]
    cases hl : lastOne f l with
    | some v => rfl
    | none =>
      cases a with
      | one g v =>
        simp only [Asg.write, Option.getD_none, asgOne, Option.none_or]
        by_cases e : g = f
        · subst e; simp
        · rw [Function.update_of_ne (fun h => e h.symm), if_neg e]; rfl
      | two g v => rfl
      | atMax b => rfl
      | fail e => rfl

theorem fold_cols (k : ℕ) (f : Fld2) : ∀ (l : List Asg) (h : Surr), ((l.foldl (fun h a => Asg.write h k a) h).two f).c = (h.two f).c
  | [], h => rfl
  | a :: l, h => by
    rw [List.foldl_cons, fold_cols k f l]
    cases a with
    | two g v =>
      simp only [Asg.write]
      by_cases e : f = g
      · subst e; simp
      · rw [Function.update_of_ne e]
    | one g v => rfl
    | atMax b => rfl
    | fail e => rfl

theorem fold_two (k : ℕ) (f : Fld2) (d : ℕ) : ∀ (l : List Asg) (h : Surr), ((l.foldl (fun h a => Asg.write h k a) h).two f).get k d =
    match lastTwo f l with
    | some v => rowOf (h.two f).c v d
    | none => (h.two f).get k d
  | [], h => rfl
  | a :: l, h => by
    rw [List.foldl_cons, fold_two k f d l, lastTwo]
    cases a with
    | two g v =>
      by_cases e : g = f
      · subst e
        cases hl : lastTwo g l with
        | some v => simp [Asg.write]
        | none => simp [Asg.write, rowOf, asgTwo]; cases v <;> rfl
      · cases hl : lastTwo f l with
        | some v => simp [Asg.write, Function.update_of_ne (fun h => e h.symm)]
        | none => simp [Asg.write, Function.update_of_ne (fun h => e h.symm), asgTwo, if_neg e]
    | one g v => cases hl : lastTwo f l <;> rfl
    | atMax b => cases hl : lastTwo f l <;> rfl
    | fail e => cases hl : lastTwo f l <;> rfl

theorem fold_max (k : ℕ) : ∀ (l : List Asg) (h : Surr), (l.foldl (fun h a => Asg.write h k a) h).atMax.get k =
    (lastMax l).getD (h.atMax.get k)
  | [], h => rfl
  | a :: l, h => by
    rw [List.foldl_cons, fold_max k l, lastMax]
    cases hl : lastMax l with
    | some v => rfl
    | none => cases a <;> simp [Asg.write, asgMax]

theorem write_other {k j : ℕ} (hj : j ≠ k) (h : Surr) (a : Asg) : SameRow h (a.write h k) j := by
  cases a with
  | one g v =>
    refine ⟨fun f => ?_, fun _ _ _ => rfl, rfl⟩
    simp only [Asg.write]
    by_cases e : f = g
    · subst e; simp [Function.update_of_ne hj]
    · rw [Function.update_of_ne e]
  | two g v =>
    refine ⟨fun _ => rfl, fun f d _ => ?_, rfl⟩
    simp only [Asg.write]
    by_cases e : f = g
    · subst e; simp [Function.update_of_ne hj]
    · rw [Function.update_of_ne e]
  | atMax b => exact ⟨fun _ => rfl, fun _ _ _ => rfl, by simp [Asg.write, Function.update_of_ne hj]⟩
  | fail e => exact ⟨fun _ => rfl, fun _ _ _ => rfl, rfl⟩

theorem fold_other {k j : ℕ} (hj : j ≠ k) : ∀ (l : List Asg) (h : Surr), SameRow h (l.foldl (fun h a => Asg.write h k a) h) j
  | [], h => ⟨fun _ => rfl, fun _ _ _ => rfl, rfl⟩
  | a :: l, h => by
    rw [List.foldl_cons]
    obtain ⟨h1, h2, h3⟩ := fold_other hj l (a.write h k)
    obtain ⟨g1, g2, g3⟩ := write_other hj h a
    refine ⟨fun f => (h1 f).trans (g1 f), fun f d hd => (h2 f d ?_).trans (g2 f d hd), h3.trans g3⟩
    have := fold_cols k f [a] h
    simp only [List.foldl_cons, List.foldl_nil] at this
    rw [this]; exact hd

theorem lastOne_append (f : Fld1) : ∀ (l m : List Asg), lastOne f (l ++ m) = (lastOne f m).or (lastOne f l)
  | [], m => by cases h : lastOne f m <;> simp [lastOne, h]
  | a :: l, m => by
    rw [List.cons_append, lastOne, lastOne_append f l m, lastOne]
    cases lastOne f m <;> simp

theorem lastTwo_append (f : Fld2) : ∀ (l m : List Asg), lastTwo f (l ++ m) = (lastTwo f m).or (lastTwo f l)
  | [], m => by cases h : lastTwo f m <;> simp [lastTwo, h]
  | a :: l, m => by
    rw [List.cons_append, lastTwo, lastTwo_append f l m, lastTwo]
    cases lastTwo f m <;> simp

theorem lastMax_append : ∀ (l m : List Asg), lastMax (l ++ m) = (lastMax m).or (lastMax l)
  | [], m => by cases h : lastMax m <;> simp [lastMax, h]
  | a :: l, m => by
    rw [List.cons_append, lastMax, lastMax_append l m, lastMax]
    cases lastMax m <;> simp

theorem storeAsgs_fit {o : SurrObj} (hr : StoreReady o) {s : StoreArgs} (hf : HpFits o.dim o.nBeta s.hp) :
    ∀ a ∈ storeAsgs o s, AsgFits o.dim o.nBeta a := by
  obtain ⟨d, hd⟩ := hr.data
  obtain ⟨b, hb, hbn⟩ := hf.beta
  obtain ⟨t, ht, htn⟩ := hf.theta
  have hopt : ∀ (f : Fld1) (v : Option Fl), ∀ a ∈ optAsg f v, AsgFits o.dim o.nBeta a := by
    intro f v a ha
    cases v with
    | none => simp [optAsg] at ha
    | some w =>
      have : a = .one f w := by simpa [optAsg] using ha
      subst this; trivial
  intro a ha
  unfold storeAsgs at ha
  rw [hd] at ha
  simp only [List.mem_append] at ha
  rcases ha with ha | ((ha | ha) | ha) | ha
  · simp only [List.mem_cons, List.not_mem_nil, or_false] at ha
    rcases ha with rfl | rfl | rfl | rfl | rfl | rfl | rfl | rfl | rfl <;> first | trivial | skip
    · rw [hb]; exact hbn
    · rw [ht]; exact htn
  · simp only [List.mem_cons, List.not_mem_nil, or_false] at ha
    rcases ha with rfl | rfl | rfl | rfl | rfl | rfl | rfl <;> trivial
  · unfold sclAsgs at ha
    cases hu : o.useScl with
    | false => rw [hu] at ha; simp at ha
    | true =>
      obtain ⟨v, hv, hvn⟩ := hr.scale hu
      rw [hu, hv] at ha
      have : a = .two .xvec (some (FVec.ofArr v)) := by simpa using ha
      subst this
      exact hvn
  · cases hi : s.info with
    | none => rw [hi] at ha; simp at ha
    | some t =>
      rw [hi] at ha
      simp only [List.mem_append] at ha
      rcases ha with (((ha | ha) | ha) | ha) | ha
      · exact hopt _ _ a ha
      · exact hopt _ _ a ha
      · exact hopt _ _ a ha
      · exact hopt _ _ a ha
      · simp only [List.mem_cons, List.not_mem_nil, or_false] at ha
        rcases ha with rfl | rfl | rfl <;> trivial
  · have : a = .one .varF (npVarF d.fvalIn) := by simpa using ha
    subst this; trivial

theorem lastOne_opt (f g : Fld1) (v : Option Fl) : lastOne f (optAsg g v) = if g = f then v else none := by
  cases v with
  | none => simp [optAsg, lastOne]
  | some w => simp [optAsg, lastOne, asgOne]

theorem lastTwo_opt (f : Fld2) (g : Fld1) (v : Option Fl) : lastTwo f (optAsg g v) = none := by
  cases v with
  | none => simp [optAsg, lastTwo]
  | some w => simp [optAsg, lastTwo, asgTwo]

theorem lastMax_opt (g : Fld1) (v : Option Fl) : lastMax (optAsg g v) = none := by
  cases v with
  | none => simp [optAsg, lastMax]
  | some w => simp [optAsg, lastMax, asgMax]

/-- `np.var` is the mean of the squares minus the square of the mean. -/
theorem npVarF_eq {v : Arr1} (h : 0 < v.n) : npVarF v = some
    ((∑ a ∈ Finset.range v.n, v.get a ^ 2) / v.n - ((∑ a ∈ Finset.range v.n, v.get a) / v.n) ^ 2) := by
  have hn : (v.n : ℝ) ≠ 0 := by exact_mod_cast h.ne'
  unfold npVarF
  rw [if_neg h.ne']
  dsimp only
  set m := (∑ i ∈ Finset.range v.n, v.get i) / (v.n : ℝ) with hm
  have hs : ∑ i ∈ Finset.range v.n, v.get i = m * v.n := by rw [hm]; field_simp
  have : ∑ i ∈ Finset.range v.n, (v.get i - m) ^ 2 = ∑ i ∈ Finset.range v.n, v.get i ^ 2 - m ^ 2 * v.n := by
    have e : ∀ i, (v.get i - m) ^ 2 = v.get i ^ 2 - 2 * m * v.get i + m ^ 2 := fun i => by ring
    simp only [e, Finset.sum_add_distrib, Finset.sum_sub_distrib, ← Finset.mul_sum, hs, Finset.sum_const, Finset.card_range, nsmul_eq_mul]
    ring
  rw [this]
  congr 1
  field_simp

/-- What the assignments of a store leave in row `k`. -/
theorem storeAsgs_row {o : SurrObj} {n : ℕ} {h : Surr} (hs : Sized o.dim o.nBeta n h) (hr : StoreReady o) {s : StoreArgs}
    (hf : HpFits o.dim o.nBeta s.hp) (k : ℕ) :
    StoredCore o s ((storeAsgs o s).foldl (fun h a => a.write h k) h) k := by
  obtain ⟨d, hd⟩ := hr.data
  obtain ⟨b, hb, hbn⟩ := hf.beta
  obtain ⟨t, ht, htn⟩ := hf.theta
  have one : ∀ f v, lastOne f (storeAsgs o s) = some v →
      (((storeAsgs o s).foldl (fun h a => a.write h k) h).one f).get k = v := by
    intro f v e
    rw [fold_one, e]; rfl
  have two : ∀ f v d, lastTwo f (storeAsgs o s) = some (some v) → v.n = (h.two f).c →
      (((storeAsgs o s).foldl (fun h a => a.write h k) h).two f).get k d = v.get d := by
    intro f v d e en
    rw [fold_two, e]
    show v.get (bidx v.n (h.two f).c d) = _
    rw [en]; simp [bidx]
  have hscl : ∀ f, f ≠ .xvec → lastTwo f (sclAsgs o) = none := by
    intro f hne
    unfold sclAsgs
    cases o.useScl with
    | false => simp [lastTwo]
    | true =>
      cases o.xScale with
      | none => simp [lastTwo, asgTwo]
      | some v => simp [lastTwo, asgTwo, hne.symm]
  have hscl1 : ∀ f, lastOne f (sclAsgs o) = none := by
    intro f
    unfold sclAsgs
    cases o.useScl with
    | false => simp [lastOne]
    | true => cases o.xScale <;> simp [lastOne, asgOne]
  have hscl3 : lastMax (sclAsgs o) = none := by
    unfold sclAsgs
    cases o.useScl with
    | false => simp [lastMax]
    | true => cases o.xScale <;> simp [lastMax, asgMax]
  refine ⟨?_, ?_, ?_, ?_, ?_, ?_, ?_, ?_, ⟨?_, ?_, ?_⟩, ?_, ?_, ?_, ?_, ?_⟩
  · intro b' hb' d' _
    rw [hb] at hb'
    have hb' : b = b' := by injection hb'
    subst hb'
    refine two .beta b d' ?_ (by rw [hbn, hs.beta])
    cases hi : s.info <;>
      simp [storeAsgs, hd, hi, hb, lastTwo_append, lastTwo_opt, lastTwo, asgTwo, hscl]
  · intro t' ht' d' _
    rw [ht] at ht'
    have ht' : t = t' := by injection ht'
    subst ht'
    refine two .theta t d' ?_ (by rw [htn, hs.theta])
    cases hi : s.info <;>
      simp [storeAsgs, hd, hi, ht, lastTwo_append, lastTwo_opt, lastTwo, asgTwo, hscl]
  iterate 5
    · refine one _ _ ?_
      cases hi : s.info <;>
        simp [storeAsgs, hd, hi, lastOne_append, lastOne_opt, lastOne, asgOne, hscl1]
  · rw [fold_max]
    have e : lastMax (storeAsgs o s) = some (condAtMax o.condMax s.cond) := by
      cases hi : s.info <;>
        simp [storeAsgs, hd, hi, lastMax_append, lastMax_opt, lastMax, asgMax, hscl3]
    rw [e]
    cases s.cond <;> simp [condAtMax]
  iterate 3
    · refine one _ _ ?_
      cases hi : s.info <;>
        simp [storeAsgs, hd, hi, lastOne_append, lastOne_opt, lastOne, asgOne, hscl1]
  · intro d' hd'
    rw [hd] at hd'
    have hd' : d = d' := by injection hd'
    subst hd'
    refine ⟨?_, ?_, ?_, ?_⟩
    all_goals
      refine one _ _ ?_
      cases hi : s.info <;>
        simp [storeAsgs, hd, hi, lastOne_append, lastOne_opt, lastOne, asgOne, hscl1]
  · refine one _ _ ?_
    cases hi : s.info <;>
      simp [storeAsgs, hd, hi, lastOne_append, lastOne_opt, lastOne, asgOne, hscl1]
  · intro hu v hv e _
    obtain ⟨w, hw, hwn⟩ := hr.scale hu
    rw [hv] at hw
    have hw : v = w := by injection hw
    subst hw
    refine (two .xvec (FVec.ofArr v) e ?_ (by show v.n = _; rw [hs.xvec, hwn])).trans rfl
    cases hi : s.info <;>
      simp [storeAsgs, sclAsgs, hd, hi, hu, hv, lastTwo_append, lastTwo_opt, lastTwo, asgTwo]
  · intro t' hi
    refine ⟨?_, ?_, ?_, fun v hv => ?_, fun v hv => ?_, fun v hv => ?_, fun v hv => ?_⟩
    iterate 3
      · refine one _ _ ?_
        simp [storeAsgs, hd, hi, lastOne_append, lastOne_opt, lastOne, asgOne, hscl1]
    all_goals
      refine one _ _ ?_
      simp [storeAsgs, hd, hi, lastOne_append, lastOne_opt, lastOne, asgOne, hscl1, hv]
  · intro d' hd' hn
    rw [hd] at hd'
    have hd' : d = d' := by injection hd'
    subst hd'
    rw [← npVarF_eq hn]
    refine one _ _ ?_
    cases hi : s.info <;>
      simp [storeAsgs, hd, hi, lastOne_append, lastOne_opt, lastOne, asgOne, hscl1]

/-- The ratio only touches its own array, at the same row. -/
theorem storeRatio_ok {dim nBeta n : ℕ} {h : Surr} (hs : Sized dim nBeta n h) {i : ℤ} {k : ℕ} (hi : Denotes n i k) :
    ∃ h', storeRatio i h = (h', .ok ()) ∧ Sized dim nBeta n h' ∧ (∀ j, j ≠ k → SameRow h h' j) ∧
      (∀ f, f ≠ .varKVarF → h'.one f = h.one f) ∧ h'.two = h.two ∧ h'.atMax = h.atMax ∧
      ∀ v, (h.one .varF).get k = some v → 0 < v → (h'.one .varKVarF).get k = ((h.one .varK).get k).map (· / v) := by
  have hi' := pyIdx_denotes.mpr hi
  unfold storeRatio
  rw [hs.one, hs.one, hi']
  dsimp only
  cases hv : (h.one .varF).get k with
  | none => exact ⟨h, rfl, hs, fun _ _ => ⟨fun _ => rfl, fun _ _ _ => rfl, rfl⟩, fun _ _ => rfl, rfl, rfl, fun _ h => (by cases h)⟩
  | some v =>
    dsimp only
    split
    · obtain ⟨h1, h2⟩ := runAsgs_ok hi (l := [.one .varKVarF (((h.one .varK).get k).map (· / v))]) hs
        (fun a ha => by rw [List.mem_singleton] at ha
                        subst ha; trivial)
      refine ⟨_, h1, h2, fun j hj => fold_other hj _ _, fun f hf => ?_, rfl, rfl, fun w hw _ => ?_⟩
      · simp [Asg.write, Function.update_of_ne hf]
      · cases hw
        simp [Asg.write]
    · rename_i hneg
      exact ⟨h, rfl, hs, fun _ _ => ⟨fun _ => rfl, fun _ _ _ => rfl, rfl⟩, fun _ _ => rfl, rfl, rfl,
        fun w hw h0 => absurd h0 (by cases hw; exact hneg)⟩

theorem storedRow_congr {o : SurrObj} {s : StoreArgs} {h h' : Surr} {k : ℕ} (H : StoredCore o s h k)
    (h1 : ∀ f, f ≠ .varKVarF → h'.one f = h.one f) (h2 : h'.two = h.two) (h3 : h'.atMax = h.atMax) : StoredCore o s h' k := by
  obtain ⟨a1, a2, a3, a4, a5, a6, a7, a8, ⟨a9, a10, a11⟩, a12, a13, a14, a15, a16⟩ := H
  refine ⟨?_, ?_, ?_, ?_, ?_, ?_, ?_, ?_, ⟨?_, ?_, ?_⟩, ?_, ?_, ?_, ?_, ?_⟩
  · rw [h2]; exact a1
  · rw [h2]; exact a2
  iterate 5
    · rw [h1 _ (by decide)]; assumption
  · rw [h3]; exact a8
  iterate 3
    · rw [h1 _ (by decide)]; assumption
  · rw [h1 _ (by decide), h1 _ (by decide), h1 _ (by decide), h1 _ (by decide)]; exact a12
  · rw [h1 _ (by decide)]; exact a13
  · rw [h2]; exact a14
  · rw [h1 _ (by decide), h1 _ (by decide), h1 _ (by decide), h1 _ (by decide), h1 _ (by decide), h1 _ (by decide), h1 _ (by decide)]
    exact a15
  · rw [h1 _ (by decide)]; exact a16

/-- A store for a row within the capacity. -/
theorem store_ok {o : SurrObj} {n : ℕ} {h : Surr} (hsave : o.save = true) (hh : o.h = some h) (hs : Sized o.dim o.nBeta n h)
    (hr : StoreReady o) {s : StoreArgs} (hf : HpFits o.dim o.nBeta s.hp) {i : ℤ} {k : ℕ} (hi : Denotes n i k) :
    ∃ h', storeSurr i s o = ({ o with hpVals := some s.hp, h := some h' }, .ok ()) ∧ Sized o.dim o.nBeta n h' ∧
      (∀ j, j ≠ k → SameRow h h' j) ∧ StoredRow o s h' k := by
  cases o
  dsimp only at hsave hh hs hf
  subst hsave hh
  rename_i dim nBeta useGrad condMax name hpV kf kg data vr us xs
  set o : SurrObj := ⟨dim, nBeta, useGrad, condMax, name, true, some h, hpV, kf, kg, data, vr, us, xs⟩ with ho
  have hr' : StoreReady { o with hpVals := some s.hp } := ⟨hr.data, hr.scale⟩
  obtain ⟨e1, e2⟩ := runAsgs_ok (l := storeAsgs { o with hpVals := some s.hp } s) hi hs (storeAsgs_fit hr' hf)
  have e3 := storeAsgs_row (o := { o with hpVals := some s.hp }) hs hr' hf k
  obtain ⟨h', g1, g2, g3, g4, g5, g6, g7⟩ := storeRatio_ok e2 hi
  refine ⟨h', ?_, g2, fun j hj => ?_, ?_⟩
  · unfold storeSurr
    dsimp only
    rw [if_pos rfl, show o.h = some h from rfl]
    dsimp only
    rw [show (⟨_, _, _, _, _, o.save, some h, _, _, _, _, _, _, _⟩ : SurrObj) = { o with hpVals := some s.hp } from rfl, e1]
    dsimp only
    rw [g1]
  · obtain ⟨a1, a2, a3⟩ := fold_other hj (storeAsgs { o with hpVals := some s.hp } s) h
    obtain ⟨b1, b2, b3⟩ := g3 j hj
    exact ⟨fun f => (b1 f).trans (a1 f), fun f d hd => (b2 f d (by rw [fold_cols]; exact hd)).trans (a2 f d hd), b3.trans a3⟩
  · have := storedRow_congr e3 g4 g5 g6
    refine ⟨⟨this.beta, this.theta, this.kernel, this.varK, this.varFval, this.varFgrad, this.cond, this.atMax, this.times, this.data,
      this.vminReq, this.scale, this.info, this.variance⟩, fun v hv h0 => ?_⟩
    rw [g4 _ (by decide)] at hv
    rw [g7 v hv h0, e3.varK]

/-- A store for a row beyond the capacity raises and changes nothing but the current hyperparameters. -/
theorem store_out {o : SurrObj} {n : ℕ} {h : Surr} (hsave : o.save = true) (hh : o.h = some h) (hs : Sized o.dim o.nBeta n h)
    {s : StoreArgs} {i : ℤ} (hi : ∀ k, ¬ Denotes n i k) :
    storeSurr i s o = ({ o with hpVals := some s.hp }, .error .index) := by
  cases o
  dsimp only at hsave hh hs
  subst hsave hh
  rename_i dim nBeta useGrad condMax name hpV kf kg data vr us xs
  set o : SurrObj := ⟨dim, nBeta, useGrad, condMax, name, true, some h, hpV, kf, kg, data, vr, us, xs⟩ with ho
  have e : ∃ l, storeAsgs { o with hpVals := some s.hp } s = .one .timeOptz s.timeOptz :: l := ⟨_, rfl⟩
  obtain ⟨l, e⟩ := e
  unfold storeSurr
  dsimp only
  rw [if_pos rfl, show o.h = some h from rfl]
  dsimp only
  rw [show (⟨_, _, _, _, _, o.save, some h, _, _, _, _, _, _, _⟩ : SurrObj) = { o with hpVals := some s.hp } from rfl,
    e, runAsgs_out hi (hs.one _)]

theorem storedRow_sameRow {o : SurrObj} {s : StoreArgs} {n : ℕ} {h h' : Surr} {k : ℕ} (hs : Sized o.dim o.nBeta n h)
    (hf : HpFits o.dim o.nBeta s.hp) (H : StoredRow o s h k) (hS : SameRow h h' k) : StoredRow o s h' k := by
  obtain ⟨b, hb, hbn⟩ := hf.beta
  obtain ⟨t, ht, htn⟩ := hf.theta
  obtain ⟨S1, S2, S3⟩ := hS
  obtain ⟨⟨a1, a2, a3, a4, a5, a6, a7, a8, ⟨a9, a10, a11⟩, a12, a13, a14, a15, a16⟩, a17⟩ := H
  refine ⟨⟨fun b' e d hd => ?_, fun t' e d hd => ?_, ?_, ?_, ?_, ?_, ?_, ?_, ⟨?_, ?_, ?_⟩, ?_, ?_, fun hu v hv e he => ?_, ?_, ?_⟩, ?_⟩
  · rw [hb] at e
    have e : b = b' := by injection e
    subst e
    rw [S2 .beta d (by rw [hs.beta, ← hbn]; exact hd)]; exact a1 b hb d hd
  · rw [ht] at e
    have e : t = t' := by injection e
    subst e
    rw [S2 .theta d (by rw [hs.theta, ← htn]; exact hd)]; exact a2 t ht d hd
  iterate 5
    · rw [S1]; assumption
  · rw [S3]; exact a8
  iterate 3
    · rw [S1]; assumption
  · simp only [S1]; exact a12
  · rw [S1]; exact a13
  · rw [S2 .xvec e (by rw [hs.xvec]; exact he)]; exact a14 hu v hv e he
  · simp only [S1]; exact a15
  · simp only [S1]; exact a16
  · simp only [S1]; exact a17

theorem storedRow_ctx {o o' : SurrObj} {s : StoreArgs} {h : Surr} {k : ℕ} {hp : Option HpF} {g : Option Surr}
    (he : o' = { o with hpVals := hp, h := g }) (H : StoredRow o' s h k) : StoredRow o s h k := by
  subst he
  exact ⟨⟨H.beta, H.theta, H.kernel, H.varK, H.varFval, H.varFgrad, H.cond, H.atMax, H.times, H.data, H.vminReq, H.scale, H.info,
    H.variance⟩, H.ratio⟩

theorem sameRow_trans {a b c : Surr} {k : ℕ} (hc : ∀ f, (b.two f).c = (a.two f).c) (h : SameRow a b k) (h' : SameRow b c k) :
    SameRow a c k :=
  ⟨fun f => (h'.1 f).trans (h.1 f), fun f d hd => (h'.2.1 f d (by rw [hc f]; exact hd)).trans (h.2.1 f d hd), h'.2.2.trans h.2.2⟩

/-- The history after any calls of the store. -/
theorem runStores_ok {n : ℕ} : ∀ (l : List (ℤ × StoreArgs)) {o : SurrObj} {h : Surr}, o.save = true → o.h = some h →
    Sized o.dim o.nBeta n h → StoreReady o → (∀ x ∈ l, HpFits o.dim o.nBeta x.2.hp) →
    ∃ h' hp', runStores l o = { o with hpVals := hp', h := some h' } ∧ Sized o.dim o.nBeta n h' ∧
      (∀ k, match lastStored n l k with
        | some s => StoredRow o s h' k ∧ HpFits o.dim o.nBeta s.hp
        | none => SameRow h h' k)
  | [], o, h, hsave, hh, hs, hr, _ =>
    ⟨h, o.hpVals, by cases o; simp_all [runStores], hs, fun k => ⟨fun _ => rfl, fun _ _ _ => rfl, rfl⟩⟩
  | (i, s) :: l, o, h, hsave, hh, hs, hr, hl => by
    have hf := hl (i, s) (List.mem_cons_self ..)
    have hl' : ∀ x ∈ l, HpFits o.dim o.nBeta x.2.hp := fun x hx => hl x (List.mem_cons_of_mem _ hx)
    by_cases hd : ∃ k, Denotes n i k
    · obtain ⟨k0, hk0⟩ := hd
      obtain ⟨h1, e1, e2, e3, e4⟩ := store_ok hsave hh hs hr hf hk0
      have e1' : (storeSurr i s o).1 = { o with hpVals := some s.hp, h := some h1 } := by rw [e1]
      obtain ⟨h', hp', g1, g2, g3⟩ := runStores_ok l (o := { o with hpVals := some s.hp, h := some h1 }) hsave rfl e2
        ⟨hr.data, hr.scale⟩ hl'
      refine ⟨h', hp', by rw [runStores, e1', g1], g2, fun k => ?_⟩
      have g3k := g3 k
      rw [lastStored]
      cases hls : lastStored n l k with
      | some t =>
        rw [hls] at g3k
        exact ⟨storedRow_ctx rfl g3k.1, g3k.2⟩
      | none =>
        rw [hls] at g3k
        dsimp only at g3k ⊢
        by_cases hk : Denotes n i k
        · rw [if_pos hk]
          have : k = k0 := denotes_unique hk hk0
          subst this
          exact ⟨storedRow_sameRow e2 hf e4 g3k, hf⟩
        · rw [if_neg hk]
          exact sameRow_trans (fun f => by rw [fld2Cols_eq e2, fld2Cols_eq hs]) (e3 k (fun e => hk (by rw [e]; exact hk0))) g3k
    · have e1 := store_out hsave hh hs (s := s) (fun k hk => hd ⟨k, hk⟩)
      have e1' : (storeSurr i s o).1 = { o with hpVals := some s.hp } := by rw [e1]
      obtain ⟨h', hp', g1, g2, g3⟩ := runStores_ok l (o := { o with hpVals := some s.hp }) hsave hh hs ⟨hr.data, hr.scale⟩ hl'
      refine ⟨h', hp', by rw [runStores, e1', g1], g2, fun k => ?_⟩
      have g3k := g3 k
      rw [lastStored]
      cases hls : lastStored n l k with
      | some t =>
        rw [hls] at g3k
        exact ⟨storedRow_ctx (hp := some s.hp) (g := o.h) rfl g3k.1, g3k.2⟩
      | none =>
        rw [hls] at g3k
        dsimp only at g3k ⊢
        rw [if_neg (fun hk => hd ⟨k, hk⟩)]
        exact g3k

theorem init_sized (n : ℕ) (o : SurrObj) : ∃ h, (initSurr n o).h = some h ∧ Sized o.dim o.nBeta n h ∧ (initSurr n o).save = true ∧
    (∀ f k, (h.one f).get k = none) ∧ ∀ f k d, (h.two f).get k d = none :=
  ⟨_, rfl, ⟨fun _ => rfl, fun _ => rfl, rfl, rfl, rfl, rfl⟩, rfl, fun _ _ => rfl, fun _ _ _ => rfl⟩

/-- Restoring a row that was stored. -/
theorem select_stored {o : SurrObj} {n : ℕ} {h : Surr} (hh : o.h = some h) (hs : Sized o.dim o.nBeta n h) {s : StoreArgs} {k : ℕ}
    (hk : k < n) (hf : HpFits o.dim o.nBeta s.hp) (H : StoredRow o s h k) :
    ∃ o' r, setHpFromIdx k o = (o', .ok ()) ∧ o'.h = o.h ∧ o'.hpVals = some r ∧ Restored s.hp r ∧
      (o'.knownFval = true ↔ s.hp.varFval.join = none) ∧ (o'.knownFgrad = true ↔ s.hp.varFgrad.join = none) := by
  have hi : pyIdx (k : ℤ) n = .ok k := pyIdx_denotes.mpr ⟨hk, Or.inl rfl⟩
  obtain ⟨b, hb, hbn⟩ := hf.beta
  obtain ⟨t, ht, htn⟩ := hf.theta
  unfold setHpFromIdx
  rw [hh]
  dsimp only
  rw [hs.one, hi]
  dsimp only
  rw [H.varFval, H.varFgrad]
  refine ⟨_, _, rfl, rfl, rfl, ⟨?_, ?_, ?_, ?_, ?_, ?_⟩, ?_, ?_⟩
  · exact ⟨b, _, hb, rfl, by rw [hs.beta, hbn], fun d hd => H.beta b hb d hd⟩
  · exact ⟨t, _, ht, rfl, by rw [hs.theta, htn], fun d hd => H.theta t ht d hd⟩
  · rw [H.kernel]
  · rw [H.varK]
  · cases s.hp.varFval.join <;> rfl
  · cases s.hp.varFgrad.join <;> rfl
  · cases s.hp.varFval.join <;> simp [stdFromHist]
  · cases s.hp.varFgrad.join <;> simp [stdFromHist]

/-- **C59.** After the history was initialised for `n` iterations and for every sequence of stores (any integer indices, in any
order, repeated or out of range, the latter raising): selecting an index `k` below `n` restores the hyperparameters of the last
store for row `k`, and the noise level counts as known exactly where no noise variance was stored; if nothing was stored there,
all hyperparameters are restored as NaN. Selecting an index from `n` on raises `IndexError` and changes nothing. -/
theorem C59_restore_stored {o : SurrObj} (hr : StoreReady o) (n : ℕ) (l : List (ℤ × StoreArgs))
    (hl : ∀ x ∈ l, HpFits o.dim o.nBeta x.2.hp) :
    (∀ k < n, ∃ o' r, setHpFromIdx k (runStores l (initSurr n o)) = (o', .ok ()) ∧ o'.hpVals = some r ∧
      match lastStored n l k with
      | some s => Restored s.hp r ∧ (o'.knownFval = true ↔ s.hp.varFval.join = none) ∧
          (o'.knownFgrad = true ↔ s.hp.varFgrad.join = none)
      | none => r.varK = some none ∧ r.kernel = some none ∧ r.varFval = none ∧ r.varFgrad = none ∧
          (∃ t, r.theta = some t ∧ t.n = o.dim ∧ ∀ d < o.dim, t.get d = none) ∧
          ∃ b, r.beta = some b ∧ b.n = o.nBeta ∧ ∀ d < o.nBeta, b.get d = none) ∧
    ∀ k, n ≤ k → setHpFromIdx k (runStores l (initSurr n o)) = (runStores l (initSurr n o), .error .index) := by
  obtain ⟨h0, i1, i2, i3, i4, i5⟩ := init_sized n o
  obtain ⟨h, hp, e1, e2, e3⟩ := runStores_ok l (o := initSurr n o) i3 i1 i2 ⟨hr.data, hr.scale⟩ hl
  rw [e1]
  refine ⟨fun k hk => ?_, fun k hk => ?_⟩
  · have e3k := e3 k
    cases hls : lastStored n l k with
    | some s =>
      rw [hls] at e3k
      obtain ⟨o', r, g1, -, g3, g4, g5, g6⟩ := select_stored (o := { initSurr n o with hpVals := hp, h := some h }) rfl e2 hk e3k.2
        (storedRow_ctx (o' := initSurr n o) (hp := (initSurr n o).hpVals) (g := (initSurr n o).h) rfl e3k.1)
      exact ⟨o', r, g1, g3, g4, g5, g6⟩
    | none =>
      rw [hls] at e3k
      obtain ⟨S1, S2, -⟩ := e3k
      have hi : pyIdx (k : ℤ) n = .ok k := pyIdx_denotes.mpr ⟨hk, Or.inl rfl⟩
      unfold setHpFromIdx
      dsimp only
      rw [e2.one, hi]
      dsimp only
      have one : ∀ f, (h.one f).get k = none := fun f => (S1 f).trans (i4 f k)
      simp only [one]
      refine ⟨_, _, rfl, rfl, rfl, rfl, rfl, rfl, ⟨_, rfl, e2.theta, fun d hd => ?_⟩, ⟨_, rfl, e2.beta, fun d hd => ?_⟩⟩
      · exact (S2 .theta d (by rw [i2.theta]; exact hd)).trans (i5 _ _ _)
      · exact (S2 .beta d (by rw [i2.beta]; exact hd)).trans (i5 _ _ _)
  · unfold setHpFromIdx
    dsimp only
    rw [e2.one, pyIdx_out (by rintro j ⟨h1, h2⟩; omega)]

/-- **C59**, the stores themselves: a store succeeds exactly if its index denotes one of the `n` rows; then that row holds
everything that was passed, and the other rows of every array are as before. Otherwise it raises `IndexError` and no array
changes. In both cases the hyperparameters passed are the current ones. -/
theorem C59_store_outcome {o : SurrObj} (hr : StoreReady o) (n : ℕ) (l : List (ℤ × StoreArgs))
    (hl : ∀ x ∈ l, HpFits o.dim o.nBeta x.2.hp) (i : ℤ) {s : StoreArgs} (hf : HpFits o.dim o.nBeta s.hp) :
    ∃ h h' r, (runStores l (initSurr n o)).h = some h ∧ Sized o.dim o.nBeta n h ∧
      storeSurr i s (runStores l (initSurr n o)) = ({ runStores l (initSurr n o) with hpVals := some s.hp, h := some h' }, r) ∧
      ((∃ k, Denotes n i k ∧ r = .ok () ∧ StoredRow o s h' k ∧ ∀ j, j ≠ k → SameRow h h' j) ∨
       ((∀ k, ¬ Denotes n i k) ∧ r = .error .index ∧ h' = h)) := by
  obtain ⟨h0, i1, i2, i3, i4, i5⟩ := init_sized n o
  obtain ⟨h, hp, e1, e2, e3⟩ := runStores_ok l (o := initSurr n o) i3 i1 i2 ⟨hr.data, hr.scale⟩ hl
  rw [e1]
  by_cases hd : ∃ k, Denotes n i k
  · obtain ⟨k, hk⟩ := hd
    obtain ⟨h', g1, g2, g3, g4⟩ := store_ok (o := { initSurr n o with hpVals := hp, h := some h }) rfl rfl e2 ⟨hr.data, hr.scale⟩ hf hk
    refine ⟨h, h', .ok (), rfl, e2, g1, Or.inl ⟨k, hk, rfl, ?_, g3⟩⟩
    exact ⟨⟨g4.beta, g4.theta, g4.kernel, g4.varK, g4.varFval, g4.varFgrad, g4.cond, g4.atMax, g4.times, g4.data, g4.vminReq,
      g4.scale, g4.info, g4.variance⟩, g4.ratio⟩
  · have g1 := store_out (o := { initSurr n o with hpVals := hp, h := some h }) rfl rfl e2 (s := s) (fun k hk => hd ⟨k, hk⟩)
    exact ⟨h, h, _, rfl, e2, g1, Or.inr ⟨fun k hk => hd ⟨k, hk⟩, rfl, rfl⟩⟩

/-! ### C61 -/

/-- Finishing keeps `t` rows. -/
theorem finish_keeps {o : SurrObj} {n : ℕ} {h : Surr} (hsave : o.save = true) (hh : o.h = some h) (hs : Sized o.dim o.nBeta n h) {m : ℤ} {t : ℕ}
    (ht : sliceLen m n = t) (htn : t ≤ n) :
    ∃ h', finishSurr m o = ({ o with h := some h' }, .ok ()) ∧ Sized o.dim o.nBeta t h' ∧
      (∀ k < t, SameRow h h' k) ∧
      (∀ k < t, ∃ r : SurrObj, setHpFromIdx k o = ({ r with h := some h }, .ok ()) ∧
        setHpFromIdx k { o with h := some h' } = ({ r with h := some h' }, .ok ())) ∧
      ∀ k, t ≤ k → setHpFromIdx k { o with h := some h' } = ({ o with h := some h' }, .error .index) := by
  set h' : Surr := { one := fun f => ⟨sliceLen m (h.one f).n, (h.one f).get⟩
                     two := fun f => ⟨sliceLen m (h.two f).r, (h.two f).c, (h.two f).get⟩
                     atMax := ⟨sliceLen m h.atMax.n, h.atMax.get⟩ } with hh'
  have hs' : Sized o.dim o.nBeta t h' :=
    ⟨fun f => by show sliceLen m (h.one f).n = _; rw [hs.one, ht], fun f => by show sliceLen m (h.two f).r = _; rw [hs.two_r, ht],
      hs.beta, hs.theta, hs.xvec, by show sliceLen m h.atMax.n = _; rw [hs.atMax, ht]⟩
  refine ⟨h', ?_, hs', fun k _ => ⟨fun _ => rfl, fun _ _ _ => rfl, rfl⟩, fun k hk => ?_, fun k hk => ?_⟩
  · unfold finishSurr
    rw [if_pos hsave, hh]
  · have hi : pyIdx (k : ℤ) n = .ok k := pyIdx_denotes.mpr ⟨by omega, Or.inl rfl⟩
    have hi' : pyIdx (k : ℤ) t = .ok k := pyIdx_denotes.mpr ⟨by omega, Or.inl rfl⟩
    refine ⟨(setHpFromIdx k o).1, ?_, ?_⟩
    · unfold setHpFromIdx
      rw [hh]
      dsimp only
      rw [hs.one, hi]
    · unfold setHpFromIdx
      rw [hh]
      dsimp only
      rw [hs'.one, hi', hs.one, hi]
  · unfold setHpFromIdx
    dsimp only
    rw [hs'.one, pyIdx_out (by rintro j ⟨h1, h2⟩; omega)]

/-- **C61.** Finishing with `m` iterations keeps, in every array of a history of `n` rows, exactly the first `m` rows (all of them if
there are fewer), unaltered, and changes nothing else; so every kept iteration is restored as before, and restoring a later one
raises. Without an initialised history it raises. -/
theorem C61_finish_truncates {o : SurrObj} {n : ℕ} {h : Surr} (hsave : o.save = true) (hh : o.h = some h)
    (hs : Sized o.dim o.nBeta n h) (m : ℕ) :
    ∃ h', finishSurr m o = ({ o with h := some h' }, .ok ()) ∧ Sized o.dim o.nBeta (min m n) h' ∧
      (∀ k < min m n, SameRow h h' k) ∧
      (∀ k < min m n, ∃ r : SurrObj, setHpFromIdx k o = ({ r with h := some h }, .ok ()) ∧
        setHpFromIdx k { o with h := some h' } = ({ r with h := some h' }, .ok ())) ∧
      ∀ k, min m n ≤ k → setHpFromIdx k { o with h := some h' } = ({ o with h := some h' }, .error .index) := by
  refine finish_keeps hsave hh hs ?_ (by omega)
  unfold sliceLen
  rw [if_neg (by omega)]
  simp

/-- **C61**, negative numbers: finishing with `-m` drops the last `m` rows of every array (all of them if there are fewer) and keeps
the others unaltered. -/
theorem C61_finish_negative {o : SurrObj} {n : ℕ} {h : Surr} (hsave : o.save = true) (hh : o.h = some h)
    (hs : Sized o.dim o.nBeta n h) {m : ℕ} (hm : 0 < m) :
    ∃ h', finishSurr (-(m : ℤ)) o = ({ o with h := some h' }, .ok ()) ∧ Sized o.dim o.nBeta (n - m) h' ∧
      (∀ k < n - m, SameRow h h' k) ∧
      (∀ k < n - m, ∃ r : SurrObj, setHpFromIdx k o = ({ r with h := some h }, .ok ()) ∧
        setHpFromIdx k { o with h := some h' } = ({ r with h := some h' }, .ok ())) ∧
      ∀ k, n - m ≤ k → setHpFromIdx k { o with h := some h' } = ({ o with h := some h' }, .error .index) := by
  refine finish_keeps hsave hh hs ?_ (by omega)
  unfold sliceLen
  rw [if_pos (by omega)]
  omega

theorem C61_not_initialised {o : SurrObj} (h : o.save = false) (n : ℤ) : finishSurr n o = (o, .error .assertion) := by
  unfold finishSurr
  rw [h]; rfl

/-! ### C60 -/

/-- The first `n` rows of an array come from the source. -/
def LoadDone (src h : Surr) (n : ℕ) : LoadAsg → Prop
  | .one f => ∀ k < n, (h.one f).get k = (src.one f).get k
  | .two f => ∀ k < n, ∀ d < (src.two f).c, (h.two f).get k d = (src.two f).get k d
  | .atMax => ∀ k < n, h.atMax.get k = src.atMax.get k

theorem load_step {dim nBeta n m : ℕ} {src h : Surr} (hsrc : Sized dim nBeta n src) (hs : Sized dim nBeta m h) (hnm : n ≤ m)
    (a : LoadAsg) :
    ∃ h', a.run n src h = .ok h' ∧ Sized dim nBeta m h' ∧ (∀ k, n ≤ k → SameRow h h' k) ∧ LoadDone src h' n a ∧
      ∀ b, LoadDone src h n b → LoadDone src h' n b := by
  have hmin : min n m = n := by omega
  have cr : ∀ k, copyRow n n k = if k < n then some k else none := by
    intro k; unfold copyRow bidx; simp
  have hc : ∀ f, (src.two f).c = (h.two f).c := fun f => by rw [fld2Cols_eq hsrc, fld2Cols_eq hs]
  cases a with
  | one f =>
    simp only [LoadAsg.run, hs.one, hsrc.one, hmin, true_or, if_true, cr]
    refine ⟨_, rfl, ⟨fun g => ?_, hs.two_r, hs.beta, hs.theta, hs.xvec, hs.atMax⟩, fun k hk => ⟨fun g => ?_, fun _ _ _ => rfl, rfl⟩,
      fun k hk => ?_, fun b hb => ?_⟩
    · by_cases e : g = f
      · subst e; simp
      · simp [Function.update_of_ne e, hs.one]
    · by_cases e : g = f
      · subst e; simp [show ¬ k < n by omega]
      · simp [Function.update_of_ne e]
    · simp [hk]
    · cases b with
      | one g =>
        intro k hk
        by_cases e : g = f
        · subst e; simp [hk]
        · simp only [Function.update_of_ne e]; exact hb k hk
      | two g => exact hb
      | atMax => exact hb
  | two f =>
    simp only [LoadAsg.run, hs.two_r, hsrc.two_r, hmin, true_or, hc, and_self, if_true, cr]
    refine ⟨_, rfl, ⟨hs.one, fun g => ?_, ?_, ?_, ?_, hs.atMax⟩, fun k hk => ⟨fun _ => rfl, fun g d _ => ?_, rfl⟩,
      fun k hk d hd => ?_, fun b hb => ?_⟩
    · by_cases e : g = f
      · subst e; simp
      · simp [Function.update_of_ne e, hs.two_r]
    iterate 3
      · cases f <;> simp [Function.update, hs.beta, hs.theta, hs.xvec]
    · by_cases e : g = f
      · subst e; simp [show ¬ k < n by omega]
      · simp [Function.update_of_ne e]
    · simp [hk, bidx]
    · cases b with
      | two g =>
        intro k hk d hd
        by_cases e : g = f
        · subst e; simp [hk, bidx]
        · simp only [Function.update_of_ne e]; exact hb k hk d hd
      | one g => exact hb
      | atMax => exact hb
  | atMax =>
    simp only [LoadAsg.run, hs.atMax, hsrc.atMax, hmin, true_or, if_true, cr]
    refine ⟨_, rfl, ⟨hs.one, hs.two_r, hs.beta, hs.theta, hs.xvec, rfl⟩, fun k hk => ⟨fun _ => rfl, fun _ _ _ => rfl, ?_⟩,
      fun k hk => ?_, fun b hb => ?_⟩
    · simp [show ¬ k < n by omega]
    · simp [hk]
    · cases b with
      | one g => exact hb
      | two g => exact hb
      | atMax => intro k hk; simp [hk]

theorem runLoads_ok {dim nBeta n m : ℕ} {src : Surr} (hsrc : Sized dim nBeta n src) (hnm : n ≤ m) :
    ∀ (l : List LoadAsg) {h : Surr}, Sized dim nBeta m h → ∃ h', runLoads n src l h = (h', .ok ()) ∧ Sized dim nBeta m h' ∧
      (∀ k, n ≤ k → SameRow h h' k) ∧ (∀ b, b ∈ l ∨ LoadDone src h n b → LoadDone src h' n b)
  | [], h, hs => ⟨h, rfl, hs, fun _ _ => ⟨fun _ => rfl, fun _ _ _ => rfl, rfl⟩, fun b hb => by
      rcases hb with hb | hb
      · exact absurd hb (List.not_mem_nil)
      · exact hb⟩
  | a :: l, h, hs => by
    obtain ⟨h1, e1, e2, e3, e4, e5⟩ := load_step hsrc hs hnm a
    obtain ⟨h', g1, g2, g3, g4⟩ := runLoads_ok hsrc hnm l e2
    refine ⟨h', by rw [runLoads, e1]; exact g1, g2, fun k hk => sameRow_trans (fun f => by rw [fld2Cols_eq e2, fld2Cols_eq hs]) (e3 k hk) (g3 k hk),
      fun b hb => g4 b ?_⟩
    rcases hb with hb | hb
    · rcases List.mem_cons.mp hb with rfl | hb
      · exact Or.inr e4
      · exact Or.inl hb
    · exact Or.inr (e5 b hb)

theorem loadAsgs_all (b : LoadAsg) : b ∈ loadAsgs := by
  cases b with
  | one f => cases f <;> simp [loadAsgs]
  | two f => cases f <;> simp [loadAsgs]
  | atMax => simp [loadAsgs]

/-- **C60.** The data exported (without a file) from a history of `n` rows, loaded into an object of the same name and dimension
whose history has room for them: every array receives the exported rows, the other rows keep their content, and so selecting
an iteration of the loaded object restores what it restores in the exporting one. (There is one mean coefficient.) -/
theorem C60_export_load_partial {o p : SurrObj} {n m : ℕ} {h g : Surr} (ho : o.save = true) (hh : o.h = some h)
    (hs : Sized o.dim o.nBeta n h) (hp : p.save = true) (hg : p.h = some g) (gs : Sized p.dim p.nBeta m g) (hdim : p.dim = o.dim)
    (h1 : o.nBeta = 1) (h2 : p.nBeta = 1) (hname : p.name = o.name) (hnm : n ≤ m) :
    ∃ d g', exportSurr false o = .ok d ∧ loadSurr (some d) p = ({ p with h := some g' }, .ok ()) ∧
      Sized p.dim p.nBeta m g' ∧ (∀ k < n, SameRow h g' k) ∧ (∀ k, n ≤ k → SameRow g g' k) ∧
      ∀ k < n, ∃ r a b, setHpFromIdx k o = (a, .ok ()) ∧ setHpFromIdx k { p with h := some g' } = (b, .ok ()) ∧
        a.hpVals = some r ∧ (∃ r', b.hpVals = some r' ∧ SameVec r.beta r'.beta ∧ SameVec r.theta r'.theta ∧ r'.kernel = r.kernel ∧
          r'.varK = r.varK ∧ r'.varFval = r.varFval ∧ r'.varFgrad = r.varFgrad) ∧
        b.knownFval = a.knownFval ∧ b.knownFgrad = a.knownFgrad := by
  have hs' : Sized p.dim p.nBeta n h := by rw [hdim, h2]; rw [h1] at hs; exact hs
  obtain ⟨g', e1, e2, e3, e4⟩ := runLoads_ok hs' hnm loadAsgs gs
  have hrow : ∀ k < n, SameRow h g' k := fun k hk =>
    ⟨fun f => e4 (.one f) (Or.inl (loadAsgs_all _)) k hk, fun f d hd => e4 (.two f) (Or.inl (loadAsgs_all _)) k hk d hd,
      e4 .atMax (Or.inl (loadAsgs_all _)) k hk⟩
  refine ⟨⟨o.name, h⟩, g', ?_, ?_, e2, hrow, e3, fun k hk => ?_⟩
  · unfold exportSurr
    rw [if_pos ho, hh]; rfl
  · unfold loadSurr
    rw [if_pos hp]
    dsimp only
    rw [if_pos hname.symm, hg]
    dsimp only
    rw [hs.two_r, hs.beta, h1, mul_one, e1]
  · have hi : pyIdx (k : ℤ) n = .ok k := pyIdx_denotes.mpr ⟨hk, Or.inl rfl⟩
    have hi' : pyIdx (k : ℤ) m = .ok k := pyIdx_denotes.mpr ⟨by omega, Or.inl rfl⟩
    obtain ⟨S1, S2, -⟩ := hrow k hk
    unfold setHpFromIdx
    rw [hh]
    dsimp only
    rw [hs.one, hi, e2.one, hi']
    dsimp only
    simp only [S1]
    refine ⟨_, _, _, rfl, rfl, rfl, ⟨_, rfl, ⟨_, _, rfl, rfl, ?_, fun d hd => ?_⟩, ⟨_, _, rfl, rfl, ?_, fun d hd => ?_⟩, rfl, rfl, rfl, rfl⟩,
      rfl, rfl⟩
    · show (g'.two .beta).c = (h.two .beta).c
      rw [e2.beta, hs'.beta]
    · exact S2 .beta d hd
    · show (g'.two .theta).c = (h.two .theta).c
      rw [e2.theta, hs'.theta]
    · exact S2 .theta d hd

/-- **C60**, no room: more than one exported row and a smaller history raise, and nothing is loaded. -/
theorem C60_no_room {o p : SurrObj} {n m : ℕ} {h g : Surr} (ho : o.save = true) (hh : o.h = some h)
    (hs : Sized o.dim o.nBeta n h) (hp : p.save = true) (hg : p.h = some g) (gs : Sized p.dim p.nBeta m g)
    (h1 : o.nBeta = 1) (hname : p.name = o.name) (hnm : m < n) (hn : 1 < n) :
    ∃ d, exportSurr false o = .ok d ∧ loadSurr (some d) p = (p, .error .shape) := by
  refine ⟨⟨o.name, h⟩, ?_, ?_⟩
  · unfold exportSurr
    rw [if_pos ho, hh]; rfl
  · unfold loadSurr
    rw [if_pos hp]
    dsimp only
    rw [if_pos hname.symm, hg]
    dsimp only
    have : runLoads ((h.two .beta).r * (h.two .beta).c) h loadAsgs g = (g, .error .shape) := by
      simp only [loadAsgs, runLoads, LoadAsg.run, hs.two_r, hs.beta, h1, mul_one, gs.two_r]
      rw [if_neg (by omega)]
    rw [this, ← hg]

/-- The number of rows of an array of the history. -/
def asgRows (h : Surr) : LoadAsg → ℕ
  | .one f => (h.one f).n
  | .two f => (h.two f).r
  | .atMax => h.atMax.n

theorem load_run_inv {n : ℕ} {src h h' : Surr} {a : LoadAsg} (e : a.run n src h = .ok h') :
    (asgRows src a = min n (asgRows h a) ∨ asgRows src a = 1) ∧ ∀ b, asgRows h' b = asgRows h b := by
  cases a with
  | one f =>
    simp only [LoadAsg.run] at e
    split at e
    · rename_i hc
      cases e
      refine ⟨hc, fun b => ?_⟩
      cases b with
      | one g =>
        by_cases e : g = f
        · subst e; simp [asgRows]
        · simp [asgRows, Function.update_of_ne e]
      | two g => rfl
      | atMax => rfl
    · cases e
  | two f =>
    simp only [LoadAsg.run] at e
    split at e
    · rename_i hc
      cases e
      refine ⟨hc.1, fun b => ?_⟩
      cases b with
      | two g =>
        by_cases e : g = f
        · subst e; simp [asgRows]
        · simp [asgRows, Function.update_of_ne e]
      | one g => rfl
      | atMax => rfl
    · cases e
  | atMax =>
    simp only [LoadAsg.run] at e
    split at e
    · rename_i hc
      cases e
      refine ⟨hc, fun b => ?_⟩
      cases b <;> rfl
    · cases e

theorem runLoads_inv {n : ℕ} {src : Surr} : ∀ (l : List LoadAsg) {h h' : Surr}, runLoads n src l h = (h', .ok ()) →
    ∀ b ∈ l, asgRows src b = min n (asgRows h b) ∨ asgRows src b = 1
  | [], _, _, _, b, hb => absurd hb List.not_mem_nil
  | a :: l, h, h', e, b, hb => by
    rw [runLoads] at e
    cases ha : a.run n src h with
    | error e' => rw [ha] at e; cases e
    | ok h1 =>
      rw [ha] at e
      obtain ⟨k1, k2⟩ := load_run_inv ha
      rcases List.mem_cons.mp hb with rfl | hb
      · exact k1
      · have := runLoads_inv l e b hb
        rwa [k2] at this

/-- **C60**, damaged data: if any one array of the loaded data has a number of rows other than the number of rows of the mean
coefficients (there is one coefficient per row) or, where the object has less room, than the room, and is not a single row, loading
raises. -/
theorem C60_damaged_raises {p : SurrObj} {g : Surr} (hg : p.h = some g) {d : Exported} (h1 : (d.h.two .beta).c = 1) (b : LoadAsg)
    (hb : asgRows d.h b ≠ min (d.h.two .beta).r (asgRows g b)) (hb1 : asgRows d.h b ≠ 1) : ∃ p' e, loadSurr (some d) p = (p', .error e) := by
  rcases hl : loadSurr (some d) p with ⟨p', e | ⟨⟩⟩
  · exact ⟨p', e, rfl⟩
  · exfalso
    unfold loadSurr at hl
    split at hl
    · dsimp only at hl
      split at hl
      · rw [hg] at hl
        dsimp only at hl
        rcases hr : runLoads ((d.h.two .beta).r * (d.h.two .beta).c) d.h loadAsgs g with ⟨h', r⟩
        rw [hr] at hl
        dsimp only at hl
        have hr' : r = .ok () := (Prod.mk.inj hl).2
        rw [hr', h1, mul_one] at hr
        rcases runLoads_inv _ hr b (loadAsgs_all b) with h | h
        · exact hb h
        · exact hb1 h
      · cases hl
    · cases hl

/-- **C60 does not hold** through a file: saving to a file and loading without data always raise, whatever the history. -/
theorem C60_file_raises (o : SurrObj) :
    (∃ e, exportSurr true o = .error e) ∧ ∃ e, loadSurr none o = (o, .error e) := by
  constructor
  · unfold exportSurr
    split
    · cases o.h <;> exact ⟨_, rfl⟩
    · exact ⟨_, rfl⟩
  · unfold loadSurr
    split <;> exact ⟨_, rfl⟩

/-! ### Concrete cases -/

/-- An object with data, of dimension 2. -/
def exSurr : SurrObj := { dim := 2, nBeta := 1, useGrad := true, condMax := 10 ^ 10, name := "obj_", data := some { fvalIn := ⟨3, fun i => i⟩, etaKbase := some 1, etaKgrad := some 2, vminInit := some 3 } }

def exHpF (v : ℝ) : HpF := { beta := some ⟨1, fun _ => some v⟩, theta := some ⟨2, fun d => some (v + d)⟩, varK := some (some v), varFval := some (some 1) }

/-- The hypotheses of the theorems on stores are met, by stores that are overwritten, that use negative indices and that are out
of range; row 1 of 3 holds the fourth store, row 0 nothing. -/
example : StoreReady exSurr ∧
    (∀ x ∈ [((1 : ℤ), (⟨exHpF 1, none, none, none, none, none⟩ : StoreArgs)), (7, ⟨exHpF 2, none, none, none, none, none⟩),
      (-1, ⟨exHpF 3, none, none, none, none, none⟩), (-2, ⟨exHpF 4, none, none, none, none, none⟩)],
      HpFits exSurr.dim exSurr.nBeta x.2.hp) ∧
    lastStored 3 [((1 : ℤ), (⟨exHpF 1, none, none, none, none, none⟩ : StoreArgs)), (7, ⟨exHpF 2, none, none, none, none, none⟩),
      (-1, ⟨exHpF 3, none, none, none, none, none⟩), (-2, ⟨exHpF 4, none, none, none, none, none⟩)] 1 =
      some ⟨exHpF 4, none, none, none, none, none⟩ ∧
    lastStored 3 [((1 : ℤ), (⟨exHpF 1, none, none, none, none, none⟩ : StoreArgs)), (7, ⟨exHpF 2, none, none, none, none, none⟩),
      (-1, ⟨exHpF 3, none, none, none, none, none⟩), (-2, ⟨exHpF 4, none, none, none, none, none⟩)] 0 = none := by
  refine ⟨⟨⟨_, rfl⟩, fun h => by cases h⟩, fun x hx => ?_, ?_, ?_⟩
  · simp only [List.mem_cons, List.not_mem_nil, or_false] at hx
    rcases hx with rfl | rfl | rfl | rfl <;> exact ⟨⟨_, rfl, rfl⟩, ⟨_, rfl, rfl⟩⟩
  · simp [lastStored, Denotes]
  · simp [lastStored, Denotes]

/-- Data with a shortened array, for an object with room for four rows. -/
example : ∃ (p : SurrObj) (g : Surr) (d : Exported) (b : LoadAsg), p.h = some g ∧ (d.h.two .beta).c = 1 ∧
    asgRows d.h b ≠ min (d.h.two .beta).r (asgRows g b) ∧ asgRows d.h b ≠ 1 := by
  obtain ⟨g, j1, j2, -⟩ := init_sized 4 exSurr
  obtain ⟨h, i1, i2, -⟩ := init_sized 3 exSurr
  refine ⟨initSurr 4 exSurr, g, ⟨"obj_", { h with one := Function.update h.one .varK ⟨2, fun _ => some 1⟩ }⟩, .one .varK, j1, i2.beta, ?_, ?_⟩
  · simp [asgRows, i2.two_r, j2.one]
  · simp [asgRows]

/-- The hypotheses of C60 and C61 are met by the objects these calls lead to. -/
example (n m : ℕ) (l : List (ℤ × StoreArgs)) (hl : ∀ x ∈ l, HpFits exSurr.dim exSurr.nBeta x.2.hp) :
    ∃ h g, (runStores l (initSurr n exSurr)).h = some h ∧ (runStores l (initSurr n exSurr)).save = true ∧
      Sized 2 1 n h ∧ (initSurr m exSurr).h = some g ∧ (initSurr m exSurr).save = true ∧ Sized 2 1 m g := by
  obtain ⟨h0, i1, i2, i3, -⟩ := init_sized n exSurr
  obtain ⟨g0, j1, j2, j3, -⟩ := init_sized m exSurr
  obtain ⟨h, hp, e1, e2, e3⟩ := runStores_ok l (o := initSurr n exSurr) i3 i1 i2 ⟨⟨_, rfl⟩, fun h => by cases h⟩ hl
  exact ⟨h, g0, by rw [e1], by rw [e1]; exact i3, e2, j1, j3, j2⟩

end Props
