import Verif.Model.PlotData
import Verif.Props.HpX0
import Verif.Props.Results

/-! Claim theorems for C109: the data that the scripts plot. -/

open Np GP

noncomputable section

namespace Props

theorem nanMin_fold (l : List Fl) (acc : Fl) : ∀ v, l.foldl nanMin2 acc = some v →
    (acc = some v ∨ some v ∈ l) ∧ (∀ x, some x ∈ l → v ≤ x) ∧ ∀ x, acc = some x → v ≤ x := by
  induction l generalizing acc with
  | nil => intro v h; exact ⟨.inl h, by simp, fun x hx => by rw [List.foldl_nil] at h; rw [h] at hx; cases hx; exact le_rfl⟩
  | cons a l ih =>
    intro v h
    rw [List.foldl_cons] at h
    obtain ⟨h1, h2, h3⟩ := ih _ v h
    cases acc with
    | none =>
      have e : nanMin2 none a = a := rfl
      rw [e] at h1 h3
      refine ⟨.inr ?_, ?_, by simp⟩
      · rcases h1 with h1 | h1
        · rw [h1]; exact List.mem_cons_self
        · exact List.mem_cons_of_mem _ h1
      · intro x hx
        rcases List.mem_cons.mp hx with hx | hx
        · exact h3 x hx.symm
        · exact h2 x hx
    | some w =>
      cases a with
      | none =>
        have e : nanMin2 (some w) none = some w := rfl
        rw [e] at h1 h3
        refine ⟨?_, ?_, h3⟩
        · rcases h1 with h1 | h1
          · exact .inl h1
          · exact .inr (List.mem_cons_of_mem _ h1)
        · intro x hx
          rcases List.mem_cons.mp hx with hx | hx
          · cases hx
          · exact h2 x hx
      | some b =>
        have e : nanMin2 (some w) (some b) = some (min w b) := rfl
        rw [e] at h1 h3
        have hm := h3 _ rfl
        refine ⟨?_, ?_, ?_⟩
        · rcases h1 with h1 | h1
          · rcases min_choice w b with e | e <;> rw [e] at h1
            · exact .inl h1
            · exact .inr (by rw [← h1]; exact List.mem_cons_self)
          · exact .inr (List.mem_cons_of_mem _ h1)
        · intro x hx
          rcases List.mem_cons.mp hx with hx | hx
          · cases hx; exact hm.trans (min_le_right _ _)
          · exact h2 x hx
        · intro x hx; cases hx; exact hm.trans (min_le_left _ _)

theorem nanMin_fold_none (l : List Fl) (acc : Fl) : l.foldl nanMin2 acc = none ↔ acc = none ∧ ∀ x ∈ l, x = none := by
  induction l generalizing acc with
  | nil => simp
  | cons a l ih =>
    rw [List.foldl_cons, ih]
    cases acc <;> cases a <;> simp [nanMin2]

theorem nanMax2_neg (a b : Fl) : nanMax2 a b = (nanMin2 (a.map (- ·)) (b.map (- ·))).map (- ·) := by
  cases a <;> cases b <;> simp [nanMax2, nanMin2, min_neg_neg]

theorem nanMin_spec (l : List Fl) (v : ℝ) : nanMinL l = some v ↔ IsLeast {x | some x ∈ l} v := by
  unfold nanMinL
  constructor
  · intro h
    obtain ⟨h1, h2, -⟩ := nanMin_fold l none v h
    exact ⟨by simpa using h1, fun x hx => h2 x hx⟩
  · intro h
    cases e : l.foldl nanMin2 none with
    | none =>
      have := (nanMin_fold_none l none).mp e
      have := this.2 _ h.1
      cases this
    | some w =>
      obtain ⟨h1, h2, -⟩ := nanMin_fold l none w e
      have hw : IsLeast {x | some x ∈ l} w := ⟨by simpa using h1, fun x hx => h2 x hx⟩
      rw [h.unique hw]

theorem nanMax_neg (l : List Fl) (acc : Fl) :
    l.foldl nanMax2 acc = ((l.map (Option.map (- ·))).foldl nanMin2 (acc.map (- ·))).map (- ·) := by
  induction l generalizing acc with
  | nil => cases acc <;> simp
  | cons a l ih =>
    rw [List.foldl_cons, List.map_cons, List.foldl_cons, ih]
    congr 2
    rw [nanMax2_neg]
    cases acc <;> cases a <;> simp [nanMin2]

theorem nanMax_spec (l : List Fl) (v : ℝ) : nanMaxL l = some v ↔ IsGreatest {x | some x ∈ l} v := by
  unfold nanMaxL
  rw [nanMax_neg]
  have e : ((l.map (Option.map (- ·))).foldl nanMin2 ((none : Fl).map (- ·))).map (- ·) = some v
      ↔ nanMinL (l.map (Option.map (- ·))) = some (-v) := by
    unfold nanMinL
    show Option.map _ (List.foldl nanMin2 none _) = _ ↔ _
    cases List.foldl nanMin2 none (l.map (Option.map (- ·))) with
    | none => simp
    | some w => simp only [Option.map_some, Option.some.injEq]; constructor <;> intro h <;> linarith
  have hm : ∀ x : ℝ, some x ∈ l.map (Option.map (- ·)) ↔ some (-x) ∈ l := by
    intro x
    rw [List.mem_map]
    constructor
    · rintro ⟨y, hy, e⟩
      cases y with
      | none => simp at e
      | some y => simp only [Option.map_some, Option.some.injEq] at e; rw [← e, neg_neg]; exact hy
    · intro h; exact ⟨_, h, by simp⟩
  rw [e, nanMin_spec]
  constructor
  · intro h
    refine ⟨by simpa using (hm _).mp h.1, fun x hx => ?_⟩
    have := h.2 (show (-x) ∈ {y | some y ∈ l.map (Option.map (- ·))} from (hm _).mpr (by simpa using hx))
    linarith
  · intro h
    refine ⟨(hm _).mpr (by simpa using h.1), fun x hx => ?_⟩
    have := h.2 (show (-x) ∈ {y | some y ∈ l} from (hm _).mp hx)
    linarith

theorem nanMin_none {l : List Fl} (h : nanMinL l = none) : ∀ x ∈ l, x = none := ((nanMin_fold_none l none).mp h).2

theorem nanMin_some {l : List Fl} {x : ℝ} (h : some x ∈ l) : ∃ v, nanMinL l = some v := by
  cases e : nanMinL l with
  | none => have := nanMin_none e _ h; cases this
  | some v => exact ⟨v, rfl⟩

theorem nanMax_some {l : List Fl} {x : ℝ} (h : some x ∈ l) : ∃ v, nanMaxL l = some v := by
  cases e : nanMaxL l with
  | none =>
    unfold nanMaxL at e
    rw [nanMax_neg] at e
    have := (nanMin_fold_none _ _).mp (Option.map_eq_none_iff.mp e)
    have := this.2 (some (-x)) (List.mem_map.mpr ⟨_, h, rfl⟩)
    cases this
  | some v => exact ⟨v, rfl⟩

theorem mem_entries {A : FMat} {v : Fl} : v ∈ A.entries ↔ ∃ i < A.r, ∃ j < A.c, A.get i j = v := by
  simp only [FMat.entries, List.mem_flatMap, List.mem_range, List.mem_map]

/-- The numbers in a table. -/
def numbersOf (A : FMat) : Set ℝ := {x | ∃ i < A.r, ∃ j < A.c, A.get i j = some x}

theorem numbersOf_eq (A : FMat) : {x : ℝ | some x ∈ A.entries} = numbersOf A := by
  ext x; exact mem_entries

/-- **C109.** `calc_scl_data` maps the smallest number of a table to 0, the largest one to 1 and the others in between, affinely; NaN
stays NaN. If all the numbers are equal, everything becomes NaN. -/
theorem C109_scaled_to_unit (A : FMat) (hr : 0 < A.r) (hc : 0 < A.c) :
    ∃ B, calcSclData A = .ok B ∧ B.r = A.r ∧ B.c = A.c ∧
      ∀ i < A.r, ∀ j < A.c,
        (A.get i j = none → B.get i j = none) ∧
        ∀ x, A.get i j = some x →
          ∃ lo hi, IsLeast (numbersOf A) lo ∧ IsGreatest (numbersOf A) hi ∧
            (lo = hi → B.get i j = none) ∧
            (lo ≠ hi → ∃ s, B.get i j = some s ∧ 0 ≤ s ∧ s ≤ 1 ∧ x = lo + s * (hi - lo)) := by
  unfold calcSclData
  rw [if_neg (by omega)]
  refine ⟨_, rfl, rfl, rfl, fun i hi j hj => ⟨fun h => ?_, fun x hx => ?_⟩⟩
  · show sclEntry (A.get i j) _ _ = none
    rw [h]; rfl
  · have hmem : some x ∈ A.entries := mem_entries.mpr ⟨i, hi, j, hj, hx⟩
    obtain ⟨lo, hlo⟩ := nanMin_some hmem
    obtain ⟨hi', hhi⟩ := nanMax_some hmem
    have l1 := (nanMin_spec _ _).mp hlo
    have l2 := (nanMax_spec _ _).mp hhi
    have b1 : lo ≤ x := l1.2 hmem
    have b2 : x ≤ hi' := l2.2 hmem
    rw [numbersOf_eq] at l1 l2
    refine ⟨lo, hi', l1, l2, fun h => ?_, fun h => ?_⟩
    · show sclEntry (A.get i j) _ _ = none
      rw [hx, hlo, hhi]
      exact if_pos (by linarith)
    · have hp : 0 < hi' - lo := by
        rcases lt_or_eq_of_le (b1.trans b2) with h' | h'
        · linarith
        · exact absurd h' h
      refine ⟨(x - lo) / (hi' - lo), ?_, by apply div_nonneg <;> linarith, by rw [div_le_one hp]; linarith, by field_simp; ring⟩
      show sclEntry (A.get i j) _ _ = _
      rw [hx, hlo, hhi]
      exact if_neg hp.ne'

/-- **C109.** The scaled acquisition values lie in `[0,1]`, the smallest is 0, their order is that of the values, and so the marked
minimum is a minimum of the acquisition function. -/
theorem C109_acquisition_scaled (v : FVec) (hn : 0 < v.n) (x : ℕ → ℝ) (hx : ∀ i < v.n, v.get i = some (x i)) :
    ∃ (w : FVec) (y : ℕ → ℝ), acqScl v = .ok w ∧ w.n = v.n ∧ (∀ i < v.n, w.get i = some (y i)) ∧
      (∀ i < v.n, 0 ≤ y i ∧ y i ≤ 1) ∧ (∃ i < v.n, y i = 0) ∧ ∀ i < v.n, ∀ j < v.n, (y i ≤ y j ↔ x i ≤ x j) := by
  set l := (List.range v.n).map v.get with hl
  have hm : ∀ i < v.n, some (x i) ∈ l := fun i hi => List.mem_map.mpr ⟨i, List.mem_range.mpr hi, hx i hi⟩
  obtain ⟨lo, hlo⟩ := nanMin_some (hm 0 hn)
  obtain ⟨hi', hhi⟩ := nanMax_some (hm 0 hn)
  have l1 := (nanMin_spec _ _).mp hlo
  have l2 := (nanMax_spec _ _).mp hhi
  have hany : l.any Option.isNone = false := by
    rw [List.any_eq_false]
    intro a ha
    obtain ⟨i, hi, rfl⟩ := List.mem_map.mp ha
    rw [hx i (List.mem_range.mp hi)]; simp
  have hp : 0 < max 1e-8 (hi' - lo) := lt_max_of_lt_left (by norm_num)
  unfold acqScl
  rw [if_neg (by omega)]
  simp only [← hl, hany]
  refine ⟨_, fun i => (x i - lo) / max 1e-8 (hi' - lo), rfl, rfl, fun i hi => ?_, fun i hi => ⟨?_, ?_⟩, ?_, fun i hi j hj => ?_⟩
  · simp only [hx i hi, hlo, hhi]
  · have := l1.2 (hm i hi)
    exact div_nonneg (by linarith) hp.le
  · rw [div_le_one hp]
    have := l2.2 (hm i hi)
    exact le_max_of_le_right (by linarith)
  · obtain ⟨i, hi, e⟩ := List.mem_map.mp l1.1
    have hi := List.mem_range.mp hi
    rw [hx i hi] at e
    exact ⟨i, hi, by show (x i - lo) / _ = 0; rw [Option.some.inj e]; simp⟩
  · rw [div_le_div_iff_of_pos_right hp]
    constructor <;> intro h <;> linarith

theorem gridLkd_ok {n : ℕ} {theta : ℕ → ℝ} {ev : ℝ → ℝ → Py Fl} {f : ℝ → ℝ → Fl}
    (hev : ∀ i < n, ∀ j < n, ev (theta i) (theta j) = .ok (f (theta i) (theta j))) :
    ∃ A, gridLkd n theta ev = .ok A ∧ A.r = n ∧ A.c = n ∧ ∀ i < n, ∀ j < n, A.get i j = f (theta i) (theta j) := by
  unfold gridLkd
  obtain ⟨A, h, hr, hc, hv⟩ := forRange_inv
    (P := fun m (A : FMat) => A.r = n ∧ A.c = n ∧ ∀ i < m, ∀ j < n, A.get i j = f (theta i) (theta j))
    (lo := 0) (hi := n) (Nat.zero_le _) (init := ⟨n, n, fun _ _ => none⟩)
    (body := fun i A => forRange 0 n A fun j A => do
      let v ← ev (theta i) (theta j)
      pure ⟨A.r, A.c, fun p q => if p = i ∧ q = j then v else A.get p q⟩)
    ⟨rfl, rfl, fun i hi => absurd hi (Nat.not_lt_zero _)⟩ (by
      rintro i A - hi ⟨hr, hc, hv⟩
      obtain ⟨B, h, h1, h2, h3, h4⟩ := forRange_inv
        (P := fun m (B : FMat) => B.r = n ∧ B.c = n ∧ (∀ p < i, ∀ j < n, B.get p j = f (theta p) (theta j)) ∧
          ∀ j < m, B.get i j = f (theta i) (theta j))
        (lo := 0) (hi := n) (Nat.zero_le _) (init := A)
        (body := fun j A => do
          let v ← ev (theta i) (theta j)
          pure ⟨A.r, A.c, fun p q => if p = i ∧ q = j then v else A.get p q⟩)
        ⟨hr, hc, hv, fun j hj => absurd hj (Nat.not_lt_zero _)⟩ (by
          rintro j B - hj ⟨h1, h2, h3, h4⟩
          rw [hev i hi j hj]
          refine ⟨_, rfl, h1, h2, fun p hp q hq => ?_, fun q hq => ?_⟩
          · show (if p = i ∧ q = j then _ else B.get p q) = _
            rw [if_neg (by omega)]; exact h3 p hp q hq
          · show (if i = i ∧ q = j then _ else B.get i q) = _
            by_cases e : q = j
            · subst e; rw [if_pos ⟨rfl, rfl⟩]
            · rw [if_neg (by omega)]; exact h4 q (by omega))
      refine ⟨B, h, h1, h2, fun p hp j hj => ?_⟩
      by_cases e : p = i
      · subst e; exact h4 j hj
      · exact h3 p (by omega) j hj)
  exact ⟨A, h, hr, hc, hv⟩

/-- **C109.** The marker of the largest likelihood: there is none exactly if the likelihood is NaN on the whole grid; otherwise it is the
place `(gamma j, gamma i)` of a pair of length scales `(theta i, theta j)` whose likelihood is at least that of any other pair of the
grid. -/
theorem C109_grid_maximum {n : ℕ} {theta gamma : ℕ → ℝ} {ev : ℝ → ℝ → Py Fl} {f : ℝ → ℝ → Fl}
    (hev : ∀ i < n, ∀ j < n, ev (theta i) (theta j) = .ok (f (theta i) (theta j))) :
    ∃ A r, gridLkd n theta ev = .ok A ∧ gridMax n gamma A = .ok r ∧
      (r = none ↔ ∀ i < n, ∀ j < n, f (theta i) (theta j) = none) ∧
      ∀ m, r = some m → ∃ i < n, ∃ j < n, m = (gamma j, gamma i) ∧ ∃ v, f (theta i) (theta j) = some v ∧
        ∀ i' < n, ∀ j' < n, ∀ w, f (theta i') (theta j') = some w → w ≤ v := by
  obtain ⟨A, hA, hr, hc, hv⟩ := gridLkd_ok hev
  have hlen : A.entries.length = n ^ 2 := by
    simp [FMat.entries, hr, hc, List.length_flatMap, sq]
  have hall : (A.entries.filter Option.isNone).length = n ^ 2 ↔ ∀ i < n, ∀ j < n, f (theta i) (theta j) = none := by
    rw [← hlen, List.length_filter_eq_length_iff]
    constructor
    · intro h i hi j hj
      have := h (A.get i j) (mem_entries.mpr ⟨i, hr ▸ hi, j, hc ▸ hj, rfl⟩)
      rw [hv i hi j hj] at this
      simpa using this
    · intro h a ha
      obtain ⟨i, hi, j, hj, rfl⟩ := mem_entries.mp ha
      rw [hv i (hr ▸ hi) j (hc ▸ hj), h i (hr ▸ hi) j (hc ▸ hj)]; rfl
  refine ⟨A, ?_⟩
  unfold gridMax
  by_cases hn : ∀ i < n, ∀ j < n, f (theta i) (theta j) = none
  · rw [if_pos (hall.mpr hn)]
    exact ⟨none, hA, rfl, ⟨fun _ => hn, fun _ => rfl⟩, fun m h => by cases h⟩
  · rw [if_neg (fun h => hn (hall.mp h))]
    push Not at hn
    obtain ⟨i0, hi0, j0, hj0, h0⟩ := hn
    obtain ⟨v0, h0⟩ := Option.ne_none_iff_exists'.mp h0
    rw [hr, hc]
    set rowsMax := (List.range n).map fun i => nanMaxL ((List.range n).map (A.get i)) with hrm
    have hrow : ∀ i < n, ∀ j < n, ∀ w, f (theta i) (theta j) = some w →
        some w ∈ (List.range n).map (A.get i) := fun i hi j hj w hw =>
      List.mem_map.mpr ⟨j, List.mem_range.mpr hj, by rw [hv i hi j hj, hw]⟩
    have hget : ∀ i < n, rowsMax[i]? = some (nanMaxL ((List.range n).map (A.get i))) := fun i hi => by
      rw [hrm, List.getElem?_map, List.getElem?_range hi]; rfl
    have hex : ∃ i, nanArgmax rowsMax = .ok i := by
      cases h : nanArgmax rowsMax with
      | ok i => exact ⟨i, rfl⟩
      | error e =>
        obtain ⟨w, hw⟩ := nanMax_some (hrow i0 hi0 j0 hj0 v0 h0)
        have := nanArgmax_error.mp ⟨e, h⟩ _ (List.mem_of_getElem? (hget i0 hi0))
        rw [hw] at this; cases this
    obtain ⟨i, hi⟩ := hex
    obtain ⟨v, h1, h2, -⟩ := nanArgmax_ok hi
    have hin : i < n := by
      have := (List.getElem?_eq_some_iff.mp h1).1
      simpa [hrm] using this
    rw [hget i hin] at h1
    have hgr := (nanMax_spec _ _).mp (Option.some.inj h1)
    have hex2 : ∃ j, nanArgmax ((List.range n).map (A.get i)) = .ok j := by
      cases h : nanArgmax ((List.range n).map (A.get i)) with
      | ok j => exact ⟨j, rfl⟩
      | error e =>
        have := nanArgmax_error.mp ⟨e, h⟩ _ hgr.1
        cases this
    obtain ⟨j, hj⟩ := hex2
    obtain ⟨w, g1, g2, -⟩ := nanArgmax_ok hj
    have hjn : j < n := by
      have := (List.getElem?_eq_some_iff.mp g1).1
      simpa using this
    have hw : A.get i j = some w := by
      rw [List.getElem?_map, List.getElem?_range hjn] at g1
      exact Option.some.inj g1
    rw [hi]
    simp only [ok_bind]
    rw [hj]
    refine ⟨_, hA, rfl, ⟨(fun h => by cases h), fun h => ?_⟩, fun m hm => ?_⟩
    · rw [h i0 hi0 j0 hj0] at h0; cases h0
    · cases hm
      refine ⟨i, hin, j, hjn, rfl, w, by rw [← hv i hin j hjn, hw], fun i' hi' j' hj' u hu => ?_⟩
      -- the row maximum of i is v, and w is it
      have hvw : v ≤ w := by
        obtain ⟨k, hk, ek⟩ := List.mem_map.mp hgr.1
        exact g2 k v (by rw [List.getElem?_map, List.getElem?_range (List.mem_range.mp hk)]; exact congrArg some ek)
      obtain ⟨z, hz⟩ := nanMax_some (hrow i' hi' j' hj' u hu)
      have q1 := ((nanMax_spec _ _).mp hz).2 (hrow i' hi' j' hj' u hu)
      have q2 := h2 i' z (by rw [hget i' hi', hz])
      exact q1.trans (q2.trans hvw)

/-- **C109, discrepancy.** The marker shows the second length scale on the first axis (labelled as that of the first one): if the best pair
`(theta 0, theta 1)` is the only one with a likelihood, the marker is at `(gamma 1, gamma 0)`. -/
theorem C109_axes_swapped (gamma : ℕ → ℝ) : ∃ A, gridLkd 2 (fun i => i) (fun s t => .ok (if s = 0 ∧ t = 1 then some 3 else none)) = .ok A ∧
    gridMax 2 gamma A = .ok (some (gamma 1, gamma 0)) := by
  obtain ⟨A, r, h1, h2, h3, h4⟩ := C109_grid_maximum (n := 2) (theta := fun i => (i : ℝ)) (gamma := gamma)
    (ev := fun s t => .ok (if s = 0 ∧ t = 1 then some 3 else none)) (f := fun s t => if s = 0 ∧ t = 1 then some 3 else none)
    (fun _ _ _ _ => rfl)
  refine ⟨A, h1, ?_⟩
  rw [h2]
  cases r with
  | none => exact absurd (h3.mp rfl 0 (by decide) 1 (by decide)) (by simp)
  | some m =>
    obtain ⟨i, hi, j, hj, rfl, v, hv, -⟩ := h4 m rfl
    simp only [Nat.cast_eq_zero, Nat.cast_eq_one] at hv
    split_ifs at hv with h
    rw [h.1, h.2]

/-- A table with a gap. -/
def exTable : FMat := ⟨2, 2, fun i j => if i = 0 ∧ j = 0 then none else some (i + 2 * j)⟩
example := C109_scaled_to_unit exTable (by decide) (by decide)
-- a table with numbers that are not all equal
example : (1 : ℝ) ∈ numbersOf exTable ∧ (3 : ℝ) ∈ numbersOf exTable :=
  ⟨⟨1, by decide, 0, by decide, by simp [exTable]⟩, ⟨1, by decide, 1, by decide, by simp [exTable]; norm_num⟩⟩
example := C109_acquisition_scaled ⟨3, fun i => some ((i : ℝ) ^ 2 - i)⟩ (by decide) _ (fun _ _ => rfl)
example := C109_grid_maximum (n := 3) (theta := fun i => i) (gamma := fun i => 2 * i) (ev := fun s t => .ok (some (s - t)))
  (f := fun s t => some (s - t))  (fun _ _ _ _ => rfl)

end Props
