import Verif.Spec.InfoSpec
import Verif.Props.Hist
import Verif.Props.HpX0

/-! Property C98: the text tables of the history. -/

open Np GP Spec

noncomputable section

namespace Props

/-! ### Least, greatest, middle -/

theorem rowMin_least : ∀ {l : List Fl}, l ≠ [] → IsLeast l (rowMin l) := by
  have key : ∀ (l : List Fl) (x : Fl), IsLeast (x :: l) (l.foldl fmin x) := by
    intro l
    induction l with
    | nil =>
      intro x
      cases x with
      | none => exact .inl ⟨by simp, rfl⟩
      | some m => exact .inr ⟨m, rfl, by simp, by simp⟩
    | cons y l ih =>
      intro x
      rw [List.foldl_cons]
      rcases ih (fmin x y) with ⟨h1, h2⟩ | ⟨m, h1, h2, h3⟩
      · left
        refine ⟨?_, h2⟩
        rcases List.mem_cons.mp h1 with h | h
        · cases x with
          | none => simp
          | some a => cases y with
            | none => simp
            | some b => cases h
        · simp [h]
      · right
        refine ⟨m, h1, ?_, ?_⟩
        · rw [h1] at h2 ⊢
          rcases List.mem_cons.mp h2 with h | h
          · cases x with
            | none => cases h
            | some a => cases y with
              | none => cases h
              | some b =>
                have hm : m = min a b := by simpa [fmin] using h
                rcases min_choice a b with e | e <;> rw [e] at hm <;> simp [hm]
          · simp [h]
        · obtain ⟨z, hz, hmz⟩ := h3 _ (List.mem_cons_self)
          cases x with
          | none => cases hz
          | some a => cases y with
            | none => cases hz
            | some b =>
              have hz' : z = min a b := by simpa [fmin, eq_comm] using hz
              subst hz'
              intro w hw
              rcases List.mem_cons.mp hw with rfl | hw
              · exact ⟨a, rfl, hmz.trans (min_le_left _ _)⟩
              rcases List.mem_cons.mp hw with rfl | hw
              · exact ⟨b, rfl, hmz.trans (min_le_right _ _)⟩
              · exact h3 w (List.mem_cons_of_mem _ hw)
  intro l hl
  cases l with
  | nil => exact absurd rfl hl
  | cons x l => exact key l x

theorem rowMax_greatest : ∀ {l : List Fl}, l ≠ [] → IsGreatest l (rowMax l) := by
  have key : ∀ (l : List Fl) (x : Fl), IsGreatest (x :: l) (l.foldl fmax x) := by
    intro l
    induction l with
    | nil =>
      intro x
      cases x with
      | none => exact .inl ⟨by simp, rfl⟩
      | some m => exact .inr ⟨m, rfl, by simp, by simp⟩
    | cons y l ih =>
      intro x
      rw [List.foldl_cons]
      rcases ih (fmax x y) with ⟨h1, h2⟩ | ⟨m, h1, h2, h3⟩
      · left
        refine ⟨?_, h2⟩
        rcases List.mem_cons.mp h1 with h | h
        · cases x with
          | none => simp
          | some a => cases y with
            | none => simp
            | some b => cases h
        · simp [h]
      · right
        refine ⟨m, h1, ?_, ?_⟩
        · rw [h1] at h2 ⊢
          rcases List.mem_cons.mp h2 with h | h
          · cases x with
            | none => cases h
            | some a => cases y with
              | none => cases h
              | some b =>
                have hm : m = max a b := by simpa [fmax] using h
                rcases max_choice a b with e | e <;> rw [e] at hm <;> simp [hm]
          · simp [h]
        · obtain ⟨z, hz, hmz⟩ := h3 _ (List.mem_cons_self)
          cases x with
          | none => cases hz
          | some a => cases y with
            | none => cases hz
            | some b =>
              have hz' : z = max a b := by simpa [fmax, eq_comm] using hz
              subst hz'
              intro w hw
              rcases List.mem_cons.mp hw with rfl | hw
              · exact ⟨a, rfl, (le_max_left _ _).trans hmz⟩
              rcases List.mem_cons.mp hw with rfl | hw
              · exact ⟨b, rfl, (le_max_right _ _).trans hmz⟩
              · exact h3 w (List.mem_cons_of_mem _ hw)
  intro l hl
  cases l with
  | nil => exact absurd rfl hl
  | cons x l => exact key l x

theorem countP_take_le {α : Type} (p : α → Bool) (s : List α) (k : ℕ) (hk : k ≤ s.length) (h : ∀ i (hi : i < s.length), i < k → p s[i] = true) :
    k ≤ s.countP p := by
  have h1 : (s.take k).countP p = k := by
    rw [List.countP_eq_length.mpr, List.length_take, min_eq_left hk]
    intro a ha
    obtain ⟨i, hi, rfl⟩ := List.getElem_of_mem ha
    rw [List.length_take] at hi
    rw [List.getElem_take]
    exact h i (by omega) (by omega)
  rw [← h1]
  exact (List.take_sublist k s).countP_le

theorem countP_drop_le {α : Type} (p : α → Bool) (s : List α) (k : ℕ) (h : ∀ i (hi : i < s.length), k ≤ i → p s[i] = true) :
    s.length - k ≤ s.countP p := by
  have h1 : (s.drop k).countP p = s.length - k := by
    rw [List.countP_eq_length.mpr, List.length_drop]
    intro a ha
    obtain ⟨i, hi, rfl⟩ := List.getElem_of_mem ha
    rw [List.length_drop] at hi
    rw [List.getElem_drop]
    exact h _ (by omega) (by omega)
  rw [← h1]
  exact (List.drop_sublist k s).countP_le

open Classical in
theorem median_middle {l : List Fl} (hl : l ≠ []) : IsMiddle l (median l) := by
  by_cases hn : none ∈ l
  · exact .inl ⟨hn, median_none (.inr hn)⟩
  right
  have hmap : l = (l.filterMap id).map some := by
    clear hl
    induction l with
    | nil => rfl
    | cons x l ih =>
      cases x with
      | none => simp at hn
      | some a =>
        have e : (some a :: l).filterMap id = a :: l.filterMap id := rfl
        rw [e, List.map_cons, ← ih (fun h => hn (List.mem_cons_of_mem _ h))]
  set r := l.filterMap id with hr
  set s := r.mergeSort fun a b => decide (a ≤ b) with hs
  have hperm : s.Perm r := List.mergeSort_perm _ _
  have hlen : s.length = l.length := by rw [hperm.length_eq]; conv_rhs => rw [hmap, List.length_map]
  have hpos : 0 < s.length := by rw [hlen]; exact List.length_pos_iff.mpr hl
  have hsort : s.Pairwise (· ≤ ·) := by
    have := List.pairwise_mergeSort (le := fun a b : ℝ => decide (a ≤ b))
      (by intro a b c h1 h2; simp only [decide_eq_true_eq] at *; exact h1.trans h2)
      (by intro a b; simp only [Bool.or_eq_true, decide_eq_true_eq]; exact le_total a b) r
    exact this.imp (fun h => by simpa using h)
  have mono : ∀ i j (hi : i < s.length) (hj : j < s.length), i ≤ j → s[i] ≤ s[j] := by
    intro i j hi hj hij
    rcases Nat.lt_or_eq_of_le hij with h | rfl
    · exact List.pairwise_iff_getElem.mp hsort i j hi hj h
    · exact le_rfl
  have cnt : ∀ p : ℝ → Prop, l.countP (fun y => decide (∃ z, y = some z ∧ p z)) = s.countP (fun z => decide (p z)) := by
    intro p
    rw [hperm.countP_eq]
    conv_lhs => rw [hmap]
    rw [List.countP_map]
    congr 1
    funext z
    simp
  -- any value between the two middle entries
  have fin : ∀ m : ℝ, s[(s.length - 1) / 2]'(by omega) ≤ m → m ≤ s[s.length / 2]'(by omega) → 
      l.length ≤ 2 * l.countP (fun y => decide (∃ z, y = some z ∧ z ≤ m)) ∧
      l.length ≤ 2 * l.countP (fun y => decide (∃ z, y = some z ∧ m ≤ z)) := by
    intro m h1 h2
    rw [cnt (· ≤ m), cnt (m ≤ ·), ← hlen]
    constructor
    · have := countP_take_le (fun z => decide (z ≤ m)) s ((s.length - 1) / 2 + 1) (by omega) (fun i hi hk => by
        simp only [decide_eq_true_eq]
        exact (mono i _ hi (by omega) (by omega)).trans h1)
      omega
    · have := countP_drop_le (fun z => decide (m ≤ z)) s (s.length / 2) (fun i hi hk => by
        simp only [decide_eq_true_eq]
        exact h2.trans (mono _ i (by omega) hi (by omega)))
      omega
  have hne : ¬ (l = [] ∨ none ∈ l) := by rintro (h | h); exacts [hl h, hn h]
  unfold median
  rw [if_neg hne]
  simp only [← hr, ← hs]
  split_ifs with hodd
  · refine ⟨_, rfl, hn, fin _ ?_ ?_⟩ <;> rw [List.getD_eq_getElem _ _ (by omega)]
    · exact mono _ _ _ _ (by omega)
  · refine ⟨_, rfl, hn, fin _ ?_ ?_⟩ <;> rw [List.getD_eq_getElem _ _ (by omega), List.getD_eq_getElem _ _ (by omega)]
    · have := mono (s.length / 2 - 1) (s.length / 2) (by omega) (by omega) (by omega)
      have h2 := mono ((s.length - 1) / 2) (s.length / 2 - 1) (by omega) (by omega) (by omega)
      linarith
    · have := mono (s.length / 2 - 1) (s.length / 2) (by omega) (by omega) (by omega)
      linarith

/-! ### Filling the table column by column -/

/-- The first columns of the table are these. -/
structure Cells (t : Table) (n total : ℕ) (cs : List Column) : Prop where
  rows : t.rows = n
  cols : t.cols = total
  cell : ∀ i < n, ∀ (c : ℕ) (hc : c < cs.length), t.cell i c = cs[c].2 i

theorem setCol_cells {t : Table} {n total j : ℕ} {cs : List Column} (h : Cells t n total cs) (hj : j = cs.length)
    (hlt : j < total) {v : FVec} (hv : v.n = n ∨ v.n = 1) (s : String) (f : ℕ → Fl)
    (hf : ∀ i < n, v.get (bidx v.n n i) = f i) :
    ∃ t', t.setCol j v = .ok t' ∧ t'.headers = t.headers ∧ Cells t' n total (cs ++ [(s, f)]) := by
  unfold Table.setCol
  rw [h.cols, h.rows, if_pos hlt, if_pos hv]
  refine ⟨_, rfl, rfl, rfl, rfl, ?_⟩
  intro i hi c hc
  simp only
  rw [List.length_append, List.length_singleton] at hc
  by_cases e : c = j
  · subst e
    subst hj
    rw [if_pos rfl, List.getElem_append_right (le_refl _)]
    simpa using hf i hi
  · have : c < cs.length := by omega
    rw [if_neg e, List.getElem_append_left this]
    exact h.cell i hi c this

theorem bidx_same (n i : ℕ) (hi : i < n) : bidx n n i = i := by
  unfold bidx
  split_ifs with h <;> omega

theorem setCol_vec {t : Table} {n total j : ℕ} {cs : List Column} (h : Cells t n total cs) (hj : j = cs.length)
    (hlt : j < total) {v : FVec} (hv : v.n = n) (s : String) :
    ∃ t', t.setCol j v = .ok t' ∧ t'.headers = t.headers ∧ Cells t' n total (cs ++ [(s, v.get)]) :=
  setCol_cells h hj hlt (.inl hv) s v.get (fun i hi => by rw [hv, bidx_same n i hi])

/-- Headers of the first columns are set, the others are still empty. -/
def Heads (t : Table) (total : ℕ) (cs : List Column) : Prop :=
  t.headers = cs.map Prod.fst ++ List.replicate (total - cs.length) ""

theorem addHeader_heads {t : Table} {n total j : ℕ} {cs : List Column} (h : Heads t total cs) (hj : j = cs.length)
    (hlt : j < total) (s : String) (f : ℕ → Fl) (hc : Cells t n total (cs ++ [(s, f)])) :
    ∃ t', t.addHeader j s = .ok t' ∧ Heads t' total (cs ++ [(s, f)]) ∧ Cells t' n total (cs ++ [(s, f)]) := by
  unfold Table.addHeader
  have hl : t.headers.length = total := by
    rw [h, List.length_append, List.length_map, List.length_replicate]; omega
  rw [if_pos (by omega)]
  refine ⟨_, rfl, ?_, hc.rows, hc.cols, hc.cell⟩
  unfold Heads
  simp only
  subst hj
  obtain ⟨m, hm⟩ : ∃ m, total - cs.length = m + 1 := ⟨total - cs.length - 1, by omega⟩
  have e1 : total - (cs ++ [(s, f)]).length = m := by simp; omega
  rw [h, e1, hm, List.replicate_succ]
  have e2 : (cs.map Prod.fst ++ "" :: List.replicate m "").getD cs.length "" = "" := by
    rw [List.getD_append_right _ _ _ _ (by simp)]
    simp
  rw [e2, List.set_append_right _ _ (by simp)]
  simp

/-- Add one column with its header. -/
theorem column_ok {t : Table} {n total j : ℕ} {cs : List Column} (h : Cells t n total cs) (h' : Heads t total cs)
    (hj : j = cs.length) (hlt : j < total) {v : FVec} (hv : v.n = n) (s : String) :
    ∃ t1 t2, t.setCol j v = .ok t1 ∧ t1.addHeader j s = .ok t2 ∧ Heads t2 total (cs ++ [(s, v.get)]) ∧
      Cells t2 n total (cs ++ [(s, v.get)]) := by
  obtain ⟨t1, a1, a2, a3⟩ := setCol_vec h hj hlt hv s
  have : Heads t1 total cs := by unfold Heads; rw [a2]; exact h'
  obtain ⟨t2, b1, b2, b3⟩ := addHeader_heads this hj hlt s _ a3
  exact ⟨t1, t2, a1, b1, b2, b3⟩

theorem shows_of {t : Table} {n : ℕ} {cs : List Column} (h : Cells t n cs.length cs) (h' : Heads t cs.length cs) : Shows t cs := by
  refine ⟨?_, h.cols, ?_⟩
  · rw [h', Nat.sub_self]; simp
  · intro i hi; exact h.cell i (h.rows ▸ hi)

theorem heads_congr {t t' : Table} {total : ℕ} {cs : List Column} (h : Heads t total cs) (e : t'.headers = t.headers) :
    Heads t' total cs := by unfold Heads; rw [e]; exact h

/-- The first five columns. -/
theorem first_five (n total nBeta : ℕ) (h : Surr) (dim : ℕ) (hs : Sized dim nBeta n h) (ht : 5 ≤ total) :
    ∃ t1 t2 t3 t4 t5 : Table,
      (⟨n, total, fun _ _ => some 0, List.replicate total ""⟩ : Table).setCol 0 ⟨n, fun i => some (i : ℝ)⟩ = .ok t1 ∧
      t1.setCol 1 (h.one .kernel) = .ok t2 ∧
      (if 1 ≤ nBeta then
        (if 0 < (h.two .beta).c then t2.setCol 2 ⟨(h.two .beta).r, fun i => (h.two .beta).get i 0⟩ else .error .index)
        else t2.setCol 2 ⟨1, fun _ => none⟩) = .ok t3 ∧
      t3.setCol 3 (h.one .varK) = .ok t4 ∧ t4.setCol 4 (h.one .varKVarF) = .ok t5 ∧
      Cells { t5 with headers := [" ", "Kernel", "Mu", "varK", "varK / var_f"] ++ t5.headers.drop 5 } n total
        (summaryHead nBeta false false h) ∧
      Heads { t5 with headers := [" ", "Kernel", "Mu", "varK", "varK / var_f"] ++ t5.headers.drop 5 } total
        (summaryHead nBeta false false h) := by
  have c0 : Cells ⟨n, total, fun _ _ => some 0, List.replicate total ""⟩ n total [] :=
    ⟨rfl, rfl, fun i _ c hc => absurd hc (Nat.not_lt_zero _)⟩
  obtain ⟨t1, a1, b1, c1⟩ := setCol_vec (v := ⟨n, fun i => some (i : ℝ)⟩) c0 (j := 0) rfl (by omega) rfl " "
  obtain ⟨t2, a2, b2, c2⟩ := setCol_vec c1 (j := 1) rfl (by omega) (hs.one .kernel) "Kernel"
  have h3 : ∃ t3, (if 1 ≤ nBeta then
        (if 0 < (h.two .beta).c then t2.setCol 2 ⟨(h.two .beta).r, fun i => (h.two .beta).get i 0⟩ else .error .index)
        else t2.setCol 2 ⟨1, fun _ => none⟩) = .ok t3 ∧ t3.headers = t2.headers ∧
      Cells t3 n total ((([] ++ [(" ", fun (i : ℕ) => some (i : ℝ))]) ++ [("Kernel", (h.one .kernel).get)]) ++
        [("Mu", fun i => if nBeta = 0 then none else (h.two .beta).get i 0)]) := by
    by_cases hb : 1 ≤ nBeta
    · rw [if_pos hb, if_pos (by rw [hs.beta]; omega)]
      obtain ⟨t3, a3, b3, c3⟩ := setCol_vec c2 (j := 2) rfl (by omega)
        (v := ⟨(h.two .beta).r, fun i => (h.two .beta).get i 0⟩) (hs.two_r .beta) "Mu"
      refine ⟨t3, a3, b3, ?_⟩
      have e : (fun i => if nBeta = 0 then none else (h.two .beta).get i 0) = fun i => (h.two .beta).get i 0 := by
        funext i; rw [if_neg (by omega)]
      rw [e]; exact c3
    · rw [if_neg hb]
      exact setCol_cells (v := ⟨1, fun _ => none⟩) c2 (j := 2) rfl (by omega) (.inr rfl) "Mu"
        (fun i => if nBeta = 0 then none else (h.two .beta).get i 0) (fun i _ => by rw [if_pos (by omega)])
  obtain ⟨t3, a3, b3, c3⟩ := h3
  obtain ⟨t4, a4, b4, c4⟩ := setCol_vec c3 (j := 3) rfl (by omega) (hs.one .varK) "varK"
  obtain ⟨t5, a5, b5, c5⟩ := setCol_vec c4 (j := 4) rfl (by omega) (hs.one .varKVarF) "varK / var_f"
  refine ⟨t1, t2, t3, t4, t5, a1, a2, a3, a4, a5, ⟨c5.rows, c5.cols, c5.cell⟩, ?_⟩
  unfold Heads
  simp only [b5, b4, b3, b2, b1, List.drop_replicate]
  rfl

/-- Add a column if the flag is set. -/
theorem flag_col {t : Table} {n total j : ℕ} {cs : List Column} (b : Bool) (h : Cells t n total cs) (h' : Heads t total cs)
    (hj : j = cs.length) (hlt : j + b.toNat ≤ total) {v : FVec} (hv : v.n = n) (s : String) :
    ∃ t', (if b then do
      let t ← t.setCol j v
      let t ← t.addHeader j s
      pure (t, j + 1)
    else pure (t, j) : Py (Table × ℕ)) = .ok (t', (cs ++ if b then [(s, v.get)] else []).length) ∧
      Heads t' total (cs ++ if b then [(s, v.get)] else []) ∧ Cells t' n total (cs ++ if b then [(s, v.get)] else []) := by
  cases b with
  | false => exact ⟨t, by simp [hj], by simpa using h', by simpa using h⟩
  | true =>
    obtain ⟨t1, t2, a1, a2, a3, a4⟩ := column_ok h h' hj (by simpa using hlt) hv s
    refine ⟨t2, ?_, by simpa using a3, by simpa using a4⟩
    simp only [if_pos, a1, ok_bind, a2]
    simp [hj]

/-- The theta columns for few dimensions. -/
theorem theta_cols {t : Table} {n dim nBeta : ℕ} {h : Surr} {cs : List Column} (hs : Sized dim nBeta n h)
    (hc : Cells t n (cs.length + dim) cs) (hh : Heads t (cs.length + dim) cs) :
    ∃ t', forRange 0 dim t (fun i t => do
      if i < (h.two .theta).c then
        let t ← t.setCol (cs.length + i) ⟨(h.two .theta).r, fun k => (h.two .theta).get k i⟩
        t.addHeader (cs.length + i) ("theta " ++ toString i)
      else .error .index) = .ok t' ∧ Cells t' n (cs.length + dim) (cs ++ thetaCols "theta " dim h) ∧
      Heads t' (cs.length + dim) (cs ++ thetaCols "theta " dim h) := by
  refine forRange_inv (fun k t => Cells t n (cs.length + dim) (cs ++ thetaCols "theta " k h) ∧
      Heads t (cs.length + dim) (cs ++ thetaCols "theta " k h)) (Nat.zero_le _) ?_ ?_
  · simpa [thetaCols] using ⟨hc, hh⟩
  · rintro k t - hk ⟨h1, h2⟩
    have hlen : (cs ++ thetaCols "theta " k h).length = cs.length + k := by simp [thetaCols]
    obtain ⟨t1, t2, a1, a2, a3, a4⟩ := column_ok (v := ⟨(h.two .theta).r, fun i => (h.two .theta).get i k⟩) h1 h2
      (j := cs.length + k) hlen.symm (by omega) (hs.two_r .theta) ("theta " ++ toString k)
    have e : thetaCols "theta " (k + 1) h = thetaCols "theta " k h ++ [("theta " ++ toString k, fun i => (h.two .theta).get i k)] := by
      simp [thetaCols, List.range_succ]
    refine ⟨t2, ?_, ?_, ?_⟩
    · rw [if_pos (by rw [hs.theta]; exact hk), a1]; exact a2
    · rw [e, ← List.append_assoc]; exact a4
    · rw [e, ← List.append_assoc]; exact a3

theorem summaryHead_len (nBeta : ℕ) (bf bg : Bool) (h : Surr) :
    (summaryHead nBeta bf bg h).length = 5 + bf.toNat + bg.toNat := by
  cases bf <;> cases bg <;> rfl

theorem summaryHead_split (nBeta : ℕ) (bf bg : Bool) (h : Surr) : summaryHead nBeta bf bg h =
    (summaryHead nBeta false false h ++ if bf then [("hp var fun", (h.one .varFval).get)] else []) ++
      if bg then [("hp var grad", (h.one .varFgrad).get)] else [] := by
  cases bf <;> cases bg <;> rfl

theorem rowOf_theta {dim nBeta n : ℕ} {h : Surr} (hs : Sized dim nBeta n h) (i : ℕ) :
    rowEntries (h.two .theta) i = thetaRow dim h i := by
  unfold rowEntries thetaRow; rw [hs.theta]

/-- **C98.** The summary table has a row for every entry of the history and shows, under the headers, the index, the kernel
parameter, the first coefficient of the mean function, the variance, its ratio to that of the values, the noise variances that
are optimised, and the length scales: each of them up to three dimensions, and beyond that their least, greatest and middle
values. -/
theorem C98_summary {dim nBeta n : ℕ} {bf bg : Bool} {h : Surr} (hs : Sized dim nBeta n h) :
    ∃ t, infoSummary ⟨dim, nBeta, some h, some bf, some bg⟩ = .ok t ∧ t.rows = n ∧
      (dim ≤ 3 → Shows t (summaryHead nBeta bf bg h ++ thetaCols "theta " dim h)) ∧
      (3 < dim → ∃ lo hi mid : ℕ → Fl,
        Shows t (summaryHead nBeta bf bg h ++ [("theta min", lo), ("theta max", hi), ("theta median", mid)]) ∧
        ∀ i < n, IsLeast (thetaRow dim h i) (lo i) ∧ IsGreatest (thetaRow dim h i) (hi i) ∧
          IsMiddle (thetaRow dim h i) (mid i)) := by
  set total := 5 + bf.toNat + bg.toNat + min 3 dim with htot
  obtain ⟨t1, t2, t3, t4, t5, a1, a2, a3, a4, a5, c5, d5⟩ := first_five n total nBeta h dim hs (by omega)
  obtain ⟨t6, a6, d6, c6⟩ := flag_col (j := 5) bf c5 d5 rfl (by omega) (hs.one .varFval) "hp var fun"
  obtain ⟨t7, a7, d7, c7⟩ := flag_col bg c6 d6 rfl (by
    have : (summaryHead nBeta false false h ++ if bf then [("hp var fun", (h.one .varFval).get)] else []).length
      = 5 + bf.toNat := by cases bf <;> rfl
    rw [this]; omega) (hs.one .varFgrad) "hp var grad"
  rw [← summaryHead_split] at a7 d7 c7
  have hlen := summaryHead_len nBeta bf bg h
  have tail : infoSummary ⟨dim, nBeta, some h, some bf, some bg⟩ = (if dim ≤ 3 then
      forRange 0 dim t7 fun i t => do
        if i < (h.two .theta).c then
          let t ← t.setCol ((summaryHead nBeta bf bg h).length + i) ⟨(h.two .theta).r, fun k => (h.two .theta).get k i⟩
          t.addHeader ((summaryHead nBeta bf bg h).length + i) ("theta " ++ toString i)
        else .error .index
    else do
      let t ← t7.setCol (summaryHead nBeta bf bg h).length ⟨(h.two .theta).r, fun k => rowMin (rowEntries (h.two .theta) k)⟩
      let t ← t.setCol ((summaryHead nBeta bf bg h).length + 1) ⟨(h.two .theta).r, fun k => rowMax (rowEntries (h.two .theta) k)⟩
      let t ← t.setCol ((summaryHead nBeta bf bg h).length + 2) ⟨(h.two .theta).r, fun k => median (rowEntries (h.two .theta) k)⟩
      pure { t with headers := t.headers.take (summaryHead nBeta bf bg h).length ++ ["theta min", "theta max", "theta median"] ++
        t.headers.drop ((summaryHead nBeta bf bg h).length + 3) }) := by
    unfold infoSummary
    simp only [needHist, needFlag, ok_bind, hs.one]
    rw [← htot, a1]; simp only [ok_bind]
    rw [a2]; simp only [ok_bind]
    rw [a3]; simp only [ok_bind]
    rw [a4]; simp only [ok_bind]
    rw [a5]; simp only [ok_bind]
    rw [a6]; simp only [ok_bind]
    rw [a7]; rfl
  rw [tail]
  by_cases hd : dim ≤ 3
  · rw [if_pos hd]
    have et : total = (summaryHead nBeta bf bg h).length + dim := by rw [hlen, htot]; omega
    rw [et] at c7 d7
    obtain ⟨t8, a8, c8, d8⟩ := theta_cols hs c7 d7
    have el : (summaryHead nBeta bf bg h ++ thetaCols "theta " dim h).length = (summaryHead nBeta bf bg h).length + dim := by
      simp [thetaCols]
    rw [← el] at c8 d8
    exact ⟨t8, a8, c8.rows, fun _ => shows_of c8 d8, fun h' => absurd hd (by omega)⟩
  · rw [if_neg hd]
    have et : total = (summaryHead nBeta bf bg h).length + 3 := by rw [hlen, htot]; omega
    obtain ⟨t8, a8, d8, c8⟩ := setCol_vec c7 (j := (summaryHead nBeta bf bg h).length) rfl (by omega)
      (v := ⟨(h.two .theta).r, fun k => rowMin (rowEntries (h.two .theta) k)⟩) (hs.two_r .theta) "theta min"
    obtain ⟨t9, a9, d9, c9⟩ := setCol_vec c8 (j := (summaryHead nBeta bf bg h).length + 1) (by simp) (by omega)
      (v := ⟨(h.two .theta).r, fun k => rowMax (rowEntries (h.two .theta) k)⟩) (hs.two_r .theta) "theta max"
    obtain ⟨t10, a10, d10, c10⟩ := setCol_vec c9 (j := (summaryHead nBeta bf bg h).length + 2) (by simp) (by omega)
      (v := ⟨(h.two .theta).r, fun k => median (rowEntries (h.two .theta) k)⟩) (hs.two_r .theta) "theta median"
    refine ⟨{ t10 with headers := t10.headers.take (summaryHead nBeta bf bg h).length ++
      ["theta min", "theta max", "theta median"] ++ t10.headers.drop ((summaryHead nBeta bf bg h).length + 3) },
      by rw [a8, ok_bind, a9, ok_bind, a10]; rfl, c10.rows, fun h' => absurd h' hd, fun _ => ?_⟩
    refine ⟨fun k => rowMin (rowEntries (h.two .theta) k), fun k => rowMax (rowEntries (h.two .theta) k),
      fun k => median (rowEntries (h.two .theta) k), ⟨?_, ?_, ?_⟩, ?_⟩
    · simp only [d10, d9, d8]
      rw [d7, et]
      have e3 : (summaryHead nBeta bf bg h).length + 3 - (summaryHead nBeta bf bg h).length = 3 := by omega
      rw [e3]
      have e4 : ((summaryHead nBeta bf bg h).map Prod.fst).length = (summaryHead nBeta bf bg h).length := by simp
      rw [List.take_append_of_le_length (by simp), ← e4, List.take_length]
      rw [show ((summaryHead nBeta bf bg h).map Prod.fst).length + 3 =
        ((summaryHead nBeta bf bg h).map Prod.fst ++ List.replicate 3 "").length by simp, List.drop_length]
      simp
    · show t10.cols = _
      rw [c10.cols, et]; simp
    · intro i hi c hc
      have := c10.cell i (c10.rows ▸ hi) c (by simpa using hc)
      refine (show _ = t10.cell i c from rfl).trans (this.trans ?_)
      simp only [List.append_assoc, List.singleton_append, List.cons_append, List.nil_append]
    · intro i _
      have hne : thetaRow dim h i ≠ [] := by
        intro h0
        have := congrArg List.length h0
        simp [thetaRow] at this
        omega
      simp only [rowOf_theta hs]
      exact ⟨rowMin_least hne, rowMax_greatest hne, median_middle hne⟩

/-- **C98.** The table of length scales shows all of them. -/
theorem C98_theta {dim nBeta n : ℕ} {fl fg : Option Bool} {h : Surr} (hs : Sized dim nBeta n h) :
    ∃ t, infoTheta ⟨dim, nBeta, some h, fl, fg⟩ = .ok t ∧ t.rows = n ∧
      Shows t ((" ", fun (i : ℕ) => some (i : ℝ)) :: thetaCols "th" dim h) := by
  have hn := hs.two_r .theta
  have c0 : Cells ⟨n, dim + 1, fun _ _ => some 0, List.replicate (dim + 1) " "⟩ n (dim + 1) [] :=
    ⟨rfl, rfl, fun i _ c hc => absurd hc (Nat.not_lt_zero _)⟩
  obtain ⟨t1, a1, b1, c1⟩ := setCol_vec (v := ⟨n, fun i => some (i : ℝ)⟩) c0 (j := 0) rfl (by omega) rfl " "
  let t2 : Table := ⟨t1.rows, t1.cols, fun i c => if c = 0 then t1.cell i c else
      (h.two .theta).get i (bidx (h.two .theta).c dim (c - 1)), t1.headers⟩
  have loop : ∃ t', forRange 0 dim t2 (fun i t => t.setHeader (i + 1) ("th" ++ toString i)) = .ok t' ∧
      (t'.rows = n ∧ t'.cols = dim + 1 ∧ t'.cell = t2.cell ∧
        t'.headers = " " :: ((List.range dim).map fun d => "th" ++ toString d) ++ List.replicate (dim - dim) " ") := by
    refine forRange_inv (fun k (t : Table) => t.rows = n ∧ t.cols = dim + 1 ∧ t.cell = t2.cell ∧
        t.headers = " " :: ((List.range k).map fun d => "th" ++ toString d) ++ List.replicate (dim - k) " ") (Nat.zero_le _) ?_ ?_
    · refine ⟨c1.rows, c1.cols, rfl, ?_⟩
      show t1.headers = _
      rw [b1]; simp [List.replicate_succ]
    · rintro k t - hk ⟨h1, h2, h3, h4⟩
      unfold Table.setHeader
      have hl : t.headers.length = dim + 1 := by rw [h4]; simp; omega
      rw [if_pos (by omega)]
      refine ⟨_, rfl, h1, h2, h3, ?_⟩
      simp only
      obtain ⟨m, hm⟩ : ∃ m, dim - k = m + 1 := ⟨dim - k - 1, by omega⟩
      have e1 : dim - (k + 1) = m := by omega
      rw [h4, hm, e1, List.replicate_succ, List.set_append_right _ _ (by simp)]
      simp [List.range_succ]
  obtain ⟨t', e1, e2, e3, e4, e5⟩ := loop
  refine ⟨t', ?_, e2, ?_, ?_, ?_⟩
  · unfold infoTheta
    simp only [needHist, ok_bind, hn]
    rw [a1]; simp only [ok_bind]
    rw [if_pos (.inl hs.theta)]
    exact e1
  · rw [e5]; simp [thetaCols]
  · rw [e3]; simp [thetaCols]
  · intro i hi c hc
    rw [e4]
    rw [e2] at hi
    rcases c with _ | c
    · have := c1.cell i hi 0 (by simp)
      simpa [t2] using this
    · have hcd : c < dim := by simpa [thetaCols] using hc
      simp [t2, thetaCols, hs.theta, bidx_same dim c hcd]

/-- **C98.** The table on the optimisation shows what the history says about it. -/
theorem C98_optz {dim nBeta n : ℕ} {fl fg : Option Bool} {h : Surr} (hs : Sized dim nBeta n h) :
    ∃ t, infoOptz ⟨dim, nBeta, some h, fl, fg⟩ = .ok t ∧ t.rows = n ∧ Shows t (optzCols h) := by
  unfold infoOptz
  simp only [needHist, ok_bind]
  rw [if_pos (by simp [hs.one, hs.atMax])]
  refine ⟨_, rfl, hs.one .cond, rfl, rfl, ?_⟩
  intro i _ c hc
  have : c < 8 := hc
  interval_cases c <;> rfl

/-- The table entry under the first column of this name. -/
def entry (t : Table) (name : String) (i : ℕ) : Fl := t.cell i (t.headers.idxOf name)

/-- The object that the tables are about. -/
def infoOf (o : SurrObj) (bf bg : Bool) : InfoObj := ⟨o.dim, o.nBeta, o.h, some bf, some bg⟩

theorem shows_entry {t : Table} {cs : List Column} (h : Shows t cs) {i c : ℕ} (hi : i < t.rows) (hc : c < cs.length)
    (hd : ∀ j (hj : j < c), (cs[j]'(by omega)).1 ≠ cs[c].1) : entry t cs[c].1 i = cs[c].2 i := by
  have e : t.headers.idxOf cs[c].1 = c := by
    rw [h.headers]
    apply le_antisymm
    · by_contra hlt
      push Not at hlt
      have hl : c < (cs.map Prod.fst).length := by simpa using hc
      have := List.not_of_lt_findIdx (p := (· == cs[c].1)) (xs := cs.map Prod.fst) hlt
      simp at this
    · by_contra hlt
      push Not at hlt
      have hm : cs[c].1 ∈ cs.map Prod.fst := List.mem_map.mpr ⟨_, List.getElem_mem hc, rfl⟩
      have hl := List.idxOf_lt_length_iff.mpr hm
      have h1 := List.getElem_idxOf hl
      rw [List.getElem_map] at h1
      exact hd _ hlt h1
  unfold entry
  rw [e]
  exact h.cell i hi c hc

/-- **C98.** After any sequence of calls of the store, in any order and with rows overwritten, the tables can be made, and in the
row of an entry they show what was stored there last; where nothing was stored they show NaN. -/
theorem C98_after_stores {n : ℕ} {o : SurrObj} (hr : StoreReady o) (l : List (ℤ × StoreArgs))
    (hl : ∀ x ∈ l, HpFits o.dim o.nBeta x.2.hp) (bf bg : Bool) :
    ∃ T U V, infoAll (infoOf (runStores l (initSurr n o)) bf bg) = .ok [T, U, V] ∧ T.rows = n ∧ U.rows = n ∧ V.rows = n ∧
      ∀ k < n, T.cell k 0 = some (k : ℝ) ∧ U.cell k 0 = some (k : ℝ) ∧ V.cell k 0 = some (k : ℝ) ∧
        (∀ s, lastStored n l k = some s →
          entry T "Kernel" k = s.hp.kernel.join ∧ entry T "varK" k = s.hp.varK.join ∧
          (∀ b, s.hp.beta = some b → entry T "Mu" k = if o.nBeta = 0 then none else b.get 0) ∧
          (bf = true → entry T "hp var fun" k = s.hp.varFval.join) ∧
          (bg = true → entry T "hp var grad" k = s.hp.varFgrad.join) ∧
          (∀ t, s.hp.theta = some t → ∀ d < o.dim, U.cell k (d + 1) = t.get d) ∧
          entry V "Time" k = s.timeOptz ∧ entry V "Cond" k = s.cond) ∧
        (lastStored n l k = none → entry T "Kernel" k = none ∧ entry T "varK" k = none ∧
          (∀ d < o.dim, U.cell k (d + 1) = none) ∧ entry V "Cond" k = none) := by
  obtain ⟨h0, i1, i2, i3, i4, i5⟩ := init_sized n o
  obtain ⟨h, hp', e1, hs, e2⟩ := runStores_ok (n := n) l (o := initSurr n o) i3 i1 i2 ⟨hr.data, hr.scale⟩ hl
  have e3 : infoOf (runStores l (initSurr n o)) bf bg = ⟨o.dim, o.nBeta, some h, some bf, some bg⟩ := by rw [e1]; rfl
  have hs' : Sized o.dim o.nBeta n h := hs
  obtain ⟨T, t1, t2, t3, t4⟩ := C98_summary (bf := bf) (bg := bg) hs'
  obtain ⟨U, u1, u2, u3⟩ := C98_theta (fl := some bf) (fg := some bg) hs'
  obtain ⟨V, v1, v2, v3⟩ := C98_optz (fl := some bf) (fg := some bg) hs'
  have T3 : ∃ cs, Shows T (summaryHead o.nBeta bf bg h ++ cs) := by
    by_cases hd : o.dim ≤ 3
    · exact ⟨_, t3 hd⟩
    · obtain ⟨lo, hi, mid, h5, -⟩ := t4 (by omega)
      exact ⟨_, h5⟩
  obtain ⟨cs, T3⟩ := T3
  refine ⟨T, U, V, by rw [e3]; unfold infoAll; rw [t1, ok_bind, u1, ok_bind, v1]; rfl, t2, u2, v2, ?_⟩
  intro k hk
  have hkT : k < T.rows := t2 ▸ hk
  have hkV : k < V.rows := v2 ▸ hk
  have kern : entry T "Kernel" k = (h.one .kernel).get k := by
    cases bf <;> cases bg <;>
    exact shows_entry T3 (c := 1) hkT (by simp [summaryHead]) (by intro j hj; interval_cases j <;> simp [summaryHead])
  have mu : entry T "Mu" k = if o.nBeta = 0 then none else (h.two .beta).get k 0 := by
    cases bf <;> cases bg <;>
    exact shows_entry T3 (c := 2) hkT (by simp [summaryHead]) (by intro j hj; interval_cases j <;> simp [summaryHead])
  have vk : entry T "varK" k = (h.one .varK).get k := by
    cases bf <;> cases bg <;>
    exact shows_entry T3 (c := 3) hkT (by simp [summaryHead]) (by intro j hj; interval_cases j <;> simp [summaryHead])
  have vf : bf = true → entry T "hp var fun" k = (h.one .varFval).get k := by
    rintro rfl
    cases bg <;>
    exact shows_entry T3 (c := 5) hkT (by simp [summaryHead]) (by intro j hj; interval_cases j <;> simp [summaryHead])
  have vg : bg = true → entry T "hp var grad" k = (h.one .varFgrad).get k := by
    rintro rfl
    cases bf
    · exact shows_entry T3 (c := 5) hkT (by simp [summaryHead]) (by intro j hj; interval_cases j <;> simp [summaryHead])
    · exact shows_entry T3 (c := 6) hkT (by simp [summaryHead]) (by intro j hj; interval_cases j <;> simp [summaryHead])
  have tm : entry V "Time" k = (h.one .timeOptz).get k :=
    shows_entry v3 (c := 1) hkV (by simp [optzCols]) (by intro j hj; interval_cases j <;> simp [optzCols])
  have cd : entry V "Cond" k = (h.one .cond).get k :=
    shows_entry v3 (c := 6) hkV (by simp [optzCols]) (by intro j hj; interval_cases j <;> simp [optzCols])
  have th : ∀ d < o.dim, U.cell k (d + 1) = (h.two .theta).get k d := by
    intro d hd
    have := u3.cell k (u2 ▸ hk) (d + 1) (by simpa [thetaCols] using hd)
    rw [this]
    simp [thetaCols]
  have row := e2 k
  refine ⟨?_, u3.cell k (u2 ▸ hk) 0 (by simp), v3.cell k hkV 0 (by simp [optzCols]), ?_, ?_⟩
  · have := T3.cell k hkT 0 (by cases bf <;> cases bg <;> simp [summaryHead])
    rw [this]
    cases bf <;> cases bg <;> rfl
  · intro s hsk
    rw [hsk] at row
    obtain ⟨R, F⟩ := row
    refine ⟨kern.trans R.kernel, vk.trans R.varK, ?_, fun hb => (vf hb).trans R.varFval, fun hb => (vg hb).trans R.varFgrad, ?_,
      tm.trans R.times.1, cd.trans R.cond⟩
    · intro b hb
      rw [mu]
      split_ifs with h0'
      · rfl
      · obtain ⟨b', hb', hn⟩ := F.beta
        obtain rfl : b' = b := Option.some.inj (hb'.symm.trans hb)
        have hn' : b'.n = o.nBeta := hn
        exact R.beta b' hb' 0 (by omega)
    · intro t ht d hd
      rw [th d hd]
      obtain ⟨t', ht', hn⟩ := F.theta
      obtain rfl : t' = t := Option.some.inj (ht'.symm.trans ht)
      have hn' : t'.n = o.dim := hn
      exact R.theta t' ht' d (by omega)
  · intro hsk
    rw [hsk] at row
    obtain ⟨r1, r2, r3⟩ := row
    refine ⟨kern.trans ((r1 _).trans (i4 _ _)), vk.trans ((r1 _).trans (i4 _ _)), ?_, cd.trans ((r1 _).trans (i4 _ _))⟩
    intro d hd
    rw [th d hd, r2 .theta d (by rw [i2.theta]; exact hd)]
    exact i5 _ _ _

/-- **C98.** There are no tables before the history was created (an `AttributeError`), nor a summary before data was given (the
flags are `None`: a `TypeError`). -/
theorem C98_too_early (o : InfoObj) :
    (o.h = none → infoAll o = .error .attribute) ∧
    (∀ h, o.h = some h → (o.optzVarFval = none ∨ o.optzVarFgrad = none) → infoAll o = .error .typeError) := by
  obtain ⟨dim, nBeta, h, ff, fg⟩ := o
  constructor
  · rintro rfl; rfl
  · rintro h' rfl (rfl | rfl)
    · rfl
    · cases ff <;> rfl

/-- **C98, a discrepancy.** Asked to save the tables to a file, `get_txt_info_surr` always raises: the method that it calls exists
nowhere. Without, it returns the tables. -/
theorem C98_save_raises (b : Bool) (o : InfoObj) (T : List Table) (h : infoAll o = .ok T) :
    txtInfo b (some true) o = .error .attribute ∧ txtInfo true none o = .error .attribute ∧
      txtInfo b (some false) o = .ok T ∧ txtInfo false none o = .ok T := by
  refine ⟨?_, ?_, ?_, ?_⟩ <;> · unfold txtInfo; rw [h]; rfl

/-- The hypotheses are met, with stores that are overwritten and rows that are left empty; the table shows the numbers. -/
example : ∃ T U V, infoAll (infoOf (runStores [((1 : ℤ), (⟨exHpF 1, none, none, none, none, none⟩ : StoreArgs)),
      (-2, ⟨exHpF 4, none, none, none, none, none⟩)] (initSurr 3 exSurr)) true false) = .ok [T, U, V] ∧
    T.rows = 3 ∧ entry T "varK" 1 = some 4 ∧ U.cell 1 2 = some 5 ∧ entry T "hp var fun" 1 = some 1 ∧ entry T "varK" 0 = none := by
  have hl : ∀ x ∈ [((1 : ℤ), (⟨exHpF 1, none, none, none, none, none⟩ : StoreArgs)),
      (-2, ⟨exHpF 4, none, none, none, none, none⟩)], HpFits exSurr.dim exSurr.nBeta x.2.hp := by
    intro x hx
    simp only [List.mem_cons, List.not_mem_nil, or_false] at hx
    rcases hx with rfl | rfl <;> exact ⟨⟨_, rfl, rfl⟩, ⟨_, rfl, rfl⟩⟩
  obtain ⟨T, U, V, h1, h2, h3, h4, h5⟩ := C98_after_stores (n := 3) (o := exSurr) ⟨⟨_, rfl⟩, fun h => by cases h⟩ _ hl true false
  obtain ⟨-, -, -, a, -⟩ := h5 1 (by omega)
  obtain ⟨-, -, -, -, b⟩ := h5 0 (by omega)
  obtain ⟨-, a2, -, a4, -, a6, -⟩ := a _ (by simp [lastStored, Denotes]; rfl)
  obtain ⟨-, b2, -⟩ := b (by simp [lastStored, Denotes])
  refine ⟨T, U, V, h1, h2, ?_, ?_, ?_, b2⟩
  · rw [a2]; rfl
  · rw [a6 _ rfl 1 (by show 1 < 2; omega)]; simp [exHpF]; norm_num
  · rw [a4 rfl]; rfl

/-- Four dimensions: the middle of 1, 3, 4, 7 may be anything between 3 and 4; the median shown is 3.5. -/
example : IsMiddle [some 4, some 1, some 7, some (3 : ℝ)] (some 3.5) ∧ ¬ IsMiddle [some 4, some 1, some 7, some (3 : ℝ)] (some 5) := by
  constructor
  · refine .inr ⟨3.5, rfl, by simp, ?_, ?_⟩ <;> simp [List.countP_cons] <;> norm_num
  · rintro (⟨h, -⟩ | ⟨m, hm, -, -, h⟩)
    · simp at h
    · obtain rfl : (5 : ℝ) = m := Option.some.inj hm
      simp [List.countP_cons] at h
      norm_num at h

end Props
