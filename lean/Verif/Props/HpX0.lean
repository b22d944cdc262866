import Verif.Spec.X0Spec
import Verif.Spec.HistSpec
import Verif.Props.Layout

open Np GP Spec

noncomputable section

namespace GP

/-- The value for a slot. -/
def SlotVals.at (sv : SlotVals) : Slot → Fl
  | .theta d => sv.theta d
  | .kernel => sv.kernel
  | .varK => sv.varK
  | .varFval => sv.varFval
  | .varFgrad => sv.varFgrad

theorem idxOf_range {n p : ℕ} (h : p < n) : (List.range n).idxOf p = p := by
  have := List.nodup_range (n := n) |>.idxOf_getElem p (by simpa using h)
  simpa using this

theorem putOne_ok {has : Bool} {i : ℕ} {x : Fl} {v : FVec} (h : has = true → i < v.n) :
    putOne has i x v = .ok ⟨v.n, fun p => if has = true ∧ p = i then x else v.get p⟩ := by
  unfold putOne
  cases has with
  | false => simp
  | true =>
    rw [if_pos rfl, if_pos (h rfl)]
    congr 2
    funext p
    simp [Function.update_apply]

theorem putTheta_ok {has : Bool} {dim : ℕ} {x : ℕ → Fl} {v : FVec} (h : has = true → dim ≤ v.n) :
    putTheta has (if has then List.range dim else []) x v = .ok ⟨v.n, fun p => if has = true ∧ p < dim then x p else v.get p⟩ := by
  unfold putTheta
  cases has with
  | false => simp
  | true =>
    simp only [if_true, List.mem_range, true_and]
    rw [if_pos (fun i hi => lt_of_lt_of_le hi (h rfl))]
    congr 2
    funext p
    split
    · next hp => rw [idxOf_range hp]
    · rfl

theorem fillHp_ok (lo : LogOpts) (dim : ℕ) (t k v f g : Bool) (sv : SlotVals) :
    ∃ w, fillHp (hpInfoOf lo dim t k v f g) sv = .ok w ∧ w.n = (hpSlots dim t k v f g).length ∧
      ∀ p s, (hpSlots dim t k v f g)[p]? = some s → w.get p = sv.at s := by
  unfold fillHp
  rw [show (hpInfoOf lo dim t k v f g).idxTheta = if (hpInfoOf lo dim t k v f g).hasTheta then List.range dim else [] from rfl,
    putTheta_ok (by simp only [hpInfoOf]; intro h; rw [h]; simp [b2n]; omega), ok_bind,
    putOne_ok (by simp only [hpInfoOf]; intro h; rw [h]; simp [b2n]; omega), ok_bind,
    putOne_ok (by simp only [hpInfoOf]; intro h; rw [h]; simp [b2n]; omega), ok_bind,
    putOne_ok (by simp only [hpInfoOf]; intro h; rw [h]; simp [b2n]; omega), ok_bind,
    putOne_ok (by simp only [hpInfoOf]; intro h; rw [h]; simp [b2n])]
  refine ⟨_, rfl, (hpSlots_length ..).symm, fun p s hs => ?_⟩
  have hp := (slotPos_iff lo dim t k v f g s p).mpr hs
  have hpl := (List.getElem?_eq_some_iff.mp hs).1
  rw [hpSlots_length] at hpl
  cases s with
  | theta d =>
    simp only [slotPos, hpInfoOf] at hp
    cases t with
    | false => simp at hp
    | true =>
      simp only [if_true, range_getElem?] at hp
      obtain ⟨rfl, hd⟩ := hp
      simp only [hpInfoOf, SlotVals.at, b2n, if_true, Nat.one_mul]
      cases k <;> cases v <;> cases f <;> cases g <;> simp [hd] <;> (repeat rw [if_neg (by omega)]) <;> (try (intro h; exfalso; omega))
  | kernel =>
    simp only [slotPos, hpInfoOf] at hp
    cases k with
    | false => simp at hp
    | true =>
      simp only [if_true, Option.some.injEq] at hp
      subst hp
      simp only [hpInfoOf, SlotVals.at]
      cases t <;> cases v <;> cases f <;> cases g <;> simp [b2n] <;> (repeat rw [if_neg (by omega)]) <;> (try (intro h; exfalso; omega))
  | varK =>
    simp only [slotPos, hpInfoOf] at hp
    cases v with
    | false => simp at hp
    | true =>
      simp only [if_true, Option.some.injEq] at hp
      subst hp
      simp only [hpInfoOf, SlotVals.at]
      cases t <;> cases k <;> cases f <;> cases g <;> simp [b2n] <;> (repeat rw [if_neg (by omega)]) <;> (try (intro h; exfalso; omega))
  | varFval =>
    simp only [slotPos, hpInfoOf] at hp
    cases f with
    | false => simp at hp
    | true =>
      simp only [if_true, Option.some.injEq] at hp
      subst hp
      simp only [hpInfoOf, SlotVals.at]
      cases t <;> cases k <;> cases v <;> cases g <;> simp [b2n] <;> (repeat rw [if_neg (by omega)]) <;> (try (intro h; exfalso; omega))
  | varFgrad =>
    simp only [slotPos, hpInfoOf] at hp
    cases g with
    | false => simp at hp
    | true =>
      simp only [if_true, Option.some.injEq] at hp
      subst hp
      simp only [hpInfoOf, SlotVals.at]
      cases t <;> cases k <;> cases v <;> cases f <;> simp [b2n] <;> (repeat rw [if_neg (by omega)]) <;> (try (intro h; exfalso; omega))

theorem logMasked_ok (lo : LogOpts) (dim : ℕ) (t k v f g : Bool) {w : FVec} (hn : w.n = (hpSlots dim t k v f g).length) :
    ∃ w', logMasked w (hpInfoOf lo dim t k v f g).logOptz = .ok w' ∧ w'.n = w.n ∧
      ∀ p s y, (hpSlots dim t k v f g)[p]? = some s → w.get p = some y → 0 < y → w'.get p = some (encoded lo s y) := by
  unfold logMasked
  rw [if_pos (by rw [hn, ← hpSlots_log, List.length_map])]
  refine ⟨_, rfl, rfl, fun p s y hs hy h0 => ?_⟩
  simp only [Props.logOptz_at lo dim hs, hy, encoded, flog10]
  split
  · simp [h0]
  · rfl

theorem median_hull {l : List Fl} {a b : ℝ} (h0 : l ≠ []) (h : ∀ v ∈ l, ∃ x, v = some x ∧ a ≤ x ∧ x ≤ b) :
    ∃ m, median l = some m ∧ a ≤ m ∧ m ≤ b := by
  have hn : none ∉ l := fun hm => by obtain ⟨x, hx, -⟩ := h none hm; cases hx
  unfold median
  rw [if_neg (by push Not; exact ⟨h0, hn⟩)]
  dsimp only
  set s := (l.filterMap id).mergeSort fun a b => decide (a ≤ b) with hs
  have hmem : ∀ x ∈ s, a ≤ x ∧ x ≤ b := by
    intro x hx
    rw [hs, List.mem_mergeSort, List.mem_filterMap] at hx
    obtain ⟨v, hv, hvx⟩ := hx
    obtain ⟨y, hy, h1, h2⟩ := h v hv
    rw [hy] at hvx
    cases hvx
    exact ⟨h1, h2⟩
  have hlen : 0 < s.length := by
    rw [hs, List.length_mergeSort]
    obtain ⟨v, hv⟩ := List.exists_mem_of_ne_nil l h0
    obtain ⟨y, hy, -⟩ := h v hv
    exact List.length_pos_of_mem (List.mem_filterMap.mpr ⟨v, hv, hy⟩)
  have hg : ∀ i < s.length, a ≤ s.getD i 0 ∧ s.getD i 0 ≤ b := by
    intro i hi
    rw [List.getD_eq_getElem _ _ hi]
    exact hmem _ (List.getElem_mem hi)
  split
  · exact ⟨_, rfl, hg _ (by omega)⟩
  · obtain ⟨h1, h2⟩ := hg (s.length / 2 - 1) (by omega)
    obtain ⟨h3, h4⟩ := hg (s.length / 2) (by omega)
    exact ⟨_, rfl, by linarith, by linarith⟩

theorem median_none {l : List Fl} (h : l = [] ∨ none ∈ l) : median l = none := if_pos h

/-- The bounds around a past value. -/
theorem calcHpRange_ok {frac lo hi z : ℝ} (hf : 0 < frac) (hr : lo < hi) (hz : lo ≤ z) :
    ∃ u v : ℝ, calcHpRange frac lo hi (some z) = (some ((10 : ℝ) ^ u), some ((10 : ℝ) ^ v)) ∧ u < v ∧ lo ≤ u ∧ v ≤ hi ∧
      u ≤ z ∧ min z hi ≤ v ∧ min z hi - frac * (hi - lo) ≤ u ∧ v ≤ z + frac * (hi - lo) := by
  refine ⟨max lo (min z hi - frac * (hi - lo)), min hi (min z hi + frac * (hi - lo)), rfl, ?_, le_max_left _ _, min_le_left _ _, ?_, ?_,
    le_max_right _ _, ?_⟩
  · have hl : 0 < frac * (hi - lo) := mul_pos hf (by linarith)
    have h1 : lo ≤ min z hi := le_min hz hr.le
    have h2 : min z hi ≤ hi := min_le_right _ _
    rw [max_lt_iff, lt_min_iff, lt_min_iff]
    exact ⟨⟨hr, by linarith⟩, by linarith, by linarith⟩
  · have hl : 0 < frac * (hi - lo) := mul_pos hf (by linarith)
    exact max_le hz (by have := min_le_left z hi; linarith)
  · have hl : 0 < frac * (hi - lo) := mul_pos hf (by linarith)
    exact le_min (min_le_right _ _) (by linarith)
  · exact (min_le_right _ _).trans (by have := min_le_left z hi; linarith)

/-- The same in natural values. -/
theorem around_ok {frac lo hi z : ℝ} (hf : 0 < frac) (h0 : 0 < lo) (hr : lo < hi) (hz : Real.logb 10 lo ≤ z) :
    ∃ L U : ℝ, calcHpRange frac (Real.logb 10 lo) (Real.logb 10 hi) (some z) = (some L, some U) ∧ 0 < L ∧ L < U ∧ lo ≤ L ∧ U ≤ hi ∧
      ∀ a b, lo ≤ a → b ≤ hi → Real.logb 10 a ≤ z → z ≤ Real.logb 10 b → 0 < b →
        L ≤ b ∧ a ≤ U ∧ a * (lo / hi) ^ frac ≤ L ∧ U ≤ b * (hi / lo) ^ frac := by
  have h10 : (1 : ℝ) < 10 := by norm_num
  have h10' : (0 : ℝ) < 10 := by norm_num
  have hh : 0 < hi := h0.trans hr
  have pw : ∀ x, 0 < x → (10 : ℝ) ^ Real.logb 10 x = x := fun x hx => Real.rpow_logb h10' (by norm_num) hx
  obtain ⟨u, v, he, h1, h2, h3, h4, h5, h6, h7⟩ := calcHpRange_ok hf (Real.logb_lt_logb h10 h0 hr) hz
  refine ⟨_, _, he, Real.rpow_pos_of_pos h10' _, Real.rpow_lt_rpow_of_exponent_lt h10 h1, ?_, ?_, ?_⟩
  · rw [← pw lo h0]; exact Real.rpow_le_rpow_of_exponent_le h10.le h2
  · rw [← pw hi hh]; exact Real.rpow_le_rpow_of_exponent_le h10.le h3
  · intro a b ha hb hza hzb hb0
    have ha0 : 0 < a := lt_of_lt_of_le h0 ha
    have hzh : z ≤ Real.logb 10 hi := hzb.trans (Real.logb_le_logb_of_le h10 hb0 hb)
    rw [min_eq_left hzh] at h5 h6
    have hq : ∀ x y : ℝ, 0 < x → 0 < y → (x / y) ^ frac = (10 : ℝ) ^ (frac * (Real.logb 10 x - Real.logb 10 y)) := by
      intro x y hx hy
      rw [← Real.logb_div hx.ne' hy.ne', mul_comm, Real.rpow_mul h10'.le, pw _ (div_pos hx hy)]
    refine ⟨?_, ?_, ?_, ?_⟩
    · rw [← pw b hb0]; exact Real.rpow_le_rpow_of_exponent_le h10.le (h4.trans hzb)
    · conv_lhs => rw [← pw a ha0]
      exact Real.rpow_le_rpow_of_exponent_le h10.le (hza.trans h5)
    · rw [hq lo hi h0 hh]
      conv_lhs => rw [← pw a ha0]
      rw [← Real.rpow_add h10']
      exact Real.rpow_le_rpow_of_exponent_le h10.le (by linarith)
    · rw [hq hi lo hh h0]
      conv_rhs => rw [← pw b hb0]
      rw [← Real.rpow_add h10']
      exact Real.rpow_le_rpow_of_exponent_le h10.le (by linarith)

/-- The bounds of a scalar hyperparameter from its past values. -/
theorem scalarRange_ok {frac lo hi : ℝ} {vals : List Fl} (hf : 0 < frac) (h0 : 0 < lo) (hr : lo < hi) (hne : vals ≠ [])
    (hv : ∀ v ∈ vals, ∃ x, v = some x ∧ 0 ≤ x) :
    ∃ L U : ℝ, scalarRange true frac (lo, hi) vals = (some L, some U) ∧ 0 < L ∧ L < U ∧ lo ≤ L ∧ U ≤ hi ∧
      ∀ a b, lo ≤ a → b ≤ hi → (∀ v ∈ vals, ∃ x, v = some x ∧ a ≤ x ∧ x ≤ b) →
        L ≤ b ∧ a ≤ U ∧ a * (lo / hi) ^ frac ≤ L ∧ U ≤ b * (hi / lo) ^ frac := by
  have h10 : (1 : ℝ) < 10 := by norm_num
  have hall : ∃ B, ∀ v ∈ vals, ∃ x, v = some x ∧ 0 ≤ x ∧ x ≤ B := by
    clear hne
    induction vals with
    | nil => exact ⟨0, by simp⟩
    | cons w l ih =>
      obtain ⟨B, hB⟩ := ih (fun v hvl => hv v (List.mem_cons_of_mem _ hvl))
      obtain ⟨x, hx, hx0⟩ := hv w List.mem_cons_self
      refine ⟨max B x, fun v hvm => ?_⟩
      rcases List.mem_cons.mp hvm with rfl | hvl
      · exact ⟨x, hx, hx0, le_max_right _ _⟩
      · obtain ⟨y, h1, h2, h3⟩ := hB v hvl
        exact ⟨y, h1, h2, h3.trans (le_max_left _ _)⟩
  obtain ⟨B, hB⟩ := hall
  obtain ⟨m, hm, hm0, -⟩ := median_hull hne hB
  have hz : ∃ z, logClamp (median vals) (Real.logb 10 lo) = some z ∧ Real.logb 10 lo ≤ z ∧
      (lo ≤ m → z = Real.logb 10 m) := by
    rw [hm]
    unfold logClamp
    by_cases hm1 : m = 0
    · exact ⟨_, by simp [hm1], le_refl _, fun h => by linarith⟩
    · have : 0 < m := lt_of_le_of_ne hm0 (Ne.symm hm1)
      refine ⟨max (Real.logb 10 m) (Real.logb 10 lo), ?_, le_max_right _ _, fun h => ?_⟩
      · simp [hm1, fmax, flog10, this]
      · exact max_eq_left (Real.logb_le_logb_of_le h10 h0 h)
  obtain ⟨z, hz1, hz2, hz3⟩ := hz
  obtain ⟨L, U, he, h1, h2, h3, h4, h5⟩ := around_ok hf h0 hr hz2
  refine ⟨L, U, ?_, h1, h2, h3, h4, fun a b ha hb hab => ?_⟩
  · unfold scalarRange; rw [if_pos rfl, hz1]; exact he
  · obtain ⟨m', hm', hma, hmb⟩ := median_hull hne hab
    rw [hm] at hm'; cases hm'
    have hm1 : 0 < m := lt_of_lt_of_le h0 (ha.trans hma)
    refine h5 a b ha hb ?_ ?_ (lt_of_lt_of_le hm1 hmb) <;> rw [hz3 (ha.trans hma)]
    · exact Real.logb_le_logb_of_le h10 (lt_of_lt_of_le h0 ha) hma
    · exact Real.logb_le_logb_of_le h10 hm1 hmb

/-- The bounds of the length scales from their past values. -/
theorem thetaRange_ok {frac lo hi : ℝ} {vals : List Fl} (hf : 0 < frac) (h0 : 0 < lo) (hr : lo < hi) (hne : vals ≠ [])
    (hv : ∀ v ∈ vals, ∃ x, v = some x ∧ 0 < x) :
    ∃ L U : ℝ, thetaRangeOld true frac (lo, hi) vals = (some L, some U) ∧ 0 < L ∧ L < U ∧ lo ≤ L ∧ U ≤ hi ∧
      ∀ a b, lo ≤ a → b ≤ hi → (∀ v ∈ vals, ∃ x, v = some x ∧ a ≤ x ∧ x ≤ b) →
        L ≤ b ∧ a ≤ U ∧ a * (lo / hi) ^ frac ≤ L ∧ U ≤ b * (hi / lo) ^ frac := by
  have h10 : (1 : ℝ) < 10 := by norm_num
  have hne' : vals.map flog10 ≠ [] := by simpa using hne
  have hlog : ∀ a b, 0 < a → (∀ v ∈ vals, ∃ x, v = some x ∧ a ≤ x ∧ x ≤ b) →
      ∀ v ∈ vals.map flog10, ∃ x, v = some x ∧ Real.logb 10 a ≤ x ∧ x ≤ Real.logb 10 b := by
    intro a b ha hab v hvm
    obtain ⟨w, hw, rfl⟩ := List.mem_map.mp hvm
    obtain ⟨x, rfl, h1, h2⟩ := hab w hw
    have hx : 0 < x := lt_of_lt_of_le ha h1
    exact ⟨Real.logb 10 x, by simp [flog10, hx], Real.logb_le_logb_of_le h10 ha h1, Real.logb_le_logb_of_le h10 hx h2⟩
  have hall : ∃ A B, 0 < A ∧ ∀ v ∈ vals, ∃ x, v = some x ∧ A ≤ x ∧ x ≤ B := by
    clear hne hne' hlog
    induction vals with
    | nil => exact ⟨1, 0, one_pos, by simp⟩
    | cons w l ih =>
      obtain ⟨A, B, hA, hB⟩ := ih (fun v hvl => hv v (List.mem_cons_of_mem _ hvl))
      obtain ⟨x, hx, hx0⟩ := hv w List.mem_cons_self
      refine ⟨min A x, max B x, lt_min hA hx0, fun v hvm => ?_⟩
      rcases List.mem_cons.mp hvm with rfl | hvl
      · exact ⟨x, hx, min_le_right _ _, le_max_right _ _⟩
      · obtain ⟨y, h1, h2, h3⟩ := hB v hvl
        exact ⟨y, h1, (min_le_left _ _).trans h2, h3.trans (le_max_left _ _)⟩
  obtain ⟨A, B, hA, hB⟩ := hall
  obtain ⟨m, hm, -, -⟩ := median_hull hne' (hlog A B hA hB)
  obtain ⟨L, U, he, h1, h2, h3, h4, h5⟩ := around_ok hf h0 hr (le_max_right m (Real.logb 10 lo))
  refine ⟨L, U, ?_, h1, h2, h3, h4, fun a b ha hb hab => ?_⟩
  · unfold thetaRangeOld; rw [if_pos rfl, hm]; exact he
  · have ha0 := lt_of_lt_of_le h0 ha
    obtain ⟨m', hm', hma, hmb⟩ := median_hull hne' (hlog a b ha0 hab)
    rw [hm] at hm'; cases hm'
    have hmax : max m (Real.logb 10 lo) = m := max_eq_left ((Real.logb_le_logb_of_le h10 h0 ha).trans hma)
    obtain ⟨v, hvm⟩ := List.exists_mem_of_ne_nil _ hne
    obtain ⟨x, -, hx1, hx2⟩ := hab v hvm
    refine h5 a b ha hb ?_ ?_ (by linarith) <;> rw [hmax] <;> assumption

theorem mem_window {v : FVec} {N i n : ℕ} (hn : v.n = n) (hi : i ≤ n) {x : Fl} :
    x ∈ window v (i - N) i ↔ ∃ k, Recent N i k ∧ v.get k = x := by
  unfold window Recent
  simp only [List.mem_map, List.mem_range'_1]
  constructor
  · rintro ⟨k, ⟨h1, h2⟩, rfl⟩; exact ⟨k, ⟨by omega, by omega⟩, rfl⟩
  · rintro ⟨k, ⟨h1, h2⟩, rfl⟩; exact ⟨k, ⟨by omega, by omega⟩, rfl⟩

theorem mem_windowCol {A : FMat} {N i n d : ℕ} (hn : A.r = n) (hi : i ≤ n) {x : Fl} :
    x ∈ windowCol A (i - N) i d ↔ ∃ k, Recent N i k ∧ A.get k d = x := by
  unfold windowCol Recent
  simp only [List.mem_map, List.mem_range'_1]
  constructor
  · rintro ⟨k, ⟨h1, h2⟩, rfl⟩; exact ⟨k, ⟨by omega, by omega⟩, rfl⟩
  · rintro ⟨k, ⟨h1, h2⟩, rfl⟩; exact ⟨k, ⟨by omega, by omega⟩, rfl⟩

theorem mem_windowAll {A : FMat} {N i n : ℕ} (hn : A.r = n) (hi : i ≤ n) {x : Fl} :
    x ∈ windowAll A (i - N) i ↔ ∃ d < A.c, ∃ k, Recent N i k ∧ A.get k d = x := by
  unfold windowAll
  simp only [List.mem_flatMap, List.mem_range, mem_windowCol hn hi]

theorem recent_last {N i : ℕ} (hN : 1 ≤ N) (hi : 1 ≤ i) : Recent N i (i - 1) := by unfold Recent; omega

theorem mem_hpSlots_theta {dim : ℕ} {t k v f g : Bool} {d : ℕ} :
    Slot.theta d ∈ hpSlots dim t k v f g ↔ t = true ∧ d < dim := by
  cases t <;> cases k <;> cases v <;> cases f <;> cases g <;> simp [hpSlots]

/-- The bounds of each hyperparameter when past values count. -/
theorem boundVals_past {o : X0Opts} {h : Surr} {dim nb n i : ℕ} {frac : ℝ} {t k v f g : Bool} (hs : Sized dim nb n h)
    (hin : i ≤ n) (hi1 : 1 ≤ i) (hN : 1 ≤ o.medianN) (hf : 0 < frac) {s : Slot} (hm : s ∈ hpSlots dim t k v f g)
    {lo hi : ℝ} (hr : rangeOf o s = some (lo, hi)) (h0 : 0 < lo) (hlh : lo < hi)
    (hp : usesPast o.constN i s → ∀ s' ∈ hpSlots dim t k v f g, Sibling s s' → PastOk h o.medianN i s') :
    ∃ L U : ℝ, (boundVals o h true (some i) frac Prod.fst).at s = some L ∧ (boundVals o h true (some i) frac Prod.snd).at s = some U ∧
      0 < L ∧ L < U ∧ lo ≤ L ∧ U ≤ hi ∧ (¬ usesPast o.constN i s → L = lo ∧ U = hi) ∧
      (usesPast o.constN i s → ∀ a b, lo ≤ a → b ≤ hi →
        (∀ s' ∈ hpSlots dim t k v f g, Sibling s s' → ∀ r, Recent o.medianN i r → ∃ x, past h s' r = some x ∧ a ≤ x ∧ x ≤ b) →
        L ≤ b ∧ a ≤ U ∧ a * (lo / hi) ^ frac ≤ L ∧ U ≤ b * (hi / lo) ^ frac) := by
  have hl := recent_last hN hi1
  have free : ∀ {L U : Fl}, L = some lo → U = some hi → ¬ usesPast o.constN i s → ∃ L' U' : ℝ, L = some L' ∧ U = some U' ∧
      0 < L' ∧ L' < U' ∧ lo ≤ L' ∧ U' ≤ hi ∧ (¬ usesPast o.constN i s → L' = lo ∧ U' = hi) ∧
      (usesPast o.constN i s → ∀ a b, lo ≤ a → b ≤ hi →
        (∀ s' ∈ hpSlots dim t k v f g, Sibling s s' → ∀ r, Recent o.medianN i r → ∃ x, past h s' r = some x ∧ a ≤ x ∧ x ≤ b) →
        L' ≤ b ∧ a ≤ U' ∧ a * (lo / hi) ^ frac ≤ L' ∧ U' ≤ b * (hi / lo) ^ frac) := by
    intro L U hL hU hu
    exact ⟨lo, hi, hL, hU, h0, hlh, le_refl _, le_refl _, fun _ => ⟨rfl, rfl⟩, fun h => absurd h hu⟩
  have scalar : ∀ (fld : Fld1), (∀ r, past h s r = (h.one fld).get r) → (∀ d, s ≠ .theta d) → usesPast o.constN i s →
      ∀ {L U : Fl}, L = (scalarRange true frac (lo, hi) (window (h.one fld) (i - o.medianN) i)).1 →
      U = (scalarRange true frac (lo, hi) (window (h.one fld) (i - o.medianN) i)).2 → ∃ L' U' : ℝ, L = some L' ∧ U = some U' ∧
      0 < L' ∧ L' < U' ∧ lo ≤ L' ∧ U' ≤ hi ∧ (¬ usesPast o.constN i s → L' = lo ∧ U' = hi) ∧
      (usesPast o.constN i s → ∀ a b, lo ≤ a → b ≤ hi →
        (∀ s' ∈ hpSlots dim t k v f g, Sibling s s' → ∀ r, Recent o.medianN i r → ∃ x, past h s' r = some x ∧ a ≤ x ∧ x ≤ b) →
        L' ≤ b ∧ a ≤ U' ∧ a * (lo / hi) ^ frac ≤ L' ∧ U' ≤ b * (hi / lo) ^ frac) := by
    intro fld hfld hnt hu L U hL hU
    obtain ⟨L', U', he, h1, h2, h3, h4, h5⟩ := scalarRange_ok (vals := window (h.one fld) (i - o.medianN) i) hf h0 hlh
      (List.ne_nil_of_mem ((mem_window (hs.one fld) hin).mpr ⟨_, hl, rfl⟩)) (by
        intro w hw
        obtain ⟨r, hr1, rfl⟩ := (mem_window (hs.one fld) hin).mp hw
        obtain ⟨x, hx, hx0, -⟩ := hp hu s hm (.inl rfl) r hr1
        exact ⟨x, by rw [← hfld, hx], hx0⟩)
    rw [he] at hL hU
    refine ⟨L', U', hL, hU, h1, h2, h3, h4, fun h => absurd hu h, fun _ a b ha hb hab => h5 a b ha hb ?_⟩
    intro w hw
    obtain ⟨r, hr1, rfl⟩ := (mem_window (hs.one fld) hin).mp hw
    obtain ⟨x, hx, hx0⟩ := hab s hm (.inl rfl) r hr1
    exact ⟨x, by rw [← hfld, hx], hx0⟩
  cases s with
  | theta d =>
    rw [rangeOf, Option.some.injEq] at hr
    have htd := mem_hpSlots_theta.mp hm
    obtain ⟨L, U, he, h1, h2, h3, h4, h5⟩ := thetaRange_ok (vals := windowAll (h.two .theta) (i - o.medianN) i) hf h0 hlh
      (List.ne_nil_of_mem ((mem_windowAll (hs.two_r .theta) hin).mpr ⟨d, by rw [hs.theta]; exact htd.2, _, hl, rfl⟩)) (by
        intro w hw
        obtain ⟨d', hd', r, hr1, rfl⟩ := (mem_windowAll (hs.two_r .theta) hin).mp hw
        rw [hs.theta] at hd'
        obtain ⟨x, hx, -, hx0⟩ := hp trivial (.theta d') (mem_hpSlots_theta.mpr ⟨htd.1, hd'⟩) (.inr ⟨⟨_, rfl⟩, _, rfl⟩) r hr1
        exact ⟨x, hx, hx0 ⟨_, rfl⟩⟩)
    refine ⟨L, U, ?_, ?_, h1, h2, h3, h4, fun h => absurd trivial h, fun _ a b ha hb hab => h5 a b ha hb ?_⟩
    · simp only [SlotVals.at, boundVals, Option.getD_some, hr, he]
    · simp only [SlotVals.at, boundVals, Option.getD_some, hr, he]
    · intro w hw
      obtain ⟨d', hd', r, hr1, rfl⟩ := (mem_windowAll (hs.two_r .theta) hin).mp hw
      rw [hs.theta] at hd'
      exact hab (.theta d') (mem_hpSlots_theta.mpr ⟨htd.1, hd'⟩) (.inr ⟨⟨_, rfl⟩, _, rfl⟩) r hr1
  | kernel =>
    rw [rangeOf] at hr
    exact free (by simp [SlotVals.at, boundVals, hr]) (by simp [SlotVals.at, boundVals, hr]) (by simp [usesPast])
  | varK =>
    rw [rangeOf, Option.some.injEq] at hr
    by_cases hu : o.constN + 1 < i
    · exact scalar .varK (fun r => rfl) (by simp) hu (by simp [SlotVals.at, boundVals, hr, late, hu])
        (by simp [SlotVals.at, boundVals, hr, late, hu])
    · exact free (by simp [SlotVals.at, boundVals, hr, late, hu, scalarRange]) (by simp [SlotVals.at, boundVals, hr, late, hu, scalarRange]) hu
  | varFval =>
    rw [rangeOf, Option.some.injEq] at hr
    by_cases hu : o.constN + 1 < i
    · exact scalar .varFval (fun r => rfl) (by simp) hu (by simp [SlotVals.at, boundVals, hr, late, hu])
        (by simp [SlotVals.at, boundVals, hr, late, hu])
    · exact free (by simp [SlotVals.at, boundVals, hr, late, hu, scalarRange]) (by simp [SlotVals.at, boundVals, hr, late, hu, scalarRange]) hu
  | varFgrad =>
    rw [rangeOf, Option.some.injEq] at hr
    exact scalar .varFgrad (fun r => rfl) (by simp) trivial (by simp [SlotVals.at, boundVals, hr])
        (by simp [SlotVals.at, boundVals, hr])

/-- The bounds of each hyperparameter when past values do not count. -/
theorem boundVals_free {o : X0Opts} {h : Surr} {i : Option ℕ} {frac : ℝ} {s : Slot} {lo hi : ℝ} (hr : rangeOf o s = some (lo, hi)) :
    (boundVals o h false i frac Prod.fst).at s = some lo ∧ (boundVals o h false i frac Prod.snd).at s = some hi := by
  cases s <;> simp only [rangeOf, Option.some.injEq] at hr <;>
    simp [SlotVals.at, boundVals, hr, thetaRangeOld, scalarRange]

open Classical in
/-- From the bounds of each hyperparameter to the vectors that are returned. -/
theorem getHpBounds_ok {o : X0Opts} {h : Surr} {lo : LogOpts} {dim : ℕ} {t k v f g : Bool} {cstr : Bool} {i : Option ℕ} {frac : ℝ}
    (hc : checkOld (cstr && decide (i ≠ some 0)) i frac = .ok ()) {L U : Slot → ℝ}
    (hL : ∀ s ∈ hpSlots dim t k v f g, (boundVals o h (cstr && decide (i ≠ some 0)) i frac Prod.fst).at s = some (L s) ∧
      (boundVals o h (cstr && decide (i ≠ some 0)) i frac Prod.snd).at s = some (U s) ∧ 0 < L s ∧ L s < U s) :
    ∃ lb ub, getHpBounds o h (hpInfoOf lo dim t k v f g) cstr i frac = .ok (lb, ub) ∧ lb.n = (hpSlots dim t k v f g).length ∧
      ub.n = (hpSlots dim t k v f g).length ∧ ∀ p s, (hpSlots dim t k v f g)[p]? = some s →
        lb.get p = some (encoded lo s (L s)) ∧ ub.get p = some (encoded lo s (U s)) := by
  unfold getHpBounds
  dsimp only
  rw [hc, ok_bind]
  obtain ⟨w1, e1, n1, g1⟩ := fillHp_ok lo dim t k v f g (boundVals o h (cstr && decide (i ≠ some 0)) i frac Prod.fst)
  obtain ⟨w2, e2, n2, g2⟩ := fillHp_ok lo dim t k v f g (boundVals o h (cstr && decide (i ≠ some 0)) i frac Prod.snd)
  obtain ⟨x1, f1, m1, l1⟩ := logMasked_ok lo dim t k v f g n1
  obtain ⟨x2, f2, m2, l2⟩ := logMasked_ok lo dim t k v f g n2
  have c1 : noNaN w1 := by
    intro p hp
    rw [n1] at hp
    rw [g1 p _ (List.getElem?_eq_getElem hp), (hL _ (List.getElem_mem hp)).1]
    simp
  have c2 : noNaN w2 := by
    intro p hp
    rw [n2] at hp
    rw [g2 p _ (List.getElem?_eq_getElem hp), (hL _ (List.getElem_mem hp)).2.1]
    simp
  rw [e1, ok_bind, e2, ok_bind, pyAssert_true c1, ok_bind, pyAssert_true c2, ok_bind, f1, ok_bind, f2, ok_bind]
  refine ⟨x1, x2, rfl, m1.trans n1, m2.trans n2, fun p s hs => ?_⟩
  obtain ⟨h1, h2, h3, h4⟩ := hL s (List.mem_of_getElem? hs)
  exact ⟨l1 p s _ hs (by rw [g1 p s hs, h1]) h3, l2 p s _ hs (by rw [g2 p s hs, h2]) (h3.trans h4)⟩

theorem goodOpts_range {o : X0Opts} {kt : KType} (ho : GoodOpts o kt) {dim : ℕ} {t k v f g : Bool}
    (hk : k = true → kernelHasHp kt = true) {s : Slot} (hs : s ∈ hpSlots dim t k v f g) : GoodRange (rangeOf o s) := by
  cases s with
  | theta d => exact ⟨_, _, rfl, ho.theta⟩
  | varK => exact ⟨_, _, rfl, ho.varK⟩
  | varFval => exact ⟨_, _, rfl, ho.varFval⟩
  | varFgrad => exact ⟨_, _, rfl, ho.varFgrad⟩
  | kernel =>
    have : k = true := by
      cases t <;> cases k <;> cases v <;> cases f <;> cases g <;> simp [hpSlots] at hs ⊢
    have hkt := hk this
    rw [rangeOf, ho.kernel]
    cases kt <;> simp [kernelHasHp, hpKernelDefault] at hkt
    exact ⟨_, _, rfl, by norm_num [ratQuadRange], by norm_num [ratQuadRange]⟩

/-- A layout that was accepted. -/
theorem layout_of_ok {lo : LogOpts} {dim : ℕ} {kh kf kg t k v f g : Bool} {info : HpInfo}
    (hi : setHpOptzInfo lo dim kh kf kg t k v f g = .ok info) :
    info = hpInfoOf lo dim t k v f g ∧ (k = true → kh = true) := by
  have h : ¬ ((k = true ∧ kh = false) ∨ (f = true ∧ kf = true) ∨ (g = true ∧ kg = true)) := by
    intro h
    rw [Props.C54_rejects lo dim h] at hi
    cases hi
  push Not at h
  have h1 : k = true → kh = true := fun hk => by simpa using h.1 hk
  rw [setHpOptzInfo_ok lo dim h1 (fun hf => by simpa using h.2.1 hf) (fun hg => by simpa using h.2.2 hg)] at hi
  cases hi
  exact ⟨rfl, h1⟩

end GP

namespace Props

theorem encoded_lt (lo : LogOpts) (s : Slot) {x y : ℝ} (hx : 0 < x) (h : x < y) : encoded lo s x < encoded lo s y := by
  unfold encoded
  split
  · exact Real.logb_lt_logb (by norm_num) hx h
  · exact h

theorem encoded_le (lo : LogOpts) (s : Slot) {x y : ℝ} (hx : 0 < x) (h : x ≤ y) : encoded lo s x ≤ encoded lo s y := by
  rcases h.lt_or_eq with h | rfl
  · exact (encoded_lt lo s hx h).le
  · exact le_refl _

/-- **C56**, bounds without regard to the past (`cstr_w_old_hp` is false, or this is the first iteration): for every accepted
layout `get_hp_bounds` returns one pair per optimised hyperparameter, in layout order; the pair is the range given by the options
(for the kernel parameter: by the kernel), encoded as the optimiser's vector is, and lower < upper. -/
theorem C56_range_bounds {o : X0Opts} {kt : KType} (ho : GoodOpts o kt) (h : Surr) {lo : LogOpts} {dim : ℕ} {kf kg t k v f g : Bool}
    {info : HpInfo} (hi : setHpOptzInfo lo dim (kernelHasHp kt) kf kg t k v f g = .ok info) {cstr : Bool} {i : Option ℕ}
    (hc : cstr = false ∨ i = some 0) (frac : ℝ) :
    ∃ lb ub, getHpBounds o h info cstr i frac = .ok (lb, ub) ∧ lb.n = info.nHp ∧ ub.n = info.nHp ∧
      info.nHp = (hpSlots dim t k v f g).length ∧
      ∀ p s, (hpSlots dim t k v f g)[p]? = some s → ∃ r l u, rangeOf o s = some r ∧ lb.get p = some l ∧ ub.get p = some u ∧ l < u ∧
        natural lo s l = r.1 ∧ natural lo s u = r.2 := by
  obtain ⟨rfl, hk⟩ := layout_of_ok hi
  have hold : (cstr && decide (i ≠ some 0)) = false := by rcases hc with rfl | rfl <;> simp
  obtain ⟨lb, ub, he, h1, h2, h3⟩ := getHpBounds_ok (o := o) (h := h) (lo := lo) (dim := dim) (t := t) (k := k) (v := v) (f := f)
    (g := g) (cstr := cstr) (i := i) (frac := frac) (L := fun s => ((rangeOf o s).getD (0, 0)).1)
    (U := fun s => ((rangeOf o s).getD (0, 0)).2) (by rw [hold]; rfl) (by
      intro s hs
      obtain ⟨a, b, hr, h0, hab⟩ := goodOpts_range ho hk hs
      rw [hold, hr]
      exact ⟨(boundVals_free hr).1, (boundVals_free hr).2, h0, hab⟩)
  refine ⟨lb, ub, he, h1.trans (hpSlots_length ..), h2.trans (hpSlots_length ..), (hpSlots_length ..).symm, fun p s hs => ?_⟩
  obtain ⟨a, b, hr, h0, hab⟩ := goodOpts_range ho hk (List.mem_of_getElem? hs)
  obtain ⟨g1, g2⟩ := h3 p s hs
  rw [hr] at g1 g2
  exact ⟨(a, b), _, _, hr, g1, g2, encoded_lt lo s h0 hab, natural_encoded lo s h0, natural_encoded lo s (h0.trans hab)⟩

/-- **C56**, bounds around past values (`cstr_w_old_hp`, iteration `i ≥ 1` of a history with at least `i` rows): if the recent
values of the hyperparameters whose past counts are numbers, `get_hp_bounds` returns one pair per optimised hyperparameter, in layout
order, with lower < upper, within the range. Where the past does not count the pair is the range. Where it counts, and all recent
values are between `a` and `b` inside the range, the interval reaches down to at most `b` and up to at least `a`, and extends beyond
`a` and `b` by no more than the fraction `range_frac` of the logarithmic length of the range. -/
theorem C56_past_bounds {o : X0Opts} {kt : KType} (ho : GoodOpts o kt) {h : Surr} {lo : LogOpts} {dim nb n : ℕ}
    (hsz : Sized dim nb n h) {kf kg t k v f g : Bool} {info : HpInfo}
    (hi : setHpOptzInfo lo dim (kernelHasHp kt) kf kg t k v f g = .ok info) {i : ℕ} (hi1 : 1 ≤ i) (hin : i ≤ n) {frac : ℝ}
    (hf : 0 < frac) (hf1 : frac < 1)
    (hp : ∀ s ∈ hpSlots dim t k v f g, usesPast o.constN i s → PastOk h o.medianN i s) :
    ∃ lb ub, getHpBounds o h info true (some i) frac = .ok (lb, ub) ∧ lb.n = info.nHp ∧ ub.n = info.nHp ∧
      ∀ p s, (hpSlots dim t k v f g)[p]? = some s → ∃ r l u, rangeOf o s = some r ∧ lb.get p = some l ∧ ub.get p = some u ∧ l < u ∧
        r.1 ≤ natural lo s l ∧ natural lo s u ≤ r.2 ∧
        (¬ usesPast o.constN i s → natural lo s l = r.1 ∧ natural lo s u = r.2) ∧
        (usesPast o.constN i s → ∀ a b, r.1 ≤ a → b ≤ r.2 →
          (∀ s' ∈ hpSlots dim t k v f g, Sibling s s' → ∀ j, Recent o.medianN i j → ∃ x, past h s' j = some x ∧ a ≤ x ∧ x ≤ b) →
          natural lo s l ≤ b ∧ a ≤ natural lo s u ∧ a * (r.1 / r.2) ^ frac ≤ natural lo s l ∧
            natural lo s u ≤ b * (r.2 / r.1) ^ frac) := by
  obtain ⟨rfl, hk⟩ := layout_of_ok hi
  have hold : (true && decide (some i ≠ some 0)) = true := by simp; omega
  have hb : ∀ s : Slot, ∃ LU : ℝ × ℝ, s ∈ hpSlots dim t k v f g → ∃ r : ℝ × ℝ, rangeOf o s = some r ∧
      (boundVals o h true (some i) frac Prod.fst).at s = some LU.1 ∧ (boundVals o h true (some i) frac Prod.snd).at s = some LU.2 ∧
      0 < LU.1 ∧ LU.1 < LU.2 ∧ r.1 ≤ LU.1 ∧ LU.2 ≤ r.2 ∧ (¬ usesPast o.constN i s → LU.1 = r.1 ∧ LU.2 = r.2) ∧
      (usesPast o.constN i s → ∀ a b, r.1 ≤ a → b ≤ r.2 →
        (∀ s' ∈ hpSlots dim t k v f g, Sibling s s' → ∀ j, Recent o.medianN i j → ∃ x, past h s' j = some x ∧ a ≤ x ∧ x ≤ b) →
        LU.1 ≤ b ∧ a ≤ LU.2 ∧ a * (r.1 / r.2) ^ frac ≤ LU.1 ∧ LU.2 ≤ b * (r.2 / r.1) ^ frac) := by
    intro s
    by_cases hs : s ∈ hpSlots dim t k v f g
    · obtain ⟨a, b, hr, h0, hab⟩ := goodOpts_range ho hk hs
      obtain ⟨L, U, hLU⟩ := boundVals_past hsz hin hi1 ho.medianN hf hs hr h0 hab (by
        intro hu s' hs' hsib
        refine hp s' hs' ?_
        rcases hsib with rfl | ⟨-, d, rfl⟩
        · exact hu
        · exact trivial)
      exact ⟨(L, U), fun _ => ⟨(a, b), hr, hLU⟩⟩
    · exact ⟨(0, 0), fun h => absurd h hs⟩
  choose LU hLU using hb
  obtain ⟨lb, ub, he, h1, h2, h3⟩ := getHpBounds_ok (o := o) (h := h) (lo := lo) (dim := dim) (t := t) (k := k) (v := v) (f := f)
    (g := g) (cstr := true) (i := some i) (frac := frac) (L := fun s => (LU s).1) (U := fun s => (LU s).2)
    (by rw [hold]; simp [checkOld, hf, hf1, ok_bind, pure_eq_ok]) (by
      intro s hs
      obtain ⟨r, -, h1, h2, h3, h4, -⟩ := hLU s hs
      rw [hold]
      exact ⟨h1, h2, h3, h4⟩)
  refine ⟨lb, ub, he, h1.trans (hpSlots_length ..), h2.trans (hpSlots_length ..), fun p s hs => ?_⟩
  obtain ⟨r, hr, -, -, h4, h5, h6⟩ := hLU s (List.mem_of_getElem? hs)
  obtain ⟨g1, g2⟩ := h3 p s hs
  refine ⟨r, _, _, hr, g1, g2, encoded_lt lo s h4 h5, ?_⟩
  rw [natural_encoded lo s h4, natural_encoded lo s (h4.trans h5)]
  exact h6

theorem calcHpRange_none (frac lo hi : ℝ) : calcHpRange frac lo hi none = (none, none) := rfl

open Classical in
/-- **C56**, rejected calls: with `cstr_w_old_hp`, a fraction outside `(0, 1)` is an assertion error and a missing iteration number
a type error; and if some recent value of a hyperparameter whose past counts is NaN (an iteration that was never stored), the call
is an assertion error. -/
theorem C56_rejects {o : X0Opts} {h : Surr} {lo : LogOpts} {dim nb n : ℕ} (hsz : Sized dim nb n h) {kh kf kg t k v f g : Bool}
    {info : HpInfo} (hi : setHpOptzInfo lo dim kh kf kg t k v f g = .ok info) (frac : ℝ) :
    (∀ i, i ≠ some 0 → ¬ (0 < frac ∧ frac < 1) → getHpBounds o h info true i frac = .error .assertion) ∧
    (0 < frac → frac < 1 → getHpBounds o h info true none frac = .error .typeError) ∧
    (∀ i, 1 ≤ i → i ≤ n → 0 < frac → frac < 1 → ∀ s ∈ hpSlots dim t k v f g, usesPast o.constN i s →
      ∀ j, Recent o.medianN i j → past h s j = none → getHpBounds o h info true (some i) frac = .error .assertion) := by
  obtain ⟨rfl, hk⟩ := layout_of_ok hi
  refine ⟨fun i hi0 hf => ?_, fun hf hf1 => ?_, fun i hi1 hin hf hf1 s hs hu j hj hnone => ?_⟩
  · unfold getHpBounds
    simp [hi0, checkOld, hf, error_bind]
  · unfold getHpBounds
    simp [checkOld, hf, hf1, ok_bind, error_bind]
  · have hold : (true && decide (some i ≠ some 0)) = true := by simp; omega
    have hv : (boundVals o h true (some i) frac Prod.fst).at s = none := by
      have hsc : ∀ (fld : Fld1) (r : ℝ × ℝ), (h.one fld).get j = none →
          scalarRange true frac r (window (h.one fld) (i - o.medianN) i) = (none, none) := by
        intro fld r hn
        unfold scalarRange
        rw [if_pos rfl, median_none (.inr ((mem_window (hsz.one fld) hin).mpr ⟨j, hj, hn⟩))]
        rfl
      cases s with
      | theta d =>
        have hd := (mem_hpSlots_theta.mp hs).2
        simp only [SlotVals.at, boundVals, Option.getD_some, thetaRangeOld, if_true]
        rw [median_none (.inr (List.mem_map.mpr ⟨none, (mem_windowAll (hsz.two_r .theta) hin).mpr
          ⟨d, by rw [hsz.theta]; exact hd, j, hj, hnone⟩, rfl⟩))]
        rfl
      | kernel => exact absurd hu (by simp [usesPast])
      | varK =>
        have hu' : o.constN + 1 < i := hu
        simp only [SlotVals.at, boundVals, Option.getD_some, late, hu', decide_true, Bool.and_self]
        rw [hsc .varK _ hnone]
      | varFval =>
        have hu' : o.constN + 1 < i := hu
        simp only [SlotVals.at, boundVals, Option.getD_some, late, hu', decide_true, Bool.and_self]
        rw [hsc .varFval _ hnone]
      | varFgrad =>
        simp only [SlotVals.at, boundVals, Option.getD_some]
        rw [hsc .varFgrad _ hnone]
    unfold getHpBounds
    dsimp only
    rw [hold]
    obtain ⟨w1, e1, n1, g1⟩ := fillHp_ok lo dim t k v f g (boundVals o h true (some i) frac Prod.fst)
    obtain ⟨w2, e2, n2, g2⟩ := fillHp_ok lo dim t k v f g (boundVals o h true (some i) frac Prod.snd)
    obtain ⟨p, hp⟩ := List.mem_iff_getElem?.mp hs
    have hbad : ¬ noNaN w1 := fun hn => hn p (by rw [n1]; exact (List.getElem?_eq_some_iff.mp hp).1) (by rw [g1 p s hp, hv])
    have hck : checkOld true (some i) frac = .ok () := by simp [checkOld, hf, hf1, ok_bind, pure_eq_ok]
    rw [hck, ok_bind, e1, ok_bind, e2, ok_bind, pyAssert_false hbad, error_bind]

end Props

namespace GP

/-- The clamped median of past values. -/
theorem clampMed_ok {vals : List Fl} {lo hi : ℝ} (hlh : lo ≤ hi) (hne : vals ≠ [])
    (hv : ∀ v ∈ vals, ∃ x : ℝ, v = some x ∧ 0 ≤ x) :
    ∃ m, clampF (lo, hi) (median vals) = some m ∧ clampF (lo, hi) (fmax (some lo) (median vals)) = some m ∧ lo ≤ m ∧ m ≤ hi ∧
      ∀ a b, lo ≤ a → b ≤ hi → (∀ v ∈ vals, ∃ x, v = some x ∧ a ≤ x ∧ x ≤ b) → a ≤ m ∧ m ≤ b := by
  have hall : ∃ B, ∀ v ∈ vals, ∃ x, v = some x ∧ 0 ≤ x ∧ x ≤ B := by
    clear hne
    induction vals with
    | nil => exact ⟨0, by simp⟩
    | cons w l ih =>
      obtain ⟨B, hB⟩ := ih (fun v hvl => hv v (List.mem_cons_of_mem _ hvl))
      obtain ⟨x, hx, hx0⟩ := hv w List.mem_cons_self
      refine ⟨max B x, fun v hvm => ?_⟩
      rcases List.mem_cons.mp hvm with rfl | hvl
      · exact ⟨x, hx, hx0, le_max_right _ _⟩
      · obtain ⟨y, h1, h2, h3⟩ := hB v hvl
        exact ⟨y, h1, h2, h3.trans (le_max_left _ _)⟩
  obtain ⟨B, hB⟩ := hall
  obtain ⟨m, hm, -, -⟩ := median_hull hne hB
  rw [hm]
  refine ⟨min (max m lo) hi, rfl, ?_, le_min (le_max_right _ _) hlh, min_le_right _ _, fun a b ha hb hab => ?_⟩
  · simp [clampF, fmin, fmax, max_comm lo m]
  · obtain ⟨m', hm', h1, h2⟩ := median_hull hne hab
    rw [hm] at hm'; cases hm'
    rw [max_eq_left (ha.trans h1), min_eq_left (h2.trans hb)]
    exact ⟨h1, h2⟩

/-- The clamped medians of the hyperparameters. -/
theorem medVals_ok {o : X0Opts} {h : Surr} {dim nb n i : ℕ} {t k v f g : Bool} (hs : Sized dim nb n h)
    (hin : i ≤ n) (hi1 : 1 ≤ i) (hN : 1 ≤ o.medianN) {s : Slot} (hm : s ∈ hpSlots dim t k v f g)
    {lo hi : ℝ} (hr : rangeOf o s = some (lo, hi)) (hlh : lo ≤ hi) (hp : PastOk h o.medianN i s) :
    ∃ m, (medVals o h i).at s = some m ∧ lo ≤ m ∧ m ≤ hi ∧
      (∀ a b, lo ≤ a → b ≤ hi → (∀ j, Recent o.medianN i j → ∃ x, past h s j = some x ∧ a ≤ x ∧ x ≤ b) → a ≤ m ∧ m ≤ b) ∧
      ∀ side factor, (medBounds o h i side factor).at s = side (lo, hi) factor (some m) := by
  have hl := recent_last hN hi1
  have hsc : ∀ (fld : Fld1), (∀ r, past h s r = (h.one fld).get r) →
      ∃ m, clampF (lo, hi) (median (window (h.one fld) (i - o.medianN) i)) = some m ∧
        clampF (lo, hi) (fmax (some lo) (median (window (h.one fld) (i - o.medianN) i))) = some m ∧ lo ≤ m ∧ m ≤ hi ∧
        ∀ a b, lo ≤ a → b ≤ hi → (∀ j, Recent o.medianN i j → ∃ x, past h s j = some x ∧ a ≤ x ∧ x ≤ b) → a ≤ m ∧ m ≤ b := by
    intro fld hfld
    obtain ⟨m, h1, h2, h3, h4, h5⟩ := clampMed_ok (vals := window (h.one fld) (i - o.medianN) i) hlh
      (List.ne_nil_of_mem ((mem_window (hs.one fld) hin).mpr ⟨_, hl, rfl⟩)) (by
        intro w hw
        obtain ⟨r, hr1, rfl⟩ := (mem_window (hs.one fld) hin).mp hw
        obtain ⟨x, hx, hx0, -⟩ := hp r hr1
        exact ⟨x, by rw [← hfld, hx], hx0⟩)
    refine ⟨m, h1, h2, h3, h4, fun a b ha hb hab => h5 a b ha hb ?_⟩
    intro w hw
    obtain ⟨r, hr1, rfl⟩ := (mem_window (hs.one fld) hin).mp hw
    rw [← hfld]
    exact hab r hr1
  cases s with
  | theta d =>
    rw [rangeOf, Option.some.injEq] at hr
    obtain ⟨m, h1, -, h3, h4, h5⟩ := clampMed_ok (vals := windowCol (h.two .theta) (i - o.medianN) i d) hlh
      (List.ne_nil_of_mem ((mem_windowCol (hs.two_r .theta) hin).mpr ⟨_, hl, rfl⟩)) (by
        intro w hw
        obtain ⟨r, hr1, rfl⟩ := (mem_windowCol (hs.two_r .theta) hin).mp hw
        obtain ⟨x, hx, hx0, -⟩ := hp r hr1
        exact ⟨x, hx, hx0⟩)
    have hmv : (medVals o h i).theta d = some m := by simp only [medVals, hr, h1]
    refine ⟨m, hmv, h3, h4, fun a b ha hb hab => h5 a b ha hb ?_, fun side factor => ?_⟩
    · intro w hw
      obtain ⟨r, hr1, rfl⟩ := (mem_windowCol (hs.two_r .theta) hin).mp hw
      exact hab r hr1
    · simp only [SlotVals.at, medBounds, hmv, hr]
  | kernel =>
    rw [rangeOf] at hr
    obtain ⟨m, h1, -, h3, h4, h5⟩ := hsc .kernel (fun r => rfl)
    have hmv : (medVals o h i).kernel = some m := by simp [medVals, hr, h1]
    exact ⟨m, hmv, h3, h4, h5, fun side factor => by simp only [SlotVals.at, medBounds, hmv, hr]⟩
  | varK =>
    rw [rangeOf, Option.some.injEq] at hr
    obtain ⟨m, h1, -, h3, h4, h5⟩ := hsc .varK (fun r => rfl)
    have hmv : (medVals o h i).varK = some m := by simp only [medVals, hr, h1]
    exact ⟨m, hmv, h3, h4, h5, fun side factor => by simp only [SlotVals.at, medBounds, hmv, hr]⟩
  | varFval =>
    rw [rangeOf, Option.some.injEq] at hr
    obtain ⟨m, -, h1, h3, h4, h5⟩ := hsc .varFval (fun r => rfl)
    have hmv : (medVals o h i).varFval = some m := by simp only [medVals, hr, h1]
    exact ⟨m, hmv, h3, h4, h5, fun side factor => by simp only [SlotVals.at, medBounds, hmv, hr]⟩
  | varFgrad =>
    rw [rangeOf, Option.some.injEq] at hr
    obtain ⟨m, -, h1, h3, h4, h5⟩ := hsc .varFgrad (fun r => rfl)
    have hmv : (medVals o h i).varFgrad = some m := by simp only [medVals, hr, h1]
    exact ⟨m, hmv, h3, h4, h5, fun side factor => by simp only [SlotVals.at, medBounds, hmv, hr]⟩

/-- The bounds around a clamped median. -/
theorem med_bounds {lo hi m F : ℝ} (h0 : 0 < lo) (h1 : lo ≤ m) (h2 : m ≤ hi) (hF : 1 ≤ F) :
    ∃ L U, medLb (lo, hi) F (some m) = some L ∧ medUb (lo, hi) F (some m) = some U ∧ 0 < L ∧ L ≤ m ∧ m ≤ U ∧ lo ≤ L ∧ U ≤ hi ∧
      L = max (m / F) lo ∧ U = min (m * F) hi := by
  have hm : 0 < m := lt_of_lt_of_le h0 h1
  refine ⟨max (m / F) lo, min (m * F) hi, rfl, rfl, lt_max_of_lt_right h0, max_le (div_le_self hm.le hF) h1,
    le_min (le_mul_of_one_le_right hm.le hF) h2, le_max_right _ _, min_le_right _ _, rfl, rfl⟩

/-- One of the vectors of bounds, encoded. -/
theorem medVec_ok {o : X0Opts} {h : Surr} {lo : LogOpts} {dim i : ℕ} {t k v f g : Bool} {side : ℝ × ℝ → ℝ → Fl → Fl} {F : ℝ}
    {L : Slot → ℝ} (hL : ∀ s ∈ hpSlots dim t k v f g, (medBounds o h i side F).at s = some (L s) ∧ 0 < L s) :
    ∃ w w', fillHp (hpInfoOf lo dim t k v f g) (medBounds o h i side F) = .ok w ∧
      logMasked w (hpInfoOf lo dim t k v f g).logOptz = .ok w' ∧ w'.n = (hpSlots dim t k v f g).length ∧
      ∀ p s, (hpSlots dim t k v f g)[p]? = some s → w'.get p = some (encoded lo s (L s)) := by
  obtain ⟨w, e1, n1, g1⟩ := fillHp_ok lo dim t k v f g (medBounds o h i side F)
  obtain ⟨w', f1, m1, l1⟩ := logMasked_ok lo dim t k v f g n1
  refine ⟨w, w', e1, f1, m1.trans n1, fun p s hs => ?_⟩
  obtain ⟨h1, h2⟩ := hL s (List.mem_of_getElem? hs)
  exact l1 p s _ hs (by rw [g1 p s hs, h1]) h2

/-- An ordered pair of vectors passes the check. -/
theorem not_anyGt {a b : FVec} (h : ∀ p < a.n, ∃ x y, a.get p = some x ∧ b.get p = some y ∧ x ≤ y) : ¬ anyGt a b := by
  rintro ⟨p, hp, x, y, hx, hy, hlt⟩
  obtain ⟨x', y', h1, h2, h3⟩ := h p hp
  rw [hx] at h1; rw [hy] at h2
  cases h1; cases h2
  linarith

end GP

namespace Props

/-- **C57**, starting points: for every accepted layout with at least one hyperparameter, every history whose recent values are
numbers, and every sampling method that keeps its contract, `get_hp_x0_lhs_median` returns `n` rows of the right length; the box has
one pair per optimised hyperparameter, in layout order, within the range given by the options, and all rows lie in the box. The box
is around the past values: if all recent values are between `a` and `b` inside the range, it reaches down to at most `b`, up to at
least `a`, and no further than the box factor beyond them. -/
theorem C57_starting_points_partial {o : X0Opts} {kt : KType} (ho : GoodOpts o kt) (hF : 1 ≤ o.lhsFactor) (hFF : o.lhsFactor ≤ o.boxFactor)
    {h : Surr} {lhs : Sampler} (hl : SamplerOk lhs) {lo : LogOpts} {dim nb n : ℕ} (hsz : Sized dim nb n h) {kf kg t k v f g : Bool}
    {info : HpInfo} (hi : setHpOptzInfo lo dim (kernelHasHp kt) kf kg t k v f g = .ok info) (h1 : 1 ≤ info.nHp) {i : ℕ}
    (hi1 : 1 ≤ i) (hin : i ≤ n) (hp : ∀ s ∈ hpSlots dim t k v f g, PastOk h o.medianN i s) (rows : ℕ) :
    ∃ q, getHpX0 o h lhs i info rows = .ok q ∧ q.x0.r = rows ∧ q.x0.c = info.nHp ∧ q.lb.n = info.nHp ∧ q.ub.n = info.nHp ∧
      ∀ p s, (hpSlots dim t k v f g)[p]? = some s → ∃ r l u, rangeOf o s = some r ∧ q.lb.get p = some l ∧ q.ub.get p = some u ∧
        l ≤ u ∧ r.1 ≤ natural lo s l ∧ natural lo s u ≤ r.2 ∧
        (∀ j < rows, ∃ x, q.x0.get j p = some x ∧ l ≤ x ∧ x ≤ u) ∧
        ∀ a b, r.1 ≤ a → b ≤ r.2 → (∀ j, Recent o.medianN i j → ∃ x, past h s j = some x ∧ a ≤ x ∧ x ≤ b) →
          natural lo s l ≤ b ∧ a ≤ natural lo s u ∧ a / o.boxFactor ≤ natural lo s l ∧ natural lo s u ≤ b * o.boxFactor := by
  obtain ⟨rfl, hk⟩ := layout_of_ok hi
  have hFB : 1 ≤ o.boxFactor := hF.trans hFF
  have hn : (hpInfoOf lo dim t k v f g).nHp = (hpSlots dim t k v f g).length := (hpSlots_length ..).symm
  have hb : ∀ s : Slot, ∃ m : ℝ, s ∈ hpSlots dim t k v f g → ∃ r : ℝ × ℝ, rangeOf o s = some r ∧ 0 < r.1 ∧ r.1 ≤ m ∧ m ≤ r.2 ∧
      (∀ a b, r.1 ≤ a → b ≤ r.2 → (∀ j, Recent o.medianN i j → ∃ x, past h s j = some x ∧ a ≤ x ∧ x ≤ b) → a ≤ m ∧ m ≤ b) ∧
      ∀ side factor, (medBounds o h i side factor).at s = side r factor (some m) := by
    intro s
    by_cases hs : s ∈ hpSlots dim t k v f g
    · obtain ⟨a, b, hr, h0, hab⟩ := goodOpts_range ho hk hs
      obtain ⟨m, -, h2, h3, h4, h5⟩ := medVals_ok hsz hin hi1 ho.medianN hs hr hab.le (hp s hs)
      exact ⟨m, fun _ => ⟨(a, b), hr, h0, h2, h3, h4, h5⟩⟩
    · exact ⟨0, fun h => absurd h hs⟩
  choose m hm using hb
  set R : Slot → ℝ × ℝ := fun s => (rangeOf o s).getD (0, 0) with hR
  have lbOk : ∀ F, 1 ≤ F → ∀ s ∈ hpSlots dim t k v f g, (medBounds o h i medLb F).at s = some (max (m s / F) (R s).1) ∧
      0 < max (m s / F) (R s).1 := by
    intro F hF s hs
    obtain ⟨r, hr, h0, h2, h3, -, h5⟩ := hm s hs
    have hrr : R s = r := by rw [hR]; simp [hr]
    rw [h5, hrr]
    exact ⟨rfl, lt_max_of_lt_right h0⟩
  have ubOk : ∀ F, 1 ≤ F → ∀ s ∈ hpSlots dim t k v f g, (medBounds o h i medUb F).at s = some (min (m s * F) (R s).2) ∧
      0 < min (m s * F) (R s).2 := by
    intro F hF s hs
    obtain ⟨r, hr, h0, h2, h3, -, h5⟩ := hm s hs
    have hrr : R s = r := by rw [hR]; simp [hr]
    rw [h5, hrr]
    exact ⟨rfl, lt_min (mul_pos (by linarith) (by linarith)) (by linarith)⟩
  obtain ⟨w1, x1, e1, f1, n1, g1⟩ := medVec_ok (lo := lo) (lbOk o.lhsFactor hF)
  obtain ⟨w2, x2, e2, f2, n2, g2⟩ := medVec_ok (lo := lo) (ubOk o.lhsFactor hF)
  obtain ⟨w3, x3, e3, f3, n3, g3⟩ := medVec_ok (lo := lo) (lbOk o.boxFactor hFB)
  obtain ⟨w4, x4, e4, f4, n4, g4⟩ := medVec_ok (lo := lo) (ubOk o.boxFactor hFB)
  -- the order of the four bounds
  have ord : ∀ s ∈ hpSlots dim t k v f g,
      encoded lo s (max (m s / o.boxFactor) (R s).1) ≤ encoded lo s (max (m s / o.lhsFactor) (R s).1) ∧
      encoded lo s (max (m s / o.lhsFactor) (R s).1) ≤ encoded lo s (min (m s * o.lhsFactor) (R s).2) ∧
      encoded lo s (min (m s * o.lhsFactor) (R s).2) ≤ encoded lo s (min (m s * o.boxFactor) (R s).2) := by
    intro s hs
    obtain ⟨r, hr, h0, h2, h3, -, -⟩ := hm s hs
    have hrr : R s = r := by rw [hR]; simp [hr]
    have hm0 : 0 < m s := lt_of_lt_of_le h0 h2
    rw [hrr]
    refine ⟨encoded_le lo s (lt_max_of_lt_right h0) (max_le_max_right _ ?_), encoded_le lo s (lt_max_of_lt_right h0) ?_,
      encoded_le lo s (lt_min (mul_pos hm0 (by linarith)) (by linarith)) (min_le_min_right _ ?_)⟩
    · exact div_le_div_of_nonneg_left hm0.le (by linarith) hFF
    · exact (max_le (div_le_self hm0.le hF) h2).trans (le_min (le_mul_of_one_le_right hm0.le hF) h3)
    · exact mul_le_mul_of_nonneg_left hFF hm0.le
  have lhsOrd : ∀ p < x1.n, ∃ l u, x1.get p = some l ∧ x2.get p = some u ∧ l ≤ u := by
    intro p hp'
    rw [n1] at hp'
    have hs := List.getElem?_eq_getElem hp'
    exact ⟨_, _, g1 p _ hs, g2 p _ hs, (ord _ (List.getElem_mem hp')).2.1⟩
  have boxOrd : ∀ p < x3.n, ∃ l u, x3.get p = some l ∧ x4.get p = some u ∧ l ≤ u := by
    intro p hp'
    rw [n3] at hp'
    have hs := List.getElem?_eq_getElem hp'
    obtain ⟨o1, o2, o3⟩ := ord _ (List.getElem_mem hp')
    exact ⟨_, _, g3 p _ hs, g4 p _ hs, o1.trans (o2.trans o3)⟩
  have final : ∀ x0 : FMat, x0.r = rows → x0.c = (hpInfoOf lo dim t k v f g).nHp →
      (∀ j < rows, ∀ p < x1.n, ∃ x l u, x0.get j p = some x ∧ x1.get p = some l ∧ x2.get p = some u ∧ l ≤ x ∧ x ≤ u) →
      ∀ p s, (hpSlots dim t k v f g)[p]? = some s → ∃ r l u, rangeOf o s = some r ∧ x3.get p = some l ∧ x4.get p = some u ∧
        l ≤ u ∧ r.1 ≤ natural lo s l ∧ natural lo s u ≤ r.2 ∧
        (∀ j < rows, ∃ x, x0.get j p = some x ∧ l ≤ x ∧ x ≤ u) ∧
        ∀ a b, r.1 ≤ a → b ≤ r.2 → (∀ j, Recent o.medianN i j → ∃ x, past h s j = some x ∧ a ≤ x ∧ x ≤ b) →
          natural lo s l ≤ b ∧ a ≤ natural lo s u ∧ a / o.boxFactor ≤ natural lo s l ∧ natural lo s u ≤ b * o.boxFactor := by
    intro x0 hr0 hc0 hx p s hs
    have hsm := List.mem_of_getElem? hs
    obtain ⟨r, hr, h0, h2, h3, h4, -⟩ := hm s hsm
    have hrr : R s = r := by rw [hR]; simp [hr]
    have hm0 : 0 < m s := lt_of_lt_of_le h0 h2
    obtain ⟨o1, o2, o3⟩ := ord s hsm
    have nl : 0 < max (m s / o.boxFactor) (R s).1 := (lbOk o.boxFactor hFB s hsm).2
    have nu : 0 < min (m s * o.boxFactor) (R s).2 := (ubOk o.boxFactor hFB s hsm).2
    refine ⟨r, _, _, hr, g3 p s hs, g4 p s hs, o1.trans (o2.trans o3), ?_, ?_, fun j hj => ?_, fun a b ha hb' hab => ?_⟩
    · rw [natural_encoded lo s nl, hrr]; exact le_max_right _ _
    · rw [natural_encoded lo s nu, hrr]; exact min_le_right _ _
    · obtain ⟨x, l, u, hx1, hx2, hx3, hx4, hx5⟩ := hx j hj p (by rw [n1]; exact (List.getElem?_eq_some_iff.mp hs).1)
      rw [g1 p s hs] at hx2
      rw [g2 p s hs] at hx3
      cases hx2; cases hx3
      exact ⟨x, hx1, o1.trans hx4, hx5.trans o3⟩
    · obtain ⟨hma, hmb⟩ := h4 a b ha hb' hab
      rw [natural_encoded lo s nl, natural_encoded lo s nu, hrr]
      refine ⟨max_le ((div_le_self hm0.le hFB).trans hmb) (h2.trans hmb), le_min ?_ (hma.trans h3), ?_, ?_⟩
      · exact hma.trans (le_mul_of_one_le_right hm0.le hFB)
      · exact (div_le_div_of_nonneg_right hma (by linarith)).trans (le_max_left _ _)
      · exact (min_le_left _ _).trans (mul_le_mul_of_nonneg_right hmb (by linarith))
  unfold getHpX0
  rw [e1, ok_bind, e2, ok_bind, e3, ok_bind, e4, ok_bind, f1, ok_bind, f2, ok_bind, f3, ok_bind, f4, ok_bind,
    if_neg (not_anyGt lhsOrd), if_neg (not_anyGt boxOrd)]
  by_cases hone : x1.n = 1
  · rw [if_pos hone]
    have hlin : ∀ j < rows, ∀ p < x1.n, ∃ x l u, (linspaceInner (x1.get 0) (x2.get 0) rows).get j p = some x ∧ x1.get p = some l ∧
        x2.get p = some u ∧ l ≤ x ∧ x ≤ u := by
      intro j hj p hp'
      obtain rfl : p = 0 := by omega
      obtain ⟨l, u, hl1, hu1, hlu⟩ := lhsOrd 0 (by omega)
      refine ⟨l + (j + 1) * ((u - l) / (rows + 1)), l, u, by simp [linspaceInner, hl1, hu1], hl1, hu1, ?_, ?_⟩
      · have : 0 ≤ (u - l) / (rows + 1 : ℝ) := div_nonneg (by linarith) (by positivity)
        have : 0 ≤ ((j : ℝ) + 1) * ((u - l) / (rows + 1)) := mul_nonneg (by positivity) this
        linarith
      · have hq : ((j : ℝ) + 1) * ((u - l) / (rows + 1)) ≤ u - l := by
          rw [mul_div_assoc', div_le_iff₀ (by positivity), mul_comm]
          have : (j : ℝ) + 1 ≤ rows + 1 := by have : (j : ℝ) ≤ rows := by exact_mod_cast hj.le
                                              linarith
          exact mul_le_mul_of_nonneg_left this (by linarith)
        linarith
    have hc : (linspaceInner (x1.get 0) (x2.get 0) rows).c = (hpInfoOf lo dim t k v f g).nHp := by
      rw [hn, ← n1, hone]; rfl
    exact ⟨_, rfl, rfl, hc, n3.trans hn.symm, n4.trans hn.symm, final _ rfl hc hlin⟩
  · rw [if_neg hone]
    obtain ⟨hr', hc', hx⟩ := hl x1 x2 rows (by rw [hn] at h1; omega) (n2.trans n1.symm) lhsOrd
    exact ⟨_, rfl, hr', hc'.trans (n1.trans hn.symm), n3.trans hn.symm, n4.trans hn.symm,
      final _ hr' (hc'.trans (n1.trans hn.symm)) hx⟩

end Props

namespace GP

/-- A hyperparameter without a usable past has no median. -/
theorem medVals_none {o : X0Opts} {h : Surr} {dim nb n i : ℕ} {t k v f g : Bool} (hs : Sized dim nb n h) (hin : i ≤ n) {s : Slot}
    (hm : s ∈ hpSlots dim t k v f g) (hbad : i = 0 ∨ ∃ j, Recent o.medianN i j ∧ past h s j = none) :
    (medVals o h i).at s = none := by
  have hcl : ∀ r : ℝ × ℝ, clampF r none = none := fun _ => rfl
  have hfm : ∀ x : Fl, fmax x none = none := fun x => by cases x <;> rfl
  have hsc : ∀ fld, (∀ r, past h s r = (h.one fld).get r) → median (window (h.one fld) (i - o.medianN) i) = none := by
    intro fld hfld
    refine median_none ?_
    rcases hbad with rfl | ⟨j, hj, hn⟩
    · exact .inl (by simp [window])
    · exact .inr ((mem_window (hs.one fld) hin).mpr ⟨j, hj, by rw [← hfld, hn]⟩)
  cases s with
  | theta d =>
    simp only [SlotVals.at, medVals]
    rw [median_none, hcl]
    rcases hbad with rfl | ⟨j, hj, hn⟩
    · exact .inl (by simp [windowCol])
    · exact .inr ((mem_windowCol (hs.two_r .theta) hin).mpr ⟨j, hj, hn⟩)
  | kernel => simp only [SlotVals.at, medVals]; rw [hsc .kernel (fun _ => rfl)]; simp [hcl]
  | varK => simp only [SlotVals.at, medVals]; rw [hsc .varK (fun _ => rfl), hcl]
  | varFval => simp only [SlotVals.at, medVals]; rw [hsc .varFval (fun _ => rfl), hfm, hcl]
  | varFgrad => simp only [SlotVals.at, medVals]; rw [hsc .varFgrad (fun _ => rfl), hfm, hcl]

theorem logMasked_none {w w' : FVec} {m : List Bool} (h : logMasked w m = .ok w') {p : ℕ} (hp : w.get p = none) : w'.get p = none := by
  unfold logMasked at h
  split at h
  · cases h
    simp only [hp]
    split <;> rfl
  · cases h

/-! ### Selection -/

theorem getD_none_iff {l : List Fl} {i : ℕ} {x : ℝ} : l.getD i none = some x ↔ l[i]? = some (some x) := by
  rw [List.getD_eq_getElem?_getD]
  cases h : l[i]? with
  | none => simp
  | some v => simp

theorem nanArgmin_ok {l : List Fl} {i : ℕ} (h : nanArgmin l = .ok i) :
    ∃ x, l[i]? = some (some x) ∧ (∀ (j : ℕ) y, l[j]? = some (some y) → x ≤ y) ∧ ∀ j < i, ∀ y, l[j]? = some (some y) → x < y := by
  classical
  unfold nanArgmin at h
  set idx := (List.range l.length).filter fun i => (l.getD i none).isSome with hidx
  have hmem : ∀ (j : ℕ) y, l[j]? = some (some y) → j ∈ idx := by
    intro j y hj
    rw [hidx, List.mem_filter, List.mem_range]
    exact ⟨(List.getElem?_eq_some_iff.mp hj).1, by rw [getD_none_iff.mpr hj]; rfl⟩
  cases ha : idx.argmin fun i => (l.getD i none).getD 0 with
  | none => rw [ha] at h; cases h
  | some k =>
    rw [ha] at h
    cases h
    have hk := List.argmin_mem (f := fun i => (l.getD i none).getD 0) ha
    have hk' := hk
    rw [hidx, List.mem_filter] at hk'
    obtain ⟨x, hx⟩ := Option.isSome_iff_exists.mp hk'.2
    have hx' := getD_none_iff.mp hx
    refine ⟨x, hx', fun j y hj => ?_, fun j hji y hj => ?_⟩
    · have := List.le_of_mem_argmin (f := fun i => (l.getD i none).getD 0) (hmem j y hj) ha
      simp only [hx, getD_none_iff.mpr hj, Option.getD_some] at this
      exact this
    · by_contra hle
      push Not at hle
      have hidxle := List.index_of_argmin ha (hmem j y hj) (by
        simp only [hx, getD_none_iff.mpr hj, Option.getD_some]; exact hle)
      have hsorted : idx.Pairwise (· < ·) := by
        rw [hidx]; exact List.Pairwise.filter _ List.pairwise_lt_range
      have h1 : idx.idxOf i < idx.length := List.idxOf_lt_length_iff.mpr hk
      have h2 : idx.idxOf j < idx.length := List.idxOf_lt_length_iff.mpr (hmem j y hj)
      have g1 : idx[idx.idxOf i] = i := List.getElem_idxOf h1
      have g2 : idx[idx.idxOf j] = j := List.getElem_idxOf h2
      rcases hidxle.lt_or_eq with hlt | heq
      · have := List.pairwise_iff_getElem.mp hsorted _ _ h1 h2 hlt
        rw [g1, g2] at this
        omega
      · have : idx[idx.idxOf i] = idx[idx.idxOf j] := by congr 1
        rw [g1, g2] at this
        omega

theorem nanArgmin_error {l : List Fl} : (∃ e, nanArgmin l = .error e) ↔ ∀ v ∈ l, v = none := by
  classical
  unfold nanArgmin
  set idx := (List.range l.length).filter fun i => (l.getD i none).isSome with hidx
  have hnil : idx = [] ↔ ∀ v ∈ l, v = none := by
    rw [hidx, List.filter_eq_nil_iff]
    constructor
    · intro h v hv
      obtain ⟨j, hj⟩ := List.mem_iff_getElem?.mp hv
      have := h j (List.mem_range.mpr (List.getElem?_eq_some_iff.mp hj).1)
      rw [List.getD_eq_getElem?_getD, hj] at this
      simpa using this
    · intro h j hj
      rw [List.mem_range] at hj
      rw [List.getD_eq_getElem _ _ hj, h _ (List.getElem_mem hj)]
      simp
  rw [← hnil]
  cases ha : idx.argmin fun i => (l.getD i none).getD 0 with
  | none => exact ⟨fun _ => List.argmin_eq_none.mp ha, fun _ => ⟨_, rfl⟩⟩
  | some k =>
    constructor
    · rintro ⟨e, he⟩; cases he
    · intro h; rw [h] at ha; simp at ha

theorem nanArgmin_total (l : List Fl) : (∃ i, nanArgmin l = .ok i) ∨ nanArgmin l = .error .raised := by
  unfold nanArgmin
  split
  · exact .inl ⟨_, rfl⟩
  · exact .inr rfl

theorem nanArgmax_ok {l : List Fl} {i : ℕ} (h : nanArgmax l = .ok i) :
    ∃ x, l[i]? = some (some x) ∧ (∀ (j : ℕ) y, l[j]? = some (some y) → y ≤ x) ∧ ∀ j < i, ∀ y, l[j]? = some (some y) → y < x := by
  obtain ⟨x, h1, h2, h3⟩ := nanArgmin_ok h
  have tr : ∀ (j : ℕ) y, l[j]? = some (some y) → (l.map fun v => v.map fun x => -x)[j]? = some (some (-y)) := by
    intro j y hj; rw [List.getElem?_map, hj]; rfl
  rw [List.getElem?_map] at h1
  cases hi : l[i]? with
  | none => rw [hi] at h1; cases h1
  | some v =>
    rw [hi] at h1
    cases v with
    | none => cases h1
    | some y =>
      simp only [Option.map_some, Option.some.injEq] at h1
      refine ⟨y, rfl, fun j z hj => ?_, fun j hji z hj => ?_⟩
      · have := h2 j _ (tr j z hj); linarith
      · have := h3 j hji _ (tr j z hj); linarith

theorem nanArgmax_error {l : List Fl} : (∃ e, nanArgmax l = .error e) ↔ ∀ v ∈ l, v = none := by
  unfold nanArgmax
  rw [nanArgmin_error]
  simp only [List.mem_map, forall_exists_index, and_imp, forall_apply_eq_imp_iff₂, Option.map_eq_none_iff]

end GP

namespace Props

/-- **C57**, no usable past: in iteration 0, or if a recent value is NaN, the starting points are computed without an error and the
box of the hyperparameter is NaN on both sides: no starting point lies in it. -/
theorem C57_no_history {o : X0Opts} {h : Surr} {lhs : Sampler} {lo : LogOpts} {dim nb n : ℕ} (hsz : Sized dim nb n h)
    {kh kf kg t k v f g : Bool} {info : HpInfo} (hi : setHpOptzInfo lo dim kh kf kg t k v f g = .ok info) {i : ℕ} (hin : i ≤ n)
    {p : ℕ} {s : Slot} (hs : (hpSlots dim t k v f g)[p]? = some s)
    (hbad : i = 0 ∨ ∃ j, Recent o.medianN i j ∧ past h s j = none) {rows : ℕ} {q : StartPts}
    (hq : getHpX0 o h lhs i info rows = .ok q) : q.lb.get p = none ∧ q.ub.get p = none := by
  obtain ⟨rfl, hk⟩ := layout_of_ok hi
  have hmv := medVals_none (o := o) hsz hin (List.mem_of_getElem? hs) hbad
  have hv : ∀ F, (medBounds o h i medLb F).at s = none ∧ (medBounds o h i medUb F).at s = none := by
    intro F
    cases s <;> simp only [SlotVals.at] at hmv <;> simp only [SlotVals.at, medBounds, hmv]
    case kernel => cases o.kernelRange <;> exact ⟨rfl, rfl⟩
    all_goals exact ⟨rfl, rfl⟩
  unfold getHpX0 at hq
  obtain ⟨w1, e1, n1, g1⟩ := fillHp_ok lo dim t k v f g (medBounds o h i medLb o.lhsFactor)
  obtain ⟨w2, e2, n2, g2⟩ := fillHp_ok lo dim t k v f g (medBounds o h i medUb o.lhsFactor)
  obtain ⟨w3, e3, n3, g3⟩ := fillHp_ok lo dim t k v f g (medBounds o h i medLb o.boxFactor)
  obtain ⟨w4, e4, n4, g4⟩ := fillHp_ok lo dim t k v f g (medBounds o h i medUb o.boxFactor)
  obtain ⟨x1, f1, -⟩ := logMasked_ok lo dim t k v f g n1
  obtain ⟨x2, f2, -⟩ := logMasked_ok lo dim t k v f g n2
  obtain ⟨x3, f3, -⟩ := logMasked_ok lo dim t k v f g n3
  obtain ⟨x4, f4, -⟩ := logMasked_ok lo dim t k v f g n4
  have k3 := logMasked_none f3 (p := p) (by rw [g3 p s hs, (hv _).1])
  have k4 := logMasked_none f4 (p := p) (by rw [g4 p s hs, (hv _).2])
  rw [e1, ok_bind, e2, ok_bind, e3, ok_bind, e4, ok_bind, f1, ok_bind, f2, ok_bind, f3, ok_bind, f4, ok_bind] at hq
  split at hq
  · cases hq
  split at hq
  · cases hq
  split at hq <;> (cases hq; exact ⟨k3, k4⟩)

/-- **C58**, the selection: the run whose solution is returned is one of the runs, its objective (minus the log-likelihood) is a
number, it satisfies the limit on the condition number if any run does, and its objective is least among the runs that satisfy the
limit (among all runs, if none does). -/
theorem C58_best_run {useCstr : Bool} {condMax : ℝ} {runs : List Run} {r : Run} (h : pickBest useCstr condMax runs = .ok r) :
    r ∈ runs ∧ ((∃ q ∈ runs, GoodRun useCstr condMax q) → GoodRun useCstr condMax r) ∧
      ∃ x, r.obj = some x ∧ ∀ q ∈ runs, ((∃ q' ∈ runs, GoodRun useCstr condMax q') → GoodRun useCstr condMax q) →
        ∀ y, q.obj = some y → x ≤ y := by
  have hg : ∀ q : Run, conGood useCstr condMax q = true ↔ GoodRun useCstr condMax q := by
    intro q
    unfold conGood GoodRun
    cases useCstr with
    | false => simp
    | true => cases q.cond <;> simp
  have hany : runs.any (conGood useCstr condMax) = true ↔ ∃ q ∈ runs, GoodRun useCstr condMax q := by
    simp only [List.any_eq_true, hg]
  unfold pickBest at h
  dsimp only at h
  set sel := if runs.any (conGood useCstr condMax) then runs.filter (conGood useCstr condMax) else runs with hsel
  have hmem : ∀ q, q ∈ sel ↔ q ∈ runs ∧ ((∃ q' ∈ runs, GoodRun useCstr condMax q') → GoodRun useCstr condMax q) := by
    intro q
    rw [hsel, ← hany]
    split
    · next ht => rw [List.mem_filter, hg]; simp [ht]
    · next ht => simp [ht]
  cases hi : nanArgmin (sel.map Run.obj) with
  | error e => rw [hi] at h; cases h
  | ok i =>
    rw [hi, ok_bind] at h
    obtain ⟨x, h1, h2, -⟩ := nanArgmin_ok hi
    cases hsi : sel[i]? with
    | none => rw [hsi] at h; cases h
    | some q =>
      rw [hsi] at h
      cases h
      rw [List.getElem?_map, hsi] at h1
      simp only [Option.map_some, Option.some.injEq] at h1
      have hr := (hmem r).mp (List.mem_of_getElem? hsi)
      refine ⟨hr.1, hr.2, x, h1, fun q hq hqg y hy => ?_⟩
      obtain ⟨j, hj⟩ := List.mem_iff_getElem?.mp ((hmem q).mpr ⟨hq, hqg⟩)
      exact h2 j y (by rw [List.getElem?_map, hj, Option.map_some, hy])

/-- **C58**, failed runs: the selection raises exactly if the objective is NaN in all the runs that it considers — the ones that
satisfy the limit, if there are any, even if another run has an objective. -/
theorem C58_raises {useCstr : Bool} {condMax : ℝ} {runs : List Run} :
    (∃ e, pickBest useCstr condMax runs = .error e) ↔
      ∀ q ∈ runs, ((∃ q' ∈ runs, GoodRun useCstr condMax q') → GoodRun useCstr condMax q) → q.obj = none := by
  have hg : ∀ q : Run, conGood useCstr condMax q = true ↔ GoodRun useCstr condMax q := by
    intro q
    unfold conGood GoodRun
    cases useCstr with
    | false => simp
    | true => cases q.cond <;> simp
  have hany : runs.any (conGood useCstr condMax) = true ↔ ∃ q ∈ runs, GoodRun useCstr condMax q := by
    simp only [List.any_eq_true, hg]
  unfold pickBest
  dsimp only
  set sel := if runs.any (conGood useCstr condMax) then runs.filter (conGood useCstr condMax) else runs with hsel
  have hmem : ∀ q, q ∈ sel ↔ q ∈ runs ∧ ((∃ q' ∈ runs, GoodRun useCstr condMax q') → GoodRun useCstr condMax q) := by
    intro q
    rw [hsel, ← hany]
    split
    · next ht => rw [List.mem_filter, hg]; simp [ht]
    · next ht => simp [ht]
  have hall : (∀ q ∈ runs, ((∃ q' ∈ runs, GoodRun useCstr condMax q') → GoodRun useCstr condMax q) → q.obj = none) ↔
      ∃ e, nanArgmin (sel.map Run.obj) = .error e := by
    rw [nanArgmin_error]
    simp only [List.mem_map, forall_exists_index, and_imp, forall_apply_eq_imp_iff₂]
    exact ⟨fun h q hq => h q ((hmem q).mp hq).1 fun q' hq' hg' => ((hmem q).mp hq).2 ⟨q', hq', hg'⟩,
      fun h q hq hg' => h q ((hmem q).mpr ⟨hq, fun ⟨q', h1, h2⟩ => hg' q' h1 h2⟩)⟩
  rw [hall]
  cases hi : nanArgmin (sel.map Run.obj) with
  | error e => rw [error_bind]; simp
  | ok i =>
    rw [ok_bind]
    obtain ⟨x, h1, -⟩ := nanArgmin_ok hi
    cases hsi : sel[i]? with
    | none => rw [List.getElem?_map, hsi] at h1; cases h1
    | some q => simp [pure_eq_ok]

/-- **C58**, the optimisation: if no run raises, the stored vector is the solution of the best run started from one of the rows. -/
theorem C58_optimised {useCstr : Bool} {condMax : ℝ} {opt : FVec → Py Run} {x0 : FMat} {out : ℕ → Run}
    (hopt : ∀ k < x0.r, opt (x0.row k) = .ok (out k)) {sol : FVec} (h : optzMaxLkd useCstr condMax opt x0 = .ok sol) :
    ∃ k < x0.r, sol = (out k).sol ∧ ((∃ j < x0.r, GoodRun useCstr condMax (out j)) → GoodRun useCstr condMax (out k)) ∧
      ∃ x, (out k).obj = some x ∧ ∀ j < x0.r, ((∃ j' < x0.r, GoodRun useCstr condMax (out j')) → GoodRun useCstr condMax (out j)) →
        ∀ y, (out j).obj = some y → x ≤ y := by
  unfold optzMaxLkd at h
  have hm : (List.range x0.r).mapM (fun k => opt (x0.row k)) = .ok ((List.range x0.r).map out) := by
    have : ∀ l : List ℕ, (∀ k ∈ l, k < x0.r) → l.mapM (fun k => opt (x0.row k)) = .ok (l.map out) := by
      intro l
      induction l with
      | nil => intro _; rfl
      | cons a l ih =>
        intro hl
        rw [List.mapM_cons, hopt a (hl a List.mem_cons_self), ok_bind, ih (fun k hk => hl k (List.mem_cons_of_mem _ hk)), ok_bind]
        rfl
    exact this _ fun k hk => List.mem_range.mp hk
  rw [hm, ok_bind] at h
  cases hb : pickBest useCstr condMax ((List.range x0.r).map out) with
  | error e => rw [hb] at h; cases h
  | ok r =>
    rw [hb, ok_bind] at h
    cases h
    obtain ⟨h1, h2, x, h3, h4⟩ := C58_best_run hb
    obtain ⟨k, hk, rfl⟩ := List.mem_map.mp h1
    have hex : (∃ q ∈ (List.range x0.r).map out, GoodRun useCstr condMax q) ↔ ∃ j < x0.r, GoodRun useCstr condMax (out j) := by
      simp
    rw [hex] at h2
    refine ⟨k, List.mem_range.mp hk, rfl, h2, x, h3, fun j hj hjg y hy => ?_⟩
    exact h4 (out j) (List.mem_map.mpr ⟨j, List.mem_range.mpr hj, rfl⟩) (fun hq => hjg (hex.mp hq)) y hy

end Props

namespace GP

/-- The recorded pair of a starting point. -/
def recorded (out : ℕ → Bool × Fl × Fl) (k : ℕ) : Fl × Fl := if (out k).1 then ((out k).2.1, (out k).2.2) else (none, none)

theorem evalRows_ok {ev : Evaluator} {A : FMat} {out : ℕ → Bool × Fl × Fl} (h : ∀ k < A.r, ev (A.row k) = .ok (out k)) :
    evalRows ev A = .ok ((List.range A.r).map (recorded out)) := by
  unfold evalRows
  have : ∀ l : List ℕ, (∀ k ∈ l, k < A.r) → (l.mapM fun k => do
      let r ← ev (A.row k)
      pure (if r.1 then (r.2.1, r.2.2) else (none, none))) = (.ok (l.map (recorded out)) : Py (List (Fl × Fl))) := by
    intro l
    induction l with
    | nil => intro _; rfl
    | cons a l ih =>
      intro hl
      rw [List.mapM_cons, h a (hl a List.mem_cons_self), ok_bind, pure_eq_ok, ok_bind,
        ih (fun k hk => hl k (List.mem_cons_of_mem _ hk)), ok_bind]
      rfl
  exact this _ fun k hk => List.mem_range.mp hk

theorem tooBig_iff {condMax : ℝ} {c : Fl} : tooBig condMax c = true ↔ ∃ x, c = some x ∧ 1.2 * condMax < x := by
  unfold tooBig
  cases c <;> simp

/-- The likelihoods that are compared: those of the acceptable rows. -/
theorem pickStart_cases (calcCond : Bool) (condMax : ℝ) (n : ℕ) (out : ℕ → Bool × Fl × Fl) (hn : 0 < n) :
    ∃ F : ℕ → Fl, pickStart calcCond condMax ((List.range n).map (recorded out)) = nanArgmax ((List.range n).map F) ∧
      ∀ k < n, ∀ x, F k = some x ↔ Acceptable calcCond condMax n out k ∧ (out k).2.1 = some x := by
  have hrec1 : ∀ k x, (recorded out k).1 = some x ↔ (out k).1 = true ∧ (out k).2.1 = some x := by
    intro k x; unfold recorded; split <;> simp_all
  have hrec2 : ∀ k x, (recorded out k).2 = some x ↔ (out k).1 = true ∧ (out k).2.2 = some x := by
    intro k x; unfold recorded; split <;> simp_all
  unfold pickStart
  cases calcCond with
  | false =>
    refine ⟨fun k => (recorded out k).1, by simp [Function.comp_def], fun k hk x => ?_⟩
    rw [hrec1]
    unfold Acceptable
    simp
  | true =>
    simp only [if_true, List.map_map]
    set bad := (List.range n).map ((fun r : Fl × Fl => tooBig condMax r.2) ∘ recorded out) with hbad
    have hcount : bad.count true = bad.length ↔ ∀ k < n, (out k).1 = true ∧ ∃ c, (out k).2.2 = some c ∧ 1.2 * condMax < c := by
      rw [List.count_eq_length]
      constructor
      · intro h k hk
        have := h _ (List.mem_map.mpr ⟨k, List.mem_range.mpr hk, rfl⟩)
        obtain ⟨c, hc, hlt⟩ := tooBig_iff.mp this.symm
        obtain ⟨h1, h2⟩ := (hrec2 k c).mp hc
        exact ⟨h1, c, h2, hlt⟩
      · intro h b hb
        obtain ⟨k, hk, rfl⟩ := List.mem_map.mp hb
        obtain ⟨h1, c, h2, h3⟩ := h k (List.mem_range.mp hk)
        exact (tooBig_iff.mpr ⟨c, (hrec2 k c).mpr ⟨h1, h2⟩, h3⟩).symm
    by_cases hall : bad.count true = bad.length
    · rw [if_pos hall]
      have ha := hcount.mp hall
      have hj : ∃ j, nanArgmin ((List.range n).map (Prod.snd ∘ recorded out)) = .ok j := by
        rcases nanArgmin_total ((List.range n).map (Prod.snd ∘ recorded out)) with h | h
        · exact h
        · exfalso
          have hnone := nanArgmin_error.mp ⟨_, h⟩ _ (List.mem_map.mpr ⟨0, List.mem_range.mpr hn, rfl⟩)
          obtain ⟨h1, c, h2, -⟩ := ha 0 hn
          rw [Function.comp_apply, (hrec2 0 c).mpr ⟨h1, h2⟩] at hnone
          cases hnone
      obtain ⟨j, hj⟩ := hj
      rw [hj, ok_bind]
      obtain ⟨x, hx1, hx2, hx3⟩ := nanArgmin_ok hj
      have gm : ∀ (F : ℕ → Fl) (k : ℕ) (v : Fl), ((List.range n).map F)[k]? = some v ↔ k < n ∧ F k = v := by
        intro F k v
        rw [List.getElem?_map, Option.map_eq_some_iff]
        constructor
        · rintro ⟨a, h1, h2⟩
          obtain ⟨rfl, h3⟩ := range_getElem?.mp h1
          exact ⟨h3, h2⟩
        · rintro ⟨h1, h2⟩
          exact ⟨k, range_getElem?.mpr ⟨rfl, h1⟩, h2⟩
      obtain ⟨hjn, hjx⟩ := (gm _ _ _).mp hx1
      obtain ⟨-, hjc⟩ := (hrec2 j x).mp hjx
      refine ⟨fun k => if tooBig condMax (recorded out k).2 && k != j then none else (recorded out k).1, ?_, fun k hk y => ?_⟩
      · congr 1
        apply List.ext_getElem
        · simp
        · intro k h1 h2; simp
      · obtain ⟨hk1, c, hk2, hk3⟩ := ha k hk
        have htb : tooBig condMax (recorded out k).2 = true := tooBig_iff.mpr ⟨c, (hrec2 k c).mpr ⟨hk1, hk2⟩, hk3⟩
        simp only [htb, Bool.true_and, bne_iff_ne, ne_eq, ite_not]
        have hacc : Acceptable true condMax n out k ↔ k = j := by
          constructor
          · rintro ⟨-, h⟩
            rcases h rfl with h | ⟨-, h2, h3⟩
            · exact absurd (h c hk2) (by linarith)
            · rcases lt_trichotomy k j with hlt | heq | hgt
              · have e1 := hx3 k hlt c ((gm _ _ _).mpr ⟨hk, (hrec2 k c).mpr ⟨hk1, hk2⟩⟩)
                have e2 := h2 j hjn c x hk2 hjc
                linarith
              · exact heq
              · have e1 := hx2 k c ((gm _ _ _).mpr ⟨hk, (hrec2 k c).mpr ⟨hk1, hk2⟩⟩)
                have e2 := h2 j hjn c x hk2 hjc
                have : c = x := le_antisymm e2 e1
                subst this
                exact absurd (by rw [hjc, hk2]) (h3 j hgt)
          · rintro rfl
            refine ⟨hk1, fun _ => .inr ⟨ha, fun j' hj' c1 c2 h1 h2 => ?_, fun j' hj' heq => ?_⟩⟩
            · rw [hjc] at h1; cases h1
              exact hx2 j' c2 ((gm _ _ _).mpr ⟨hj', (hrec2 j' c2).mpr ⟨(ha j' hj').1, h2⟩⟩)
            · rw [hjc] at heq
              have := hx3 j' hj' x ((gm _ _ _).mpr ⟨hj'.trans hk, (hrec2 j' x).mpr ⟨(ha j' (hj'.trans hk)).1, heq⟩⟩)
              linarith
        rw [hacc]
        by_cases hkj : k = j
        · rw [if_pos hkj, hrec1]; simp [hkj, (ha j hjn).1]
        · simp [hkj]
    · rw [if_neg hall]
      refine ⟨fun k => if tooBig condMax (recorded out k).2 then none else (recorded out k).1, ?_, fun k hk y => ?_⟩
      · congr 1
      · have hacc : Acceptable true condMax n out k ↔ (out k).1 = true ∧ ¬ tooBig condMax (recorded out k).2 = true := by
          constructor
          · rintro ⟨h1, h⟩
            refine ⟨h1, fun ht => ?_⟩
            obtain ⟨c, hc, hlt⟩ := tooBig_iff.mp ht
            rcases h rfl with h | ⟨h, -⟩
            · have := h c ((hrec2 k c).mp hc).2; linarith
            · exact hall (hcount.mpr h)
          · rintro ⟨h1, h2⟩
            refine ⟨h1, fun _ => .inl fun c hc => ?_⟩
            by_contra hlt
            push Not at hlt
            exact h2 (tooBig_iff.mpr ⟨c, (hrec2 k c).mpr ⟨h1, hc⟩, hlt⟩)
        rw [hacc]
        by_cases ht : tooBig condMax (recorded out k).2 = true
        · simp [ht]
        · dsimp only; rw [if_neg ht, hrec1]; simp [ht]

end GP

namespace Props

/-- **C57**, `lhs`: all the rows are starting points. -/
theorem C57_lhs (o : X0Opts) (h : Surr) (lhs : Sampler) (ev : Evaluator) (n : ℕ) (calcCond : Bool) (condMax : ℝ) (i : ℕ)
    (info : HpInfo) : selectX0 o h lhs ev (.lhs n) calcCond condMax i info = getHpX0 o h lhs i info n := rfl

/-- **C57**, `hp_best`: with `out k` what the likelihood returns at row `k`, the call returns one starting point, and the same box.
The starting point is an acceptable row with a likelihood that is a number and greatest among the acceptable rows. -/
theorem C57_hp_best {o : X0Opts} {h : Surr} {lhs : Sampler} {ev : Evaluator} {n : ℕ} {calcCond : Bool} {condMax : ℝ} {i : ℕ}
    {info : HpInfo} {q : StartPts} (hq : getHpX0 o h lhs i info n = .ok q) (hr : q.x0.r = n) {out : ℕ → Bool × Fl × Fl}
    (hev : ∀ k < n, ev (q.x0.row k) = .ok (out k)) {q' : StartPts}
    (hq' : selectX0 o h lhs ev (.hpBest n) calcCond condMax i info = .ok q') :
    q'.lb = q.lb ∧ q'.ub = q.ub ∧ q'.x0.r = 1 ∧ q'.x0.c = q.x0.c ∧
      ∃ k < n, (∀ p, q'.x0.get 0 p = q.x0.get k p) ∧ Acceptable calcCond condMax n out k ∧
        ∃ x, (out k).2.1 = some x ∧ ∀ j < n, Acceptable calcCond condMax n out j → ∀ y, (out j).2.1 = some y → y ≤ x := by
  unfold selectX0 at hq'
  dsimp only at hq'
  rw [hq, ok_bind, evalRows_ok (out := out) (by rw [hr]; exact hev), ok_bind, hr] at hq'
  rcases Nat.eq_zero_or_pos n with rfl | hn
  · exfalso
    have : ∃ e, pickStart calcCond condMax [] = .error e := by
      cases calcCond
      · exact (nanArgmax_error (l := [])).mpr fun v hv => by cases hv
      · obtain ⟨e, he⟩ := (nanArgmin_error (l := [])).mpr fun v hv => by cases hv
        exact ⟨e, by simp [pickStart, he, error_bind]⟩
    obtain ⟨e, he⟩ := this
    simp only [List.range_zero, List.map_nil] at hq'
    rw [he] at hq'
    cases hq'
  obtain ⟨F, hF, hacc⟩ := pickStart_cases calcCond condMax n out hn
  rw [hF] at hq'
  cases hk : nanArgmax ((List.range n).map F) with
  | error e => rw [hk] at hq'; cases hq'
  | ok k =>
    rw [hk, ok_bind] at hq'
    cases hq'
    obtain ⟨x, h1, h2, -⟩ := nanArgmax_ok hk
    have gm : ∀ (k : ℕ) (v : Fl), ((List.range n).map F)[k]? = some v ↔ k < n ∧ F k = v := by
      intro k v
      rw [List.getElem?_map, Option.map_eq_some_iff]
      constructor
      · rintro ⟨a, h1, h2⟩
        obtain ⟨rfl, h3⟩ := range_getElem?.mp h1
        exact ⟨h3, h2⟩
      · rintro ⟨h1, h2⟩
        exact ⟨k, range_getElem?.mpr ⟨rfl, h1⟩, h2⟩
    obtain ⟨hkn, hkx⟩ := (gm _ _).mp h1
    obtain ⟨ha, hx⟩ := (hacc k hkn x).mp hkx
    exact ⟨rfl, rfl, rfl, rfl, k, hkn, fun _ => rfl, ha, x, hx,
      fun j hj hja y hy => h2 j y ((gm _ _).mpr ⟨hj, (hacc j hj y).mpr ⟨hja, hy⟩⟩)⟩

/-- **C57**, `hp_best` fails exactly if no acceptable row has a likelihood: for instance if the factorisation failed in some rows
and all the others exceed the limit on the condition number. -/
theorem C57_hp_best_raises {o : X0Opts} {h : Surr} {lhs : Sampler} {ev : Evaluator} {n : ℕ} {calcCond : Bool} {condMax : ℝ} {i : ℕ}
    {info : HpInfo} {q : StartPts} (hq : getHpX0 o h lhs i info n = .ok q) (hr : q.x0.r = n) (hn : 1 ≤ n) {out : ℕ → Bool × Fl × Fl}
    (hev : ∀ k < n, ev (q.x0.row k) = .ok (out k)) :
    (∃ e, selectX0 o h lhs ev (.hpBest n) calcCond condMax i info = .error e) ↔
      ∀ k < n, Acceptable calcCond condMax n out k → (out k).2.1 = none := by
  unfold selectX0
  dsimp only
  rw [hq, ok_bind, evalRows_ok (out := out) (by rw [hr]; exact hev), ok_bind, hr]
  obtain ⟨F, hF, hacc⟩ := pickStart_cases calcCond condMax n out hn
  rw [hF]
  have hkey : (∃ e, nanArgmax ((List.range n).map F) = .error e) ↔ ∀ k < n, Acceptable calcCond condMax n out k → (out k).2.1 = none := by
    rw [nanArgmax_error]
    constructor
    · intro hall k hk ha
      by_contra hne
      obtain ⟨x, hx⟩ := Option.ne_none_iff_exists'.mp hne
      have := hall (F k) (List.mem_map.mpr ⟨k, List.mem_range.mpr hk, rfl⟩)
      rw [(hacc k hk x).mpr ⟨ha, hx⟩] at this
      cases this
    · intro hall v hv
      obtain ⟨k, hk, rfl⟩ := List.mem_map.mp hv
      by_contra hne
      obtain ⟨x, hx⟩ := Option.ne_none_iff_exists'.mp hne
      obtain ⟨ha, hx'⟩ := (hacc k (List.mem_range.mp hk) x).mp hx
      rw [hall k (List.mem_range.mp hk) ha] at hx'
      cases hx'
  rw [← hkey]
  cases nanArgmax ((List.range n).map F) with
  | error e => rw [error_bind]; simp
  | ok k => rw [ok_bind, pure_eq_ok]; simp

/-! ### Non-trivial cases -/

/-- The default options (GaussianProcess.py:46-96) for the rational quadratic kernel. -/
def exX0Opts : X0Opts :=
  ⟨(1e-18, 1e24), (1e-24, 1e14), (1e-8, 1e8), (1e-8, 1e8), hpKernelRange .ratQuad, 5, 1, 1e3, 1e5⟩

example : GoodOpts exX0Opts .ratQuad :=
  ⟨by norm_num [exX0Opts], by norm_num [exX0Opts], by norm_num [exX0Opts], by norm_num [exX0Opts], rfl, by norm_num [exX0Opts]⟩

/-- A history of seven iterations with all entries one. -/
def exOnes : Surr := ⟨fun _ => ⟨7, fun _ => some 1⟩, fun _ => ⟨7, 2, fun _ _ => some 1⟩, ⟨7, fun _ => false⟩⟩

example : Sized 2 2 7 exOnes := ⟨fun _ => rfl, fun _ => rfl, rfl, rfl, rfl, rfl⟩

example : ∀ s ∈ hpSlots 2 true true true true true, PastOk exOnes 5 7 s := by
  intro s _ k _
  exact ⟨1, by cases s <;> rfl, by norm_num, fun _ => by norm_num⟩

/-- A sampling method that keeps its contract: it repeats the lower limits. -/
example : SamplerOk fun lb _ n => ⟨n, lb.n, fun _ p => lb.get p⟩ := by
  intro lb ub n _ _ h
  refine ⟨rfl, rfl, fun k _ p hp => ?_⟩
  obtain ⟨l, u, h1, h2, h3⟩ := h p hp
  exact ⟨l, l, u, h1, h1, h2, le_refl _, h3⟩

/-- Three runs: the best objective breaks the limit, the next is NaN, the last one is returned. -/
example : ∃ r, pickBest true 10 [⟨⟨0, fun _ => none⟩, some (-5), some 100⟩, ⟨⟨0, fun _ => none⟩, none, some 1⟩,
    ⟨⟨0, fun _ => none⟩, some 3, some 10⟩] = .ok r ∧ r.obj = some 3 := by
  have hne : ¬ ∃ e, pickBest true 10 [⟨⟨0, fun _ => none⟩, some (-5), some 100⟩, ⟨⟨0, fun _ => none⟩, none, some 1⟩,
    ⟨⟨0, fun _ => none⟩, some 3, some 10⟩] = .error e := by
    rw [C58_raises]
    intro h
    have := h _ (List.mem_cons_of_mem _ (List.mem_cons_of_mem _ (List.mem_cons_self))) fun _ _ => ⟨10, rfl, by norm_num⟩
    cases this
  cases hp : pickBest true 10 [⟨⟨0, fun _ => none⟩, some (-5), some 100⟩, ⟨⟨0, fun _ => none⟩, none, some 1⟩,
    ⟨⟨0, fun _ => none⟩, some 3, some 10⟩] with
  | error e => exact absurd ⟨e, hp⟩ hne
  | ok r =>
    obtain ⟨h1, h2, x, h3, -⟩ := C58_best_run hp
    refine ⟨r, rfl, ?_⟩
    have hg := h2 ⟨_, List.mem_cons_of_mem _ (List.mem_cons_of_mem _ List.mem_cons_self), fun _ => ⟨10, rfl, by norm_num⟩⟩ rfl
    obtain ⟨c, hc, hlt⟩ := hg
    simp only [List.mem_cons, List.not_mem_nil, or_false] at h1
    rcases h1 with rfl | rfl | rfl
    · cases hc; norm_num at hlt
    · cases h3
    · rfl

end Props
