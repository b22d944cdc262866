import Verif.Model.AcqPlot
import Verif.Props.Sweep

/-! Claim theorems for C133: the figure of a surrogate and two acquisition functions. -/

open Np GP Spec Matrix

noncomputable section

namespace Props

theorem argmin_some {s : FVec} (hn : 0 < s.n) {f : ℕ → ℝ} (hs : ∀ i < s.n, s.get i = some (f i)) :
    ∃ k, argminFl ((List.range s.n).map s.get) = .ok k ∧ k < s.n ∧ (∀ i < s.n, f k ≤ f i) ∧ ∀ i < k, f k < f i := by
  have hl : (List.range s.n).map s.get = (List.range s.n).map fun i => some (f i) :=
    List.map_congr_left fun i hi => hs i (List.mem_range.mp hi)
  have hg : ∀ i < s.n, ((List.range s.n).map fun i => some (f i))[i]? = some (some (f i)) := by
    intro i hi
    rw [List.getElem?_map, List.getElem?_range hi]; rfl
  unfold argminFl
  rw [hl]
  have h0 : ((List.range s.n).map fun i => some (f i)).findIdx? Option.isNone = none := by
    rw [List.findIdx?_eq_none_iff]
    intro x hx
    obtain ⟨i, -, rfl⟩ := List.mem_map.mp hx
    rfl
  rw [h0]
  dsimp only
  rcases nanArgmin_total ((List.range s.n).map fun i => some (f i)) with ⟨k, hk⟩ | he
  · obtain ⟨x, h1, h2, h3⟩ := nanArgmin_ok hk
    have hkn : k < s.n := by
      by_contra hcon
      rw [List.getElem?_eq_none (by simpa using hcon)] at h1
      cases h1
    rw [hg k hkn] at h1
    obtain rfl : f k = x := by simpa using h1
    exact ⟨k, hk, hkn, fun i hi => h2 i _ (hg i hi), fun i hi => h3 i hi _ (hg i (hi.trans hkn))⟩
  · have := (nanArgmin_error.mp ⟨_, he⟩) (some (f 0)) (List.mem_map.mpr ⟨0, List.mem_range.mpr hn, rfl⟩)
    cases this

theorem argmin_none {s : FVec} (hn : 0 < s.n) (hs : ∀ i < s.n, s.get i = none) : argminFl ((List.range s.n).map s.get) = .ok 0 := by
  unfold argminFl
  have : (List.range s.n).map s.get = none :: ((List.range (s.n - 1)).map fun i => s.get (i + 1)) := by
    obtain ⟨m, hm⟩ : ∃ m, s.n = m + 1 := ⟨s.n - 1, by omega⟩
    rw [hm, List.range_succ_eq_map, List.map_cons, hs 0 hn, List.map_map]
    rfl
  rw [this]
  rfl

/-- One column of the figure: it is drawn scaled to `[0, 1]` (scaling twice is scaling once), and the first smallest entry is marked. -/
theorem acqCol_ok {v : FVec} (hn : 0 < v.n) {f : ℕ → ℝ} (hv : ∀ i < v.n, v.get i = some (f i)) :
    ∃ w k, acqPlotCol v = .ok (w, k) ∧ w.n = v.n ∧ k < v.n ∧ (∀ i < v.n, f k ≤ f i) ∧ (∀ i < k, f k < f i) ∧
      ((∃ i < v.n, f i ≠ f 0) → ∃ a b, IsLeast (f '' Set.Iio v.n) a ∧ IsGreatest (f '' Set.Iio v.n) b ∧
        ∀ i < v.n, w.get i = some ((f i - a) / (b - a))) := by
  obtain ⟨s, -, s1, s2, -, -, -, -, -, s8, s9⟩ := scan_scl hn hv
  unfold acqPlotCol
  rw [s1, ok_bind]
  by_cases hc : ∃ i < v.n, f i ≠ f 0
  · obtain ⟨a, b, ha, hb, hs⟩ := s8 hc
    obtain ⟨p, hp, hpa⟩ := ha.1
    obtain ⟨q, hq, hqb⟩ := hb.1
    have hab : 0 < b - a := by
      obtain ⟨i, hi, hne⟩ := hc
      have h1 := ha.2 ⟨i, hi, rfl⟩
      have h2 := hb.2 ⟨i, hi, rfl⟩
      have h3 := ha.2 ⟨0, hn, rfl⟩
      have h4 := hb.2 ⟨0, hn, rfl⟩
      rcases lt_or_gt_of_ne hne with h | h <;> linarith
    have hsn : 0 < s.n := by rw [s2]; exact hn
    obtain ⟨w, y, e1, e2, e3, -, -, e6⟩ := C109_acquisition_scaled s hsn (fun i => (f i - a) / (b - a)) (fun i hi => hs i (s2 ▸ hi))
    have hset : {x : ℝ | some x ∈ (List.range s.n).map s.get} = (fun i => (f i - a) / (b - a)) '' Set.Iio v.n := by
      have hl : (List.range s.n).map s.get = (List.range s.n).map fun i => some ((f i - a) / (b - a)) :=
        List.map_congr_left fun i hi => hs i (s2 ▸ List.mem_range.mp hi)
      ext x
      show some x ∈ (List.range s.n).map s.get ↔ _
      rw [hl]
      simp [s2]
    have hmin : nanMinL ((List.range s.n).map s.get) = some 0 := by
      rw [nanMin_spec, hset]
      refine ⟨⟨p, hp, by simp only [hpa, sub_self, zero_div]⟩, ?_⟩
      rintro _ ⟨i, hi, rfl⟩
      exact div_nonneg (sub_nonneg.mpr (ha.2 ⟨i, hi, rfl⟩)) hab.le
    have hmax : nanMaxL ((List.range s.n).map s.get) = some 1 := by
      rw [nanMax_spec, hset]
      refine ⟨⟨q, hq, by simp only [hqb, div_self hab.ne']⟩, ?_⟩
      rintro _ ⟨i, hi, rfl⟩
      rw [div_le_one hab]
      exact sub_le_sub_right (hb.2 ⟨i, hi, rfl⟩) _
    have hany : ((List.range s.n).map s.get).any Option.isNone = false := by
      rw [List.any_eq_false]
      intro x hx
      obtain ⟨i, hi, rfl⟩ := List.mem_map.mp hx
      rw [hs i (s2 ▸ List.mem_range.mp hi)]; simp
    have hw : ∀ i < v.n, w.get i = some ((f i - a) / (b - a)) := by
      intro i hi
      unfold acqScl at e1
      rw [if_neg hsn.ne'] at e1
      simp only [hany, Bool.false_eq_true, if_false, hmin, hmax] at e1
      cases e1
      simp only [hs i hi, sub_zero]
      rw [show max (1e-8 : ℝ) 1 = 1 from max_eq_right (by norm_num), div_one]
    rw [e1, ok_bind]
    obtain ⟨k, k1, k2, k3, k4⟩ := argmin_some (s := w) (by rw [e2]; exact hsn) (f := fun i => (f i - a) / (b - a)) (fun i hi => hw i (by rw [e2, s2] at hi; exact hi))
    have hle : ∀ i j, (f i - a) / (b - a) ≤ (f j - a) / (b - a) ↔ f i ≤ f j := by
      intro i j
      rw [div_le_div_iff_of_pos_right hab, sub_le_sub_iff_right]
    refine ⟨w, k, by rw [k1]; rfl, e2.trans s2, by rw [e2, s2] at k2; exact k2, fun i hi => (hle k i).mp (k3 i (by rw [e2, s2]; exact hi)), fun i hi => ?_,
      fun _ => ⟨a, b, ha, hb, hw⟩⟩
    exact lt_of_not_ge fun hcon => absurd (k4 i hi) (not_lt.mpr ((hle i k).mpr hcon))
  · have hc' : ∀ i < v.n, f i = f 0 := fun i hi => by by_contra h; exact hc ⟨i, hi, h⟩
    have hs := s9 hc'
    have hsn : 0 < s.n := by rw [s2]; exact hn
    have hany : ((List.range s.n).map s.get).any Option.isNone = true := by
      rw [List.any_eq_true]
      exact ⟨none, List.mem_map.mpr ⟨0, List.mem_range.mpr hsn, hs 0 hn⟩, rfl⟩
    have e1 : acqScl s = .ok ⟨s.n, fun _ => none⟩ := by
      unfold acqScl
      rw [if_neg hsn.ne']
      simp only [hany, if_true]
    rw [e1, ok_bind, argmin_none (s := ⟨s.n, fun _ => none⟩) hsn (fun _ _ => rfl)]
    exact ⟨_, 0, rfl, s2, hn, fun i hi => (hc' i hi).ge, fun i hi => absurd hi (Nat.not_lt_zero _), fun h => absurd h hc⟩

/-- **C133.** The computations of the script for a one-dimensional function with noise-free data. The surrogate has the mean `β` and variance `v` that are most
likely for the given length scale, and it is the posterior for them on the grid. Of the two acquisition functions, the mean and the mean minus two
standard deviations, the marked positions are the first grid points where they are smallest, and they are drawn scaled to `[0, 1]`
(`NaN`, with the first point marked, if all values are equal). -/
theorem C133_acquisition_figure {g : Gp} (h : ScanOk g) (env : LkdEnv) {t : ℝ} (ht : 0 < t) {y : Vec g.nData} (hy : DataSpec g y) {X : Arr2} (hX : X.c = 1)
    (hXr : 0 < X.r) :
    ∃ (K : Mat g.nData g.nData) (η β v : ℝ) (out : EvalOut X.r g.dim) (w1 w2 : FVec) (k1 k2 : Fin X.r),
      acqRun g env ⟨1, fun _ => t⟩ X = .ok (out, (w1, k1), (w2, k2)) ∧ ScanFit g t y K η β v ∧ ScanPosterior g y t η K β v X out ∧
      (∀ a, out.mu k1 ≤ out.mu a) ∧ (∀ a < k1, out.mu k1 < out.mu a) ∧
      (∀ a, out.mu k2 - 2 * out.sig k2 ≤ out.mu a - 2 * out.sig a) ∧ (∀ a < k2, out.mu k2 - 2 * out.sig k2 < out.mu a - 2 * out.sig a) ∧
      ((∃ a b, out.mu a ≠ out.mu b) → ∃ lo hi, IsLeast (Set.range out.mu) lo ∧ IsGreatest (Set.range out.mu) hi ∧
        ∀ a : Fin X.r, w1.get a = some ((out.mu a - lo) / (hi - lo))) ∧
      ((∃ a b, out.mu a - 2 * out.sig a ≠ out.mu b - 2 * out.sig b) → ∃ lo hi, IsLeast (Set.range fun a => out.mu a - 2 * out.sig a) lo ∧
        IsGreatest (Set.range fun a => out.mu a - 2 * out.sig a) hi ∧ ∀ a : Fin X.r, w2.get a = some ((out.mu a - 2 * out.sig a - lo) / (hi - lo))) := by
  obtain ⟨li, K, η, β, v, l, e1, e2, e3, -, e5, e6, -⟩ := scan_entry h env ht hy
  obtain ⟨out, o1, o2⟩ := scan_surr h (theta := ⟨1, fun _ => t⟩) (beta := ⟨1, fun _ => β⟩) (varK := ⟨1, fun _ => some v⟩) (k := 0) ht e5 hy e6 rfl hX hXr
  have col : ∀ (c : ℝ) (f : Fin X.r → ℝ), (∀ a, acqUpperConf (out.mu a) (out.sig a) c = f a) → ∃ (w : FVec) (k : Fin X.r),
      acqPlotCol (acqColumn out c) = .ok (w, k) ∧ (∀ a, f k ≤ f a) ∧ (∀ a < k, f k < f a) ∧
      ((∃ a b, f a ≠ f b) → ∃ lo hi, IsLeast (Set.range f) lo ∧ IsGreatest (Set.range f) hi ∧ ∀ a : Fin X.r, w.get a = some ((f a - lo) / (hi - lo))) := by
    intro c f hf
    obtain ⟨w, k, w1, -, w3, w4, w5, w6⟩ := acqCol_ok (v := acqColumn out c) hXr (f := fun i => if h : i < X.r then f ⟨i, h⟩ else 0) (fun i hi => by
      have hi' : i < X.r := hi
      simp only [acqColumn, hi', dif_pos, hf])
    have w3' : k < X.r := w3
    have hset : (fun i => if h : i < X.r then f ⟨i, h⟩ else 0) '' Set.Iio (acqColumn out c).n = Set.range f := by
      ext x
      constructor
      · rintro ⟨i, hi, rfl⟩
        have hi' : i < X.r := hi
        exact ⟨⟨i, hi'⟩, by simp only [hi', dif_pos]⟩
      · rintro ⟨a, rfl⟩
        exact ⟨a, a.2, by simp only [a.2, dif_pos]⟩
    refine ⟨w, ⟨k, w3'⟩, w1, fun a => ?_, fun a ha => ?_, fun ⟨a, b, hab⟩ => ?_⟩
    · have := w4 a a.2
      simpa only [w3', a.2, dif_pos] using this
    · have := w5 a ha
      simpa only [w3', a.2, dif_pos] using this
    · obtain ⟨lo, hi, z1, z2, z3⟩ := w6 (by
        by_contra hcon
        push Not at hcon
        have ea := hcon a a.2
        have eb := hcon b b.2
        simp only [a.2, b.2, dif_pos] at ea eb
        exact hab (ea.trans eb.symm))
      rw [hset] at z1 z2
      refine ⟨lo, hi, z1, z2, fun a => ?_⟩
      have := z3 a a.2
      simpa only [a.2, dif_pos] using this
  obtain ⟨w1, k1, p1, p2, p3, p4⟩ := col 0 out.mu (fun a => by unfold acqUpperConf; ring)
  obtain ⟨w2, k2, q1, q2, q3, q4⟩ := col 2 (fun a => out.mu a - 2 * out.sig a) (fun a => rfl)
  refine ⟨K, η, β, v, out, w1, w2, k1, k2, ?_, e5, o2, p2, p3, q2, q3, p4, q4⟩
  unfold acqRun
  have e1' : calcLkdAll g env { theta := some ⟨1, fun _ => t⟩ } true false = .ok (li, true) := e1
  rw [e1', ok_bind]
  simp only [e2, need, ok_bind, e3]
  unfold pickSurr at o1
  have o1' : (do
      let st ← setupEvalModel g { beta := some ⟨1, fun _ => β⟩, theta := some ⟨1, fun _ => t⟩, varK := some v } false
      evalModel g st { beta := some ⟨1, fun _ => β⟩, theta := some ⟨1, fun _ => t⟩, varK := some v } X true false) = .ok out := o1
  cases hst : setupEvalModel g { beta := some ⟨1, fun _ => β⟩, theta := some ⟨1, fun _ => t⟩, varK := some v } false with
  | error e => rw [hst] at o1'; cases o1'
  | ok st =>
    rw [hst, ok_bind] at o1'
    simp only [ok_bind, o1', p1, q1]
    rfl

-- two evaluations with gradients, any positive length scale, a grid of five points
example (env : LkdEnv) {t : ℝ} (ht : 0 < t) {y : Vec exGpScan.nData} (hy : DataSpec exGpScan y) :=
  C133_acquisition_figure exScan_ok env ht hy (X := ⟨5, 1, fun p _ => p⟩) rfl (by norm_num)

end Props
