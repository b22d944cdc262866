import Verif.Props.OptzHp
import Verif.Props.ScaledData
import Verif.Props.HpX0

/-! The second run of the optimiser in the rescaling method: C93. -/

open Np GP Spec

noncomputable section

namespace Props

/-- The starting point of the second run, the scaling afterwards, and the result as a function of the outcome of the second run. -/
theorem secondIter {o : RescaleOpts} {s : Scl} {best : Arr1} (hR : RescaleReady o s best) (hit : 2 ≤ o.maxIter) (htol : 0 < o.tol)
    (hspread : o.tol ≤ logSpread o.dim (thetaOf o.log best)) :
    ∃ (t t2 : ℝ) (y : Arr1) (s' : Scl) (F : Arr1 → Py Arr1), 0 < t ∧ 0 < t2 ∧ y.n = best.n ∧ (∀ i, o.dim ≤ i → y.get i = best.get i) ∧
      (∀ d < o.dim, thetaOf o.log y d = t) ∧
      IsMinDist (stretched s.xScl fun d => Real.sqrt (thetaOf o.log best d / t)) (calcVreq s.xInit.r o.dim) ∧
      (∀ b, o.dim ≤ b.n → ∃ hp, F b = .ok hp ∧ hp.n = b.n ∧ (∀ i, o.dim ≤ i → hp.get i = b.get i) ∧ ∀ d < o.dim, thetaOf o.log hp d = t2) ∧
      ∀ (opt : ℕ → Arr1 → Py Arr1) (x0 : Arr1), opt 0 x0 = .ok best → optzRescale o opt x0 s =
        (match opt 1 y with
          | .error e => (s, .error e)
          | .ok b => match F b with | .error e => (s, .error e) | .ok hp => (s', .ok hp)) := by
  obtain ⟨th, r, w, t, h1, h2, ht, h3, h4, h5, h6, h7, h8⟩ := firstIter hR
  have hgm := geoMean_const hR.dim_pos (θ := fun _ => t) ht (fun _ _ => rfl)
  obtain ⟨r2, w2, t2, g1, gt, g2, g3, g4, g5, g6, g7⟩ := iter_ok hR.images hR.two hR.dim hR.dim_pos (theta := r.theta) (θ := fun _ => t)
    h3 h5 (fun _ _ => ht) (by
      intro p hp q hq hpq
      refine (hR.sep0 p hp q hq hpq).trans_eq ?_
      unfold ptDist stretched
      refine congrArg Real.sqrt (Finset.sum_congr rfl fun d _ => ?_)
      dsimp only
      rw [hgm, div_self ht.ne', Real.sqrt_one, mul_one, mul_one])
  rw [logSpread_const hR.dim_pos (t := t) (fun _ _ => rfl)] at g7
  obtain ⟨m, hm⟩ : ∃ m, o.maxIter = m + 2 := ⟨o.maxIter - 2, by omega⟩
  obtain ⟨x1, q1, q2, q3, q4⟩ := putIdx_range hR.best_n h3
  rw [← hR.idx] at q1
  have hamin : List.argmin (fun i : RescaleOut => i.dist) [r, r2] = some r2 := by
    show List.argmin _ ([r] ++ [r2]) = _
    rw [List.argmin_concat, List.argmin_singleton]
    simp only [Option.elim_some]
    rw [if_pos (by rw [g7, h8]; linarith)]
  obtain ⟨s', e1, e2, e3, e4⟩ := install_ok hR g3 (fun d hd => ⟨(g5 d hd).1, (g5 d hd).2.1⟩) g6
  refine ⟨t, t2, x1, s', fun b => putIdx b o.idxTheta r2.theta, ht, gt, q2, q4, fun d hd => ?_, ?_, fun b hb => ?_, fun opt x0 hopt => ?_⟩
  · rw [← h5 d hd, ← q3 d hd]; rfl
  · have : ∀ d < s.xScl.c, w d = Real.sqrt (thetaOf o.log best d / t) := by
      intro d hd
      rw [hR.images.x.2.1, hR.dim] at hd
      rw [← (h6 d hd).2.2, mul_comm, mul_div_assoc, div_self ht.ne', mul_one, Real.sqrt_sq (h6 d hd).1.le]
    obtain ⟨⟨a, ha, b, hb, hab, hD⟩, k2⟩ := h7
    refine ⟨⟨a, ha, b, hb, hab, ?_⟩, fun a ha b hb hab => ?_⟩
    · rw [← hD]; exact (ptDist_congr this a b).symm
    · exact (k2 a ha b hb hab).trans_eq (ptDist_congr this a b)
  · obtain ⟨hp', k1, k2, k3, k4⟩ := putIdx_range hb g2
    rw [← hR.idx] at k1
    exact ⟨hp', k1, k2, k4, fun d hd => by rw [← g4 d hd, ← k3 d hd]; rfl⟩
  · have hloop : rescaleLoop o opt s o.maxIter th best [] = (opt 1 x1).bind fun b => .ok (b, [r, r2]) := by
      rw [hm]
      unfold rescaleLoop
      rw [h2]
      simp only [ok_bind, List.nil_append]
      rw [if_neg (by push Not; exact ⟨by omega, by rw [h8]; exact hspread⟩), q1]
      simp only [ok_bind, List.length_singleton]
      cases hb : opt 1 x1 with
      | error e => rfl
      | ok b =>
        simp only [ok_bind]
        unfold rescaleLoop
        rw [g1]
        simp only [ok_bind]
        rw [if_pos (by right; rw [g7]; exact htol)]
        rfl
    unfold optzRescale
    rw [hopt]
    simp only
    rw [if_pos (by have := hR.two; omega)]
    cases hb : opt 1 x1 with
    | error e =>
      have : rescaleHp o opt s best = .error e := by
        unfold rescaleHp
        rw [h1]
        simp only [ok_bind]
        rw [hloop, hb]
        rfl
      rw [this]
    | ok b =>
      have : rescaleHp o opt s best = (putIdx b o.idxTheta r2.theta).bind fun hp => .ok (r2.scale, hp) := by
        unfold rescaleHp
        rw [h1]
        simp only [ok_bind]
        rw [hloop, hb]
        show (match List.argmin (fun i : RescaleOut => i.dist) [r, r2] with | none => _ | some i => _) = _
        rw [hamin]
        rfl
      rw [this]
      cases hp : putIdx b o.idxTheta r2.theta with
      | error e => simp only [hp]; rfl
      | ok v =>
        simp only [hp]
        show (match setXscale none (some r2.scale) s with | (s', .ok ()) => _ | (s', .error e) => _) = _
        rw [e1]

/-- A vector of numbers as a starting point. -/
def startAt (y : Arr1) : FVec := ⟨y.n, fun d => some (y.get d)⟩

theorem runOptz_one {o : GpObj} {q : Oracle} {k : ℕ} {y : Arr1} : runOptz o q k (oneRow y) =
    (q.opt k (startAt y)).bind fun r => (pickBest o.useCstr o.st.condMax [r]).bind fun r => numsOr r.sol := by
  unfold runOptz optzMaxLkd oneRow startAt
  simp only [List.range_one, List.mapM_cons, List.mapM_nil, FMat.row]
  cases q.opt k ⟨y.n, fun d => some (y.get d)⟩ with
  | error e => rfl
  | ok r =>
    show Except.bind (Except.bind (pickBest o.useCstr o.st.condMax [r]) fun r => .ok r.sol) (fun v => numsOr v) =
      (pickBest o.useCstr o.st.condMax [r]).bind fun r => numsOr r.sol
    cases pickBest o.useCstr o.st.condMax [r] <;> rfl

theorem pickBest_single {u : Bool} {c : ℝ} {r : Run} (h : r.obj.isSome) : pickBest u c [r] = .ok r := by
  cases hp : pickBest u c [r] with
  | error e =>
    have := C58_raises.mp ⟨e, hp⟩ r (by simp) (fun ⟨q, hq, hg⟩ => by simp only [List.mem_singleton] at hq; rwa [hq] at hg)
    rw [this] at h; cases h
  | ok b =>
    have := (C58_best_run hp).1
    simp only [List.mem_singleton] at this
    rw [this]

/-- **C93** (the second run): with a rescaling method, at least two iterations and a positive tolerance, if the first run of the
optimiser (from all starting points) ends at length scales whose spread is at least the tolerance, then the optimiser is run again
from one point: the length scales are all replaced by the same value `t`, the one for which moving `theta / t` into the (scaled)
points gives these the required distance, and every other hyperparameter has the value found by the first run. If that run raises, so
does the call, and the object is unchanged; otherwise the hyperparameters returned are those found by the second run except that
`theta` is constant. A concrete case that meets the hypotheses is
`exWarm` in `Props/ScaledLoop`. -/
theorem C93_second_run {c : OptzCfg} {q : Oracle} {o : GpObj} {g : Gp} {info : HpInfo} {x0 : FMat} {s : Scl} {best : Arr1}
    (hm : o.mtd.rescales = true) (hit : 2 ≤ c.maxIter) (htol : 0 < c.tol) (hs : o.scl = some s)
    (hR : RescaleReady (o.rescaleOpts c info) s best) (h1 : runOptz o q 0 x0 = .ok best)
    (hspread : c.tol ≤ logSpread o.st.dim (thetaOf o.st.log.theta best)) :
    ∃ (y : Arr1) (t : ℝ), 0 < t ∧ y.n = best.n ∧ (∀ i, o.st.dim ≤ i → y.get i = best.get i) ∧
      (∀ d < o.st.dim, thetaOf o.st.log.theta y d = t) ∧
      IsMinDist (stretched s.xScl fun d => Real.sqrt (thetaOf o.st.log.theta best d / t)) (reqVmin s.xInit.r o.st.dim) ∧
      (∀ e, q.opt 1 (startAt y) = .error e → optzVec c q o g info x0 = (o, .error e)) ∧
      (∀ r b, q.opt 1 (startAt y) = .ok r → r.obj.isSome → r.sol.nums = some b → o.st.dim ≤ b.n →
        ∃ s' hp t', optzVec c q o g info x0 = ({ o with scl := some s' }, .ok (hp, q.cond)) ∧ hp.n = b.n ∧
          (∀ i, o.st.dim ≤ i → hp.get i = b.get i) ∧ ∀ d < o.st.dim, thetaOf o.st.log.theta hp d = t') := by
  obtain ⟨t, t2, y, s', F, k1, k2, k3, k4, k5, k6, k7, k8⟩ := secondIter hR hit htol hspread
  refine ⟨y, t, k1, k3, k4, k5, ?_, fun e he => ?_, fun r b hr hobj hb hbn => ?_⟩
  · rw [← reqVmin_eq hR.two]; exact k6
  · have := k8 (rescaleOpt o q x0) ⟨0, fun _ => 0⟩ (by unfold rescaleOpt; rw [if_pos rfl, h1])
    have h2 : rescaleOpt o q x0 1 y = .error e := by
      unfold rescaleOpt; rw [if_neg one_ne_zero, runOptz_one, he]; rfl
    rw [h2] at this
    unfold optzVec
    rw [hm, hs, decide_eq_true (by omega : 1 < c.maxIter)]
    simp only [Bool.and_self, if_true]
    rw [this]
    show ({ o with scl := some s }, _) = _
    rw [← hs]
  · have := k8 (rescaleOpt o q x0) ⟨0, fun _ => 0⟩ (by unfold rescaleOpt; rw [if_pos rfl, h1])
    have h2 : rescaleOpt o q x0 1 y = .ok b := by
      unfold rescaleOpt; rw [if_neg one_ne_zero, runOptz_one, hr]
      show (pickBest o.useCstr o.st.condMax [r]).bind _ = _
      rw [pickBest_single hobj]
      show numsOr r.sol = _
      unfold numsOr; rw [hb]
    obtain ⟨hp, m1, m2, m3, m4⟩ := k7 b hbn
    rw [h2] at this
    simp only [m1] at this
    refine ⟨s', hp, t2, ?_, m2, m3, m4⟩
    unfold optzVec
    rw [hm, hs, decide_eq_true (by omega : 1 < c.maxIter)]
    simp only [Bool.and_self, if_true]
    rw [this]

/-- **C93** (no other run): the starting point `y` of the second run is the only one that matters: whatever the optimiser would do
from any other point in a second run, or in any later one, `optz_hp` has the same outcome and leaves the same object. -/
theorem C93_no_other_run {c : OptzCfg} {q : Oracle} {i : ℕ} {s : Session} {g : Gp} {info : HpInfo} {p : StartPts} {scl : Scl} {best : Arr1}
    (hg : s.obj.view = .ok g) (hn : s.obj.st.constN < s.obj.nEval) (hi : s.obj.info = some info) (hp : startPts c q i s g info = .ok p)
    (hm : s.obj.mtd.rescales = true) (hit : 2 ≤ c.maxIter) (htol : 0 < c.tol) (hs : s.obj.scl = some scl)
    (hR : RescaleReady (s.obj.rescaleOpts c info) scl best) (h1 : runOptz s.obj q 0 p.x0 = .ok best)
    (hspread : c.tol ≤ logSpread s.obj.st.dim (thetaOf s.obj.st.log.theta best)) :
    ∃ y : Arr1, y.n = best.n ∧ (∀ i, s.obj.st.dim ≤ i → y.get i = best.get i) ∧
      (∀ d < s.obj.st.dim, ∀ e < s.obj.st.dim, thetaOf s.obj.st.log.theta y d = thetaOf s.obj.st.log.theta y e) ∧
      ∀ opt' : ℕ → FVec → Py Run, opt' 0 = q.opt 0 → opt' 1 (startAt y) = q.opt 1 (startAt y) →
        optzHp c { q with opt := opt' } i s = optzHp c q i s := by
  obtain ⟨t, t2, y, s', F, k1, k2, k3, k4, k5, k6, k7, k8⟩ := secondIter hR hit htol hspread
  refine ⟨y, k3, k4, fun d hd e he => (k5 d hd).trans (k5 e he).symm, fun opt' h0 h1' => ?_⟩
  have e0 : runOptz s.obj { q with opt := opt' } 0 p.x0 = .ok best := by rw [← h1]; unfold runOptz; dsimp only; rw [h0]
  have a := k8 (rescaleOpt s.obj q p.x0) ⟨0, fun _ => 0⟩ (by unfold rescaleOpt; rw [if_pos rfl, h1])
  have b := k8 (rescaleOpt s.obj { q with opt := opt' } p.x0) ⟨0, fun _ => 0⟩ (by unfold rescaleOpt; rw [if_pos rfl, e0])
  have e2 : rescaleOpt s.obj { q with opt := opt' } p.x0 1 y = rescaleOpt s.obj q p.x0 1 y := by
    unfold rescaleOpt; rw [if_neg one_ne_zero, if_neg one_ne_zero, runOptz_one, runOptz_one]
    dsimp only; rw [h1']
  rw [e2, ← a] at b
  have ev : optzVec c { q with opt := opt' } s.obj g info p.x0 = optzVec c q s.obj g info p.x0 := by
    unfold optzVec
    rw [hm, hs, decide_eq_true (by omega : 1 < c.maxIter)]
    simp only [Bool.and_self, if_true]
    rw [b]
  unfold optzHp
  rw [hg]
  simp only
  rw [if_neg (by omega), if_neg (by omega)]
  unfold optzNum
  rw [hi]
  simp only
  have hp' : startPts c { q with opt := opt' } i s g info = .ok p := hp
  rw [hp, hp']
  simp only
  rw [ev]
  rfl

end Props
