import Verif.Proofs.SclCore

/-! The scaled data stay the images of the original data. -/

open Np GP Spec

noncomputable section

namespace GP

/-- A successful `set_xscale_data`: there are no nonlinear-constraint data, the new shift and scale are the computed ones,
nothing but scaled data changes, and all scaled data are recomputed. -/
theorem setXscale_ok {a b : Option Arr1} {s s' : Scl} (h : setXscale a b s = (s', .ok ())) :
    ∃ r, calcXShiftScale s a b = .ok r ∧ s.nlc = none ∧ Images s' ∧ s'.xShift = r.1 ∧ s'.xScale = r.2 ∧
      s'.xInit = s.xInit ∧ s'.obj = s.obj ∧ s'.objShift = s.objShift ∧ s'.objScale = s.objScale ∧
      s'.xMtd = s.xMtd ∧ s'.distSet = s.distSet ∧ s'.idxBest = s.idxBest ∧ s'.useShift = s.useShift ∧
      s'.box = s.box ∧ s'.lin = s.lin ∧ s'.nlc = none := by
  unfold setXscale at h
  obtain ⟨t1, h1, h⟩ := andThen_ok h
  obtain ⟨r, hr, rfl⟩ := compute_ok h1
  obtain ⟨X, c, sin, -, -, -, hs, hn, -, -, hr2⟩ := calcXShiftScale_inv hr
  obtain ⟨t2, h2, h⟩ := andThen_ok h
  obtain ⟨R, hX, hRd, hRr, hRc, hRg⟩ := setSclX_ok (s := { s with xShift := r.1, xScale := r.2 }) hs (by
    show r.2.n = _; rw [hr2])
  rw [hX] at h2
  obtain ⟨rfl, -⟩ := Prod.mk.inj h2
  obtain ⟨t3, h3, h⟩ := andThen_ok h
  obtain ⟨t4, h4, h⟩ := andThen_ok h
  obtain ⟨t5, h5, h⟩ := andThen_ok h
  obtain ⟨t6, h6, h⟩ := andThen_ok h
  have hnr : r.2.n = s.xInit.c := by rw [hr2]
  -- objective
  have H3 : ∃ oS, t3 = { ({ s with xShift := r.1, xScale := r.2 } : Scl) with
      xScl := ⟨s.xInit.r, s.xInit.c, fun p d => sclPt { s with xShift := r.1, xScale := r.2 } (s.xInit.get p) d⟩,
      R := R, objScl := oS } ∧ ∀ o, s.obj = some o → ∃ o', oS = some o' ∧ ObjImage t3 o o' := by
    rcases when_ok h3 with ⟨hc, h3⟩ | ⟨hc, rfl⟩
    · obtain ⟨o', ho', rfl⟩ := compute_ok h3
      refine ⟨some o', rfl, fun o ho => ⟨o', rfl, ?_⟩⟩
      have := sclObj_image (s := { ({ s with xShift := r.1, xScale := r.2 } : Scl) with
        xScl := ⟨s.xInit.r, s.xInit.c, fun p d => sclPt { s with xShift := r.1, xScale := r.2 } (s.xInit.get p) d⟩,
        R := R }) hnr (o := o) ho ho'
      exact ⟨this.val, this.std, this.grad, this.stdGrad⟩
    · refine ⟨s.objScl, rfl, fun o ho => ?_⟩
      simp only [ho, Option.isSome_some] at hc
      cases hc
  obtain ⟨oS, rfl, H3⟩ := H3
  -- no nonlinear constraints
  have H4 : s.nlc = none := by
    rcases when_ok h4 with ⟨-, h4⟩ | ⟨hc, -⟩
    · simp [noSuchMethod] at h4
    · simpa using hc
  rcases when_ok h4 with ⟨-, h4⟩ | ⟨-, rfl⟩
  · simp [noSuchMethod] at h4
  -- box constraints
  have H5 : ∃ bS, t5 = { ({ s with xShift := r.1, xScale := r.2 } : Scl) with
      xScl := ⟨s.xInit.r, s.xInit.c, fun p d => sclPt { s with xShift := r.1, xScale := r.2 } (s.xInit.get p) d⟩,
      R := R, objScl := oS, boxScl := bS } ∧
      ∀ b, s.box = some b → ∃ b', bS = some b' ∧ BoundImage t5 b.1 b'.1 ∧ BoundImage t5 b.2 b'.2 := by
    rcases when_ok h5 with ⟨hc, h5⟩ | ⟨hc, rfl⟩
    · obtain ⟨b', hb', rfl⟩ := compute_ok h5
      obtain ⟨b, hb, hb'⟩ := bindOk hb'
      refine ⟨some b', rfl, fun b0 hb0 => ⟨b', rfl, ?_⟩⟩
      have hbb : b = b0 := by
        simp only [hb0, needSet] at hb
        cases hb; rfl
      subst hbb
      exact boxInit2Scl_image (by exact hs) (by exact hnr) hb'
    · refine ⟨s.boxScl, rfl, fun o ho => ?_⟩
      simp only [ho, Option.isSome_some] at hc
      cases hc
  obtain ⟨bS, rfl, H5⟩ := H5
  -- linear constraints
  have H6 : ∃ lS, t6 = { ({ s with xShift := r.1, xScale := r.2 } : Scl) with
      xScl := ⟨s.xInit.r, s.xInit.c, fun p d => sclPt { s with xShift := r.1, xScale := r.2 } (s.xInit.get p) d⟩,
      R := R, objScl := oS, boxScl := bS, linScl := lS } ∧
      ∀ b, s.lin = some b → ∃ b', lS = some b' ∧ LinImage t6 b b' := by
    rcases when_ok h6 with ⟨hc, h6⟩ | ⟨hc, rfl⟩
    · obtain ⟨b', hb', rfl⟩ := compute_ok h6
      obtain ⟨b, hb, hb'⟩ := bindOk hb'
      refine ⟨some b', rfl, fun b0 hb0 => ⟨b', rfl, ?_⟩⟩
      have hbb : b = b0 := by
        simp only [hb0, needSet] at hb
        cases hb; rfl
      subst hbb
      exact linInit2Scl_image (by exact hs) (by exact hnr) hb'
    · refine ⟨s.linScl, rfl, fun o ho => ?_⟩
      simp only [ho, Option.isSome_some] at hc
      cases hc
  obtain ⟨lS, rfl, H6⟩ := H6
  have H7 : s' = { ({ s with xShift := r.1, xScale := r.2 } : Scl) with
      xScl := ⟨s.xInit.r, s.xInit.c, fun p d => sclPt { s with xShift := r.1, xScale := r.2 } (s.xInit.get p) d⟩,
      R := R, objScl := oS, boxScl := bS, linScl := lS } := by
    rcases when_ok h with ⟨-, h⟩ | ⟨-, h⟩
    · simp [noSuchMethod] at h
    · exact h
  subst H7
  refine ⟨r, hr, H4, ?_, rfl, rfl, rfl, rfl, rfl, rfl, rfl, rfl, rfl, rfl, rfl, rfl, H4⟩
  refine ⟨hs, hnr, ⟨rfl, rfl, fun a _ d _ => rfl⟩, ⟨hRd, hRr, hRc, hRg⟩, ?_, H5, H6, ?_⟩
  · intro o ho
    obtain ⟨o', ho', h⟩ := H3 o ho
    exact ⟨o', ho', ⟨h.val, h.std, h.grad, h.stdGrad⟩⟩
  · intro o ho
    have : s.nlc = some o := ho
    rw [H4] at this; cases this

theorem setSclObj_images {s s' : Scl} (hi : Images s) (h : setSclObj s = (s', .ok ())) : Images s' := by
  obtain ⟨o', ho', rfl⟩ := compute_ok h
  refine ⟨hi.shift_n, hi.scale_n, hi.x, hi.R, fun o ho => ⟨o', rfl, ?_⟩, hi.box, hi.lin, fun o ho => ?_⟩
  · have := sclObj_image (s := s) hi.scale_n (o := o) ho ho'
    exact ⟨this.val, this.std, this.grad, this.stdGrad⟩
  · obtain ⟨p, hp, h⟩ := hi.nlc o ho
    exact ⟨p, hp, ⟨h.val, h.std, h.grad, h.stdGrad⟩⟩

/-- The part of `Images` that does not concern the objective. -/
theorem setSclObj_images' {s s' : Scl} (o0 : Option ObjData) (u : Bool) (m : ObjMtd) (sh sc : ℝ) (hi : Images s)
    (h : setSclObj { s with obj := o0, useObjShift := u, objMtd := m, objShift := sh, objScale := sc } = (s', .ok ())) :
    Images s' := by
  obtain ⟨o', ho', rfl⟩ := compute_ok h
  refine ⟨hi.shift_n, hi.scale_n, hi.x, hi.R, fun o ho => ⟨o', rfl, ?_⟩, hi.box, hi.lin, fun o ho => ?_⟩
  · have := sclObj_image (s := { s with obj := o0, useObjShift := u, objMtd := m, objShift := sh, objScale := sc })
      hi.scale_n (o := o) ho ho'
    exact ⟨this.val, this.std, this.grad, this.stdGrad⟩
  · obtain ⟨p, hp, h⟩ := hi.nlc o ho
    exact ⟨p, hp, ⟨h.val, h.std, h.grad, h.stdGrad⟩⟩

theorem setSclNlc_images' {s s' : Scl} (n : Option NlcData) (k : ℕ) (u : Bool) (m : NlcMtd) (sh : Arr1) (sc : ℝ) (hi : Images s)
    (h : setSclNlc { s with nlc := n, nlcN := k, useNlcShift := u, nlcMtd := m, nlcShift := sh, nlcScale := sc } = (s', .ok ())) :
    Images s' := by
  obtain ⟨o', ho', rfl⟩ := compute_ok h
  obtain ⟨d, hd, ho'⟩ := bindOk ho'
  refine ⟨hi.shift_n, hi.scale_n, hi.x, hi.R, fun o ho => ?_, hi.box, hi.lin, fun o ho => ⟨o', rfl, ?_⟩⟩
  · obtain ⟨p, hp, h⟩ := hi.obj o ho
    exact ⟨p, hp, ⟨h.val, h.std, h.grad, h.stdGrad⟩⟩
  · have hn : n = some o := ho
    have hdo : d = o := by
      simp only [hn, needSet] at hd
      cases hd; rfl
    subst hdo
    have := nlcInit2Scl_image (by exact hi.scale_n) ho'
    exact ⟨this.val, this.std, this.grad, this.stdGrad⟩

theorem setBoxcon_images {s s' : Scl} {lb ub : Arr1} (hi : Images s) (h : setBoxcon lb ub s = (s', .ok ())) : Images s' := by
  unfold setBoxcon setSclBox at h
  obtain ⟨b', hb', rfl⟩ := compute_ok h
  refine ⟨hi.shift_n, hi.scale_n, hi.x, hi.R, fun o ho => ?_, fun b hb => ⟨b', rfl, ?_⟩, hi.lin, fun o ho => ?_⟩
  · obtain ⟨p, hp, h⟩ := hi.obj o ho
    exact ⟨p, hp, ⟨h.val, h.std, h.grad, h.stdGrad⟩⟩
  · obtain ⟨b0, hb0, hb'⟩ := bindOk hb'
    have e1 : (lb, ub) = b0 := by simpa [needSet] using hb0
    have e2 : (lb, ub) = b := by simpa using hb
    subst e1
    subst e2
    exact boxInit2Scl_image (by exact hi.shift_n) (by exact hi.scale_n) hb'
  · obtain ⟨p, hp, h⟩ := hi.nlc o ho
    exact ⟨p, hp, ⟨h.val, h.std, h.grad, h.stdGrad⟩⟩

theorem setLincon_images {s s' : Scl} {A : Arr2} {lb ub : Arr1} (hi : Images s) (h : setLincon A lb ub s = (s', .ok ())) :
    Images s' := by
  unfold setLincon setSclLin at h
  obtain ⟨b', hb', rfl⟩ := compute_ok h
  refine ⟨hi.shift_n, hi.scale_n, hi.x, hi.R, fun o ho => ?_, hi.box, fun b hb => ⟨b', rfl, ?_⟩, fun o ho => ?_⟩
  · obtain ⟨p, hp, h⟩ := hi.obj o ho
    exact ⟨p, hp, ⟨h.val, h.std, h.grad, h.stdGrad⟩⟩
  · obtain ⟨b0, hb0, hb'⟩ := bindOk hb'
    have e1 : (A, lb, ub) = b0 := by simpa [needSet] using hb0
    have e2 : (A, lb, ub) = b := by simpa using hb
    subst e1
    subst e2
    exact linInit2Scl_image (by exact hi.shift_n) (by exact hi.scale_n) hb'
  · obtain ⟨p, hp, h⟩ := hi.nlc o ho
    exact ⟨p, hp, ⟨h.val, h.std, h.grad, h.stdGrad⟩⟩

theorem op_images (op : SclOp) {s s' : Scl} (hi : Images s) (h : op.run s = (s', .ok ())) : Images s' := by
  cases op with
  | xscale a b => obtain ⟨r, -, -, hI, -⟩ := setXscale_ok h; exact hI
  | objData o u m =>
    simp only [SclOp.run, setObjData] at h
    split at h
    · simp at h
    split at h
    · simp at h
    split at h
    · unfold setObjScaling at h
      split at h
      · exact setSclObj_images' _ _ _ _ _ hi h
      · simp at h
    · simp at h
  | objScaling a b =>
    simp only [SclOp.run, setObjScaling] at h
    split at h
    · exact setSclObj_images' s.obj s.useObjShift s.objMtd _ _ hi h
    · simp at h
  | boxcon l u => exact setBoxcon_images hi h
  | lincon A l u => exact setLincon_images hi h
  | nlcData d u m =>
    simp only [SclOp.run, setNlcData] at h
    split at h
    · simp at h
    split at h
    · simp at h
    split at h
    · unfold setNlcScaling at h
      split at h
      · exact setSclNlc_images' _ _ _ _ _ _ hi h
      · simp at h
    · simp at h
  | nlcScaling a b =>
    simp only [SclOp.run, setNlcScaling] at h
    split at h
    · exact setSclNlc_images' s.nlc s.nlcN s.useNlcShift s.nlcMtd _ _ hi h
    · simp at h

theorem newScl_ok {x : Arr2} {idx : Option ℤ} {u : Bool} {m : XMtd} {d : Option ℝ} {s : Scl}
    (h : newScl x idx u m d = (s, .ok ())) : Images s ∧ m ≠ .other ∧ s.xInit = x ∧ s.xMtd = m ∧ s.distSet = d ∧
      s.idxBest = idx.getD ((x.r : ℤ) - 1) ∧ s.useShift = u := by
  unfold newScl at h
  dsimp only at h
  split at h
  · simp at h
  · rename_i hm
    obtain ⟨r, -, -, hI, -, -, h1, -, -, -, h2, h3, h4, h5, -⟩ := setXscale_ok h
    exact ⟨hI, hm, h1, h2, h3, h4, h5⟩

theorem reach_images {s : Scl} (h : SclReach s) : Images s := by
  induction h with
  | new h => exact (newScl_ok h).1
  | call op _ h ih => exact op_images op ih h

end GP
