import Verif.Model.EvalModel
import Verif.Proofs.CovGp
import Verif.Props.KernelDerivs

/-! Closed forms of the cross-covariances used by the evaluation code. -/

open Np Spec Matrix

noncomputable section

namespace GP

/-- The kernel shape as the kernels see it. -/
def alphaOf (k : KType) (hp : Option ℝ) : ℝ := match k with
  | .ratQuad => hp.getD 1
  | _ => 1

theorem alphaOf_pos {k : KType} {hp : Option ℝ} (h : HpOk k hp) : 0 < alphaOf k hp := by
  cases k with
  | sqExp => exact one_pos
  | matern => exact one_pos
  | ratQuad => obtain ⟨α, hα, rfl⟩ := h rfl; exact hα

theorem kernBase_canon {k : KType} {hp : Option ℝ} (h : HpOk k hp) (R th) :
    calcKernBase k R th hp = calcKernBase k R th (some (alphaOf k hp)) := by
  cases k with
  | sqExp => rfl
  | matern => rfl
  | ratQuad => obtain ⟨α, hα, rfl⟩ := h rfl; rfl

theorem kernGrad_canon {k : KType} {hp : Option ℝ} (h : HpOk k hp) (R th m1 m2) :
    calcKernGrad k R th hp m1 m2 = calcKernGrad k R th (some (alphaOf k hp)) m1 m2 := by
  cases k with
  | sqExp => rfl
  | matern => rfl
  | ratQuad => obtain ⟨α, hα, rfl⟩ := h rfl; rfl

theorem hessX_canon {k : KType} {hp : Option ℝ} (h : HpOk k hp) (R th) :
    calcKernBaseHessX k R th hp = calcKernBaseHessX k R th (some (alphaOf k hp)) := by
  cases k with
  | sqExp => rfl
  | matern => rfl
  | ratQuad => obtain ⟨α, hα, rfl⟩ := h rfl; rfl

theorem gradX_canon {k : KType} {hp : Option ℝ} (h : HpOk k hp) (R th m) :
    calcKernGradGradX k R th hp m = calcKernGradGradX k R th (some (alphaOf k hp)) m := by
  cases k with
  | sqExp => rfl
  | matern => rfl
  | ratQuad => obtain ⟨α, hα, rfl⟩ := h rfl; rfl

theorem kernOf_canon {k : KType} {hp : Option ℝ} (h : HpOk k hp) (dim : ℕ) (th : Arr1) :
    kernOf k hp dim th = radial (prφ k (alphaOf k hp)) dim th.get := by
  cases k with
  | sqExp => rfl
  | matern => rfl
  | ratQuad => obtain ⟨α, hα, rfl⟩ := h rfl; rfl

/-- Length-scale weights. -/
def thF (hp : HpVals) : ℕ → ℝ := (hp.theta.getD ⟨0, fun _ => 0⟩).get

/-- The symbolic row of datum `q`. -/
def dIx (g : Gp) (q : ℕ) : Ix := if q < g.nEval then .v q else .g ((q - g.nEval) / g.nGrad) ((q - g.nEval) % g.nGrad)

theorem dIx_pos {n gr dim : ℕ} {x : Ix} (hx : x.ok n gr dim) :
    (if x.pos n gr < n then Ix.v (x.pos n gr) else .g ((x.pos n gr - n) / gr) ((x.pos n gr - n) % gr)) = x := by
  cases x with
  | v p =>
    have : p < n := hx
    simp [this]
  | g i a =>
    obtain ⟨-, ha⟩ := hx
    have h1 : ¬ n + i * gr + a < n := by omega
    have h2 : n + i * gr + a - n = i * gr + a := by omega
    simp only [Ix.pos_g, h1, if_false, h2]
    have h3 : (i * gr + a) / gr = i := by
      rw [Nat.add_comm, Nat.add_mul_div_right _ _ (by omega), Nat.div_eq_of_lt ha, Nat.zero_add]
    have h4 : (i * gr + a) % gr = a := by rw [Nat.add_comm, Nat.add_mul_mod_self_right, Nat.mod_eq_of_lt ha]
    rw [h3, h4]

theorem dIx_spec {g : Gp} (hg : GpOk g) (q : Fin g.nData) :
    (dIx g q).ok g.nEval g.nGrad g.dim ∧ (dIx g q).pos g.nEval g.nGrad = q := by
  have hq : (q : ℕ) < g.nEval + g.nGrad * g.dim := by rw [← hg.nData]; exact q.2
  obtain ⟨x, hx, hxq⟩ := Ix.pos_surj hq
  have := dIx_pos hx
  rw [hxq] at this
  unfold dIx
  rw [this]
  exact ⟨hx, hxq⟩

/-- The point of datum `q`. -/
def dpt (g : Gp) (q : ℕ) : Pt := g.x.get ((dIx g q).pt g.bvec)
/-- What datum `q` is: a value or a partial derivative. -/
def dco (g : Gp) (q : ℕ) : Option ℕ := (dIx g q).coord

theorem dco_lt {g : Gp} (hg : GpOk g) (q : Fin g.nData) : ∀ i ∈ dco g q, i < g.dim := Ix.coord_lt (dIx_spec hg q).1

theorem hg_mask {g : Gp} (hg : GpOk g) : g.useGrad = true → g.nGrad = gN g.bvec g.nEval := by
  intro h; rw [hg.nGrad]; simp [h]

theorem dpt_lt {g : Gp} (hg : GpOk g) (q : Fin g.nData) : (dIx g q).pt g.bvec < g.nEval := by
  obtain ⟨h1, -⟩ := dIx_spec hg q
  cases hu : g.useGrad with
  | true => rw [hg_mask hg hu] at h1; exact Ix.pt_lt hg.mask h1
  | false =>
    have : g.nGrad = 0 := by rw [hg.nGrad]; simp [hu]
    rw [this] at h1
    revert h1
    cases dIx g q with
    | v p => exact fun h => h
    | g i a => exact fun h => absurd h.2 (by omega)

section
variable (g : Gp) (hp : HpVals)

/-- Covariances of the data with the value at `x`. -/
def kv (x : Pt) : Vec g.nData := fun q => radKG (prφ g.kernel (alphaOf g.kernel hp.kernel)) (prφ1 g.kernel (alphaOf g.kernel hp.kernel))
  (prφ2 g.kernel (alphaOf g.kernel hp.kernel)) g.dim (thF hp) (fun d => dpt g q d - x d) (dco g q) none
/-- Covariances of the data with the derivative wrt coordinate `i` at `x`. -/
def kd (x : Pt) (i : ℕ) : Vec g.nData := fun q => radKG (prφ g.kernel (alphaOf g.kernel hp.kernel))
  (prφ1 g.kernel (alphaOf g.kernel hp.kernel)) (prφ2 g.kernel (alphaOf g.kernel hp.kernel)) g.dim (thF hp)
  (fun d => dpt g q d - x d) (dco g q) (some i)
/-- Covariances of the data with the second derivative at `x`. -/
def kh (x : Pt) (e i : ℕ) : Vec g.nData := fun q => radKGx (prφ1 g.kernel (alphaOf g.kernel hp.kernel))
  (prφ2 g.kernel (alphaOf g.kernel hp.kernel)) (prφ3 g.kernel (alphaOf g.kernel hp.kernel)) g.dim (thF hp)
  (fun d => x d - dpt g q d) e i (dco g q)
end

theorem gpKern_canon {g : Gp} {hp : HpVals} (hh : HpAdm g hp) :
    gpKern g hp = radial (prφ g.kernel (alphaOf g.kernel hp.kernel)) g.dim (thF hp) := kernOf_canon hh.kernel _ _

theorem thF_pos {g : Gp} {hp : HpVals} (hh : HpAdm g hp) : ∀ d < g.dim, 0 < thF hp d := by
  obtain ⟨th, ht, hn, hpos⟩ := hh.theta
  intro d hd
  simp only [thF, ht, Option.getD_some]
  exact hpos d hd

/-- Cross-covariances. -/
theorem crossKern_ok {g : Gp} (hg : GpOk g) {hp : HpVals} (hh : HpAdm g hp) {X : Arr2} (hX : X.c = g.dim)
    (hq : g.kernel = .ratQuad → fullMask g.bvec g.nEval) (cg : Bool) :
    ∃ A dK, crossKern g hp X cg = .ok (A, dK) ∧ A.r = g.nData ∧ A.c = X.r ∧
      (∀ (q : Fin g.nData) (a : Fin X.r), A.get q a = kv g hp (X.get a) q) ∧
      (cg = true → ∃ D, dK = some D ∧ D.r = X.r * g.dim ∧ D.c = g.nData ∧
        ∀ (a : Fin X.r) (i : Fin g.dim), dkRow D X.r g.dim a i = kd g hp (X.get a) i) := by
  obtain ⟨th, ht, hn, hpos⟩ := hh.theta
  obtain ⟨R, hR, -⟩ := calcRtensor_ok (X := g.x) (Y := X) (by rw [hg.x_c, hX])
  have hI := (calcRtensor_isR hR).2
  have hthF : thF hp = th.get := by simp [thF, ht]
  have hm : maskOk g.bvec R.r := by rw [hI.r, hg.x_r]; exact hg.mask
  by_cases hgc : (g.useGrad || cg) = true
  · -- gradient-enhanced kernel
    obtain ⟨A, hA, hrep⟩ := calcKernGrad_ok g.kernel (α := alphaOf g.kernel hp.kernel) (R := R) (theta := th) (m1 := g.bvec) (m2 := none)
      (by rw [hI.d, hg.x_c, hn]) hm (by simp [maskOk]) (fun h => .inr (.inr (by rw [hI.r, hg.x_r]; exact hq h)))
    rw [← kernGrad_canon hh.kernel] at hA
    rw [hI.r, hI.c, hI.d, hg.x_r, hg.x_c] at hrep
    have hAc : A.c = X.r + X.r * g.dim := by rw [hrep.c]; rfl
    have hsz : (if g.useGrad then A.r else g.nEval) = g.nData ∧ g.nData ≤ A.r := by
      cases hu : g.useGrad with
      | true => simp only [if_true]; rw [hrep.r, hg.nData, hg_mask hg hu]; exact ⟨rfl, le_rfl⟩
      | false =>
        have h0 : g.nGrad = 0 := by rw [hg.nGrad]; simp [hu]
        simp only [Bool.false_eq_true, if_false]; rw [hrep.r, hg.nData, h0]; exact ⟨by simp, by omega⟩
    -- entries of the data rows
    have hent : ∀ (q : Fin g.nData) (y : Ix), y.ok X.r X.r g.dim → A.get q (y.pos X.r X.r) =
        radKG (prφ g.kernel (alphaOf g.kernel hp.kernel)) (prφ1 g.kernel (alphaOf g.kernel hp.kernel))
          (prφ2 g.kernel (alphaOf g.kernel hp.kernel)) g.dim (thF hp)
          (fun d => dpt g q d - X.get (y.pt none) d) (dco g q) y.coord := by
      intro q y hy
      obtain ⟨h1, h2⟩ := dIx_spec hg q
      have h1' : (dIx g q).ok g.nEval (gN g.bvec g.nEval) g.dim ∧ (dIx g q).pos g.nEval (gN g.bvec g.nEval) = q := by
        cases hu : g.useGrad with
        | true => rw [← hg_mask hg hu]; exact ⟨h1, h2⟩
        | false =>
          have h0 : g.nGrad = 0 := by rw [hg.nGrad]; simp [hu]
          rw [h0] at h1 h2
          revert h1 h2
          cases dIx g q with
          | v p => exact fun h h' => ⟨h, h'⟩
          | g i a => exact fun h => absurd h.2 (by omega)
      have := hrep.get (dIx g q) y h1'.1 hy
      rw [h1'.2] at this
      rw [show gN (none : Option (List Bool)) X.r = X.r from rfl] at this
      rw [this, hthF]
      unfold kgF
      rw [hI.d, hg.x_c]
      refine radKG_congr ?_ (dco_lt hg q) (Ix.coord_lt hy)
      intro d hd
      have hy' : y.pt none < X.r := Ix.pt_lt (m := none) (by simp [maskOk]) hy
      exact hI.get d (by rw [hg.x_c]; exact hd) _ (by rw [hg.x_r]; exact dpt_lt hg q) _ hy'
    have hcross : crossKern g hp X cg = .ok (A.slice 0 (if g.useGrad then A.r else g.nEval) 0 X.r,
        some (A.slice 0 (if g.useGrad then A.r else g.nEval) X.r A.c).T) := by
      unfold crossKern
      rw [ht]
      simp only [need, ok_bind, hR, hgc, if_true, hA, pure_eq_ok]
      cases g.useGrad <;> rfl
    rw [hsz.1] at hcross
    refine ⟨_, _, hcross, ?_, ?_, ?_, ?_⟩
    · simp [Arr2.slice, hsz.2]
    · simp [Arr2.slice, hAc]
    · intro q a
      have := hent q (.v a) a.2
      simp only [Arr2.slice, Nat.zero_min, Nat.add_zero]
      exact this
    · intro _
      refine ⟨_, rfl, ?_, ?_, ?_⟩
      · simp [Arr2.T, Arr2.slice, hAc]
      · simp [Arr2.T, Arr2.slice, hsz.2]
      · intro a i
        funext q
        have := hent q (.g i a) ⟨i.2, a.2⟩
        simp only [dkRow, Arr2.T, Arr2.slice, Nat.zero_min, Nat.add_zero, hAc]
        rw [show min X.r (X.r + X.r * g.dim) = X.r by omega]
        rw [show (i : ℕ) * X.r + a + X.r = X.r + i * X.r + a by omega]
        exact this
  · -- value kernel
    have hu : g.useGrad = false := by
      cases h : g.useGrad
      · rfl
      · simp [h] at hgc
    have hcg : cg = false := by
      cases h : cg
      · rfl
      · simp [h] at hgc
    have h0 : g.nGrad = 0 := by rw [hg.nGrad]; simp [hu]
    have hA := calcKernBase_ok g.kernel (α := alphaOf g.kernel hp.kernel) (R := R) (theta := th) (by rw [hI.d, hg.x_c, hn])
    rw [← kernBase_canon hh.kernel] at hA
    refine ⟨⟨R.r, R.c, fun p q => prφ g.kernel (alphaOf g.kernel hp.kernel) (ssq R.d th.get (diffAt R p q))⟩, none, ?_, ?_, ?_, ?_, ?_⟩
    · unfold crossKern
      rw [ht]
      simp only [need, ok_bind, hR, hgc, Bool.false_eq_true, if_false, hA, pure_eq_ok]
    · show R.r = _
      rw [hI.r, hg.nData, hg.x_r, h0]; simp
    · exact hI.c
    · intro q a
      have hqn : (q : ℕ) < g.nEval := (q.2.trans_eq (by rw [hg.nData, h0]; simp : g.nData = g.nEval))
      have e : dIx g q = .v q := by simp [dIx, hqn]
      simp only [kv, dco, e, Ix.coord_v, radKG, dpt, Ix.pt_v, hthF]
      rw [hI.d, hg.x_c]
      congr 1
      refine ssq_congr ?_
      intro d hd
      exact hI.get d (by rw [hg.x_c]; exact hd) q (by rw [hg.x_r]; exact hqn) a a.2
    · intro h; rw [hcg] at h; cases h

/-- The regularised division of the Matérn code is exact at the point `x`. -/
def SepAt (g : Gp) (hp : HpVals) (x : Pt) : Prop :=
  g.kernel = .matern → g.useGrad = true → ∀ p < g.nEval, wdist2 g.dim (thF hp) x (g.x.get p) = 0 ∨
    (10 : ℝ) ^ (-16 : ℤ) ≤ Real.sqrt (wdist2 g.dim (thF hp) x (g.x.get p))

theorem gSel_all {m : Option (List Bool)} {n : ℕ} (hm : maskOk m n) (h : gN m n = n) : ∀ a < n, gSel m a = a := by
  cases m with
  | none => intro a _; rfl
  | some l =>
    intro a ha
    have hl := hm l rfl
    simp only [gN] at h
    simp only [gSel]
    have hall : selIdx l = List.range n := by
      have h1 : (selIdx l).length = (List.range l.length).length := by rw [List.length_range, hl]; exact h
      have := List.Sublist.eq_of_length (List.filter_sublist (l := List.range l.length) (p := fun i => l.getD i false)) h1
      rw [hl] at this
      unfold selIdx
      rw [hl]
      exact this
    unfold sel
    rw [hall, List.getD_eq_getElem _ _ (by simpa using ha)]
    simp

/-- Second-derivative cross-covariances at one point, when every point has a gradient or no gradients are used. -/
theorem crossHess_ok {g : Gp} (hg : GpOk g) {hp : HpVals} (hh : HpAdm g hp) {X : Arr2} (hX : X.c = g.dim) (h1 : X.r = 1)
    (hfull : g.useGrad = true → g.nGrad = g.nEval) (hsep : SepAt g hp (X.get 0)) :
    ∃ H, crossHess g hp X = .ok H ∧ H.d = g.dim ∧ H.r = g.dim ∧ H.c = hessNData g ∧ H.c = g.nData ∧
      ∀ (e i : Fin g.dim) (q : Fin g.nData), H.get e i q = kh g hp (X.get 0) e i q := by
  obtain ⟨th, ht, hn, hpos⟩ := hh.theta
  obtain ⟨R, hR, -⟩ := calcRtensor_ok (X := X) (Y := g.x) (by rw [hg.x_c, hX])
  have hI := (calcRtensor_isR hR).2
  have hthF : thF hp = th.get := by simp [thF, ht]
  have hcongr : ∀ (e i : Fin g.dim) (q : Fin g.nData), radKGx (prφ1 g.kernel (alphaOf g.kernel hp.kernel))
      (prφ2 g.kernel (alphaOf g.kernel hp.kernel)) (prφ3 g.kernel (alphaOf g.kernel hp.kernel)) g.dim th.get
      (diffAt R 0 ((dIx g q).pt g.bvec)) e i (dco g q) = kh g hp (X.get 0) e i q := by
    intro e i q
    unfold kh
    rw [hthF]
    refine radKGx_congr ?_ e.2 i.2 (dco_lt hg q)
    intro d hd
    exact hI.get d (by rw [hX]; exact hd) 0 (by omega) _ (by rw [hg.x_r]; exact dpt_lt hg q)
  unfold crossHess
  rw [ht]
  simp only [need, ok_bind, hR]
  cases hu : g.useGrad with
  | true =>
    simp only [if_true]
    have hν : NuGood g.kernel R th := by
      intro hk p hp' q hq'
      rw [hI.r, h1] at hp'
      have hp0 : p = 0 := by omega
      subst hp0
      rw [hI.c, hg.x_r] at hq'
      have := hsep hk hu q hq'
      have he : ssq R.d th.get (diffAt R 0 q) = wdist2 g.dim (thF hp) (X.get 0) (g.x.get q) := by
        rw [hI.d, hX, hthF]
        exact ssq_congr fun d hd => hI.get d (by rw [hX]; exact hd) 0 (by omega) q (by rw [hg.x_r]; exact hq')
      unfold NuOk maNu
      rw [he]
      rcases this with h0 | h0
      · left; rw [h0, Real.sqrt_zero]
      · right; exact h0
    obtain ⟨H, hH, hrep⟩ := calcKernGradGradX_ok g.kernel (α := alphaOf g.kernel hp.kernel) (R := R) (theta := th)
      (by rw [hI.d, hX, hn]) (by rw [hI.d, hX]; exact hpos) hν
    rw [← gradX_canon hh.kernel] at hH
    have hng := hfull hu
    have hd := hrep.d
    have hr := hrep.r
    have hc := hrep.c
    rw [hI.d, hX] at hd
    rw [hI.r, hI.d, h1, hX] at hr
    rw [hI.c, hI.d, hX, hg.x_r] at hc
    refine ⟨H, hH, hd, by rw [hr]; omega, by rw [hc, hessNData, hu]; simp; ring, by rw [hc, hg.nData, hng], ?_⟩
    intro e i q
    obtain ⟨h2, h3⟩ := dIx_spec hg q
    rw [hng] at h2 h3
    have := hrep.get e (.g i 0) (dIx g q) (by rw [hI.d, hX]; exact e.2) ⟨by rw [hI.d, hX]; exact i.2, by rw [hI.r, h1]; omega⟩
      (by rw [hI.c, hI.d, hX, hg.x_r]; exact h2)
    rw [hI.r, h1, hI.c, hg.x_r, h3] at this
    simp only [Ix.pos_g, Nat.zero_add, Nat.mul_one, Nat.add_zero] at this
    rw [this, ← hcongr]
    have hpt : (dIx g q).pt none = (dIx g q).pt g.bvec := by
      have hgN : gN g.bvec g.nEval = g.nEval := by rw [← hg_mask hg hu, hng]
      revert h2
      cases dIx g q with
      | v p => intro _; rfl
      | g i' a => intro h; simp only [Ix.pt_g]; rw [gSel_all hg.mask hgN a h.2]; rfl
    simp only [kgXF, hpt, hI.d, hX]
    rfl
  | false =>
    simp only [Bool.false_eq_true, if_false]
    obtain ⟨H, hH, hrep⟩ := calcKernBaseHessX_ok g.kernel (α := alphaOf g.kernel hp.kernel) (R := R) (theta := th)
      (by rw [hI.d, hX, hn])
    rw [← hessX_canon hh.kernel] at hH
    have h0 : g.nGrad = 0 := by rw [hg.nGrad]; simp [hu]
    have hd := hrep.d
    have hr := hrep.r
    have hc := hrep.c
    rw [hI.d, hX] at hd
    rw [hI.r, hI.d, h1, hX] at hr
    rw [hI.c, hI.d, hX, hg.x_r] at hc
    refine ⟨H, hH, hd, by rw [hr]; omega, by rw [hc, hessNData, hu]; simp, by rw [hc, hg.nData, h0], ?_⟩
    intro e i q
    have hqn : (q : ℕ) < g.nEval := (q.2.trans_eq (by rw [hg.nData, h0]; simp : g.nData = g.nEval))
    have hix : dIx g q = .v q := by simp [dIx, hqn]
    have := hrep.get e (.g i 0) (.v q) (by rw [hI.d, hX]; exact e.2) ⟨by rw [hI.d, hX]; exact i.2, by rw [hI.r, h1]; omega⟩
      (by rw [hI.c, hg.x_r]; exact hqn)
    rw [hI.r, h1, hI.c, hg.x_r] at this
    simp only [Ix.pos_g, Nat.zero_add, Nat.mul_one, Nat.add_zero, Ix.pos_v] at this
    rw [this, ← hcongr]
    simp only [dco, hix, kgXF, hI.d, hX]
    rfl

end GP
