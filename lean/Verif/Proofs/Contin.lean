import Verif.Spec.ContinSpec
import Verif.Proofs.EvalCore3
import Verif.Proofs.CondRec
import Verif.Props.Lkd
import Mathlib.Topology.Instances.Matrix
import Mathlib.Analysis.SpecialFunctions.Pow.Continuity
import Mathlib.Analysis.SpecialFunctions.Log.Basic
import Mathlib.Topology.Algebra.Order.LiminfLimsup

/-! Limits of covariance matrices, likelihoods and predictions when the hyperparameters converge. -/

open Np GP Spec Matrix Filter Topology

noncomputable section

namespace Props

variable {ι : Type*} {l : Filter ι}

theorem mat_tendsto {n m : ℕ} {A : ι → Mat n m} {A0 : Mat n m} (h : ∀ i j, Tendsto (fun k => A k i j) l (𝓝 (A0 i j))) : Tendsto A l (𝓝 A0) :=
  tendsto_pi_nhds.mpr fun i => tendsto_pi_nhds.mpr fun j => h i j

theorem mat_entry {n m : ℕ} {A : ι → Mat n m} {A0 : Mat n m} (h : Tendsto A l (𝓝 A0)) (i : Fin n) (j : Fin m) :
    Tendsto (fun k => A k i j) l (𝓝 (A0 i j)) := tendsto_pi_nhds.mp (tendsto_pi_nhds.mp h i) j

theorem vec_entry {n : ℕ} {A : ι → Vec n} {A0 : Vec n} (h : Tendsto A l (𝓝 A0)) (i : Fin n) :
    Tendsto (fun k => A k i) l (𝓝 (A0 i)) := tendsto_pi_nhds.mp h i

theorem det_tendsto {n : ℕ} {A : ι → Mat n n} {A0 : Mat n n} (h : Tendsto A l (𝓝 A0)) : Tendsto (fun k => (A k).det) l (𝓝 A0.det) :=
  ((continuous_id.matrix_det).tendsto A0).comp h

theorem inv_tendsto {n : ℕ} {A : ι → Mat n n} {A0 : Mat n n} (h : Tendsto A l (𝓝 A0)) (h0 : A0.det ≠ 0) :
    Tendsto (fun k => (A k)⁻¹) l (𝓝 A0⁻¹) := by
  simp only [Matrix.inv_def, Ring.inverse_eq_inv']
  refine Tendsto.smul ((det_tendsto h).inv₀ h0) ?_
  exact ((continuous_id.matrix_adjugate).tendsto A0).comp h

theorem mul_tendsto {n m b : ℕ} {A : ι → Mat n m} {A0 : Mat n m} {B : ι → Mat m b} {B0 : Mat m b} (hA : Tendsto A l (𝓝 A0))
    (hB : Tendsto B l (𝓝 B0)) : Tendsto (fun k => A k * B k) l (𝓝 (A0 * B0)) := by
  refine mat_tendsto fun i j => ?_
  simp only [mul_apply]
  exact tendsto_finsetSum _ fun r _ => (mat_entry hA i r).mul (mat_entry hB r j)

theorem mulVec_tendsto {n m : ℕ} {A : ι → Mat n m} {A0 : Mat n m} {w : ι → Vec m} {w0 : Vec m} (hA : Tendsto A l (𝓝 A0))
    (hw : Tendsto w l (𝓝 w0)) : Tendsto (fun k => A k *ᵥ w k) l (𝓝 (A0 *ᵥ w0)) := by
  refine tendsto_pi_nhds.mpr fun i => ?_
  simp only [mulVec, dotProduct]
  exact tendsto_finsetSum _ fun r _ => (mat_entry hA i r).mul (vec_entry hw r)

theorem dot_tendsto {n : ℕ} {u : ι → Vec n} {u0 : Vec n} {w : ι → Vec n} {w0 : Vec n} (hu : Tendsto u l (𝓝 u0))
    (hw : Tendsto w l (𝓝 w0)) : Tendsto (fun k => u k ⬝ᵥ w k) l (𝓝 (u0 ⬝ᵥ w0)) := by
  simp only [dotProduct]
  exact tendsto_finsetSum _ fun r _ => (vec_entry hu r).mul (vec_entry hw r)

section
variable {n b : ℕ} {K : ι → Mat n n} {K0 : Mat n n} {V : Mat n b} (y : Vec n)

theorem gls_tendsto (h : Tendsto K l (𝓝 K0)) (hpd : K0.PosDef) (hV : FullRank V) : Tendsto (fun k => gls (K k) V y) l (𝓝 (gls K0 V y)) := by
  have hi := inv_tendsto h hpd.det_pos.ne'
  have hW := mul_tendsto (A := fun _ : ι => Vᵀ) tendsto_const_nhds (mul_tendsto hi (B := fun _ => V) (tendsto_const_nhds (x := V)))
  have hd : (Vᵀ * (K0⁻¹ * V)).det ≠ 0 := (gram_posDef hpd hV).det_pos.ne'
  exact mulVec_tendsto (inv_tendsto hW hd) (mulVec_tendsto tendsto_const_nhds (mulVec_tendsto hi tendsto_const_nhds))

theorem rss_tendsto (h : Tendsto K l (𝓝 K0)) (hpd : K0.PosDef) (hV : FullRank V) : Tendsto (fun k => rss (K k) V y) l (𝓝 (rss K0 V y)) := by
  have hi := inv_tendsto h hpd.det_pos.ne'
  have hr : Tendsto (fun k => y - V *ᵥ gls (K k) V y) l (𝓝 (y - V *ᵥ gls K0 V y)) :=
    tendsto_const_nhds.sub (mulVec_tendsto tendsto_const_nhds (gls_tendsto y h hpd hV))
  exact dot_tendsto hr (mulVec_tendsto hi hr)

theorem logdet_tendsto (h : Tendsto K l (𝓝 K0)) (hpd : K0.PosDef) : Tendsto (fun k => Real.log (K k).det) l (𝓝 (Real.log K0.det)) :=
  (det_tendsto h).log hpd.det_pos.ne'

theorem varOf_tendsto (h : Tendsto K l (𝓝 K0)) (hpd : K0.PosDef) (hV : FullRank V) : Tendsto (fun k => varOf (K k) V y) l (𝓝 (varOf K0 V y)) :=
  tendsto_const_nhds.max ((rss_tendsto y h hpd hV).div_const _)

theorem pnlt_tendsto (o : LkdOpts) (f : Arr1) {v : ι → ℝ} {v0 : ℝ} (h : Tendsto v l (𝓝 v0)) :
    Tendsto (fun k => (varKPnlt o (v k) f).1) l (𝓝 (varKPnlt o v0 f).1) := by
  unfold varKPnlt
  split_ifs
  · exact (((h.sub_const _).max tendsto_const_nhds).pow 2).const_mul _
  · exact tendsto_const_nhds

theorem lkdOf_tendsto (o : LkdOpts) (f : Arr1) (h : Tendsto K l (𝓝 K0)) (hpd : K0.PosDef) (hV : FullRank V) :
    Tendsto (fun k => lkdOf o f (K k) V y) l (𝓝 (lkdOf o f K0 V y)) := by
  unfold lkdOf
  have hv := varOf_tendsto y h hpd hV
  exact (((((hv.log (varOf_pos K0 V y).ne').const_mul _).add (logdet_tendsto h hpd)).neg).div_const 2).sub (pnlt_tendsto o f hv)

end

/-! ### Profiles -/

theorem prφ_tendsto (kt : KType) {α s : ι → ℝ} {α0 s0 : ℝ} (hα : Tendsto α l (𝓝 α0)) (h0 : 0 < α0) (hs : Tendsto s l (𝓝 s0)) (hs0 : 0 ≤ s0) :
    Tendsto (fun k => prφ kt (α k) (s k)) l (𝓝 (prφ kt α0 s0)) ∧ Tendsto (fun k => prφ1 kt (α k) (s k)) l (𝓝 (prφ1 kt α0 s0)) ∧
      Tendsto (fun k => prφ2 kt (α k) (s k)) l (𝓝 (prφ2 kt α0 s0)) := by
  cases kt with
  | sqExp =>
    have he := (Real.continuous_exp.tendsto (-s0)).comp hs.neg
    exact ⟨he, he.neg, he⟩
  | matern =>
    have hq := (Real.continuous_sqrt.tendsto s0).comp hs
    have he := (Real.continuous_exp.tendsto (-Real.sqrt 5 * Real.sqrt s0)).comp (hq.const_mul (-Real.sqrt 5))
    refine ⟨?_, ?_, ?_⟩
    · exact ((tendsto_const_nhds.add (hq.const_mul _)).add ((hq.pow 2).const_mul _)).mul he
    · exact ((tendsto_const_nhds.add (hq.const_mul _)).const_mul _).mul he
    · exact he.const_mul _
  | ratQuad =>
    have hb : Tendsto (fun k => 1 + s k / α k) l (𝓝 (1 + s0 / α0)) := tendsto_const_nhds.add (hs.div hα h0.ne')
    have hbp : 1 + s0 / α0 ≠ 0 := by positivity
    refine ⟨?_, ?_, ?_⟩
    · exact hb.rpow hα.neg (.inl hbp)
    · exact (hb.rpow (hα.neg.sub_const 1) (.inl hbp)).neg
    · exact (tendsto_const_nhds.add (tendsto_const_nhds.div hα h0.ne')).mul (hb.rpow (hα.neg.sub_const 2) (.inl hbp))

/-- Covariances of a kernel at converging length scales, kernel parameter and points. -/
theorem radKG_tends (kt : KType) {dim : ℕ} {α : ι → ℝ} {α0 : ℝ} {θ r : ι → ℕ → ℝ} {θ0 r0 : ℕ → ℝ} (hα : Tendsto α l (𝓝 α0)) (h0 : 0 < α0)
    (hθ : ∀ d < dim, Tendsto (fun k => θ k d) l (𝓝 (θ0 d))) (hr : ∀ d < dim, Tendsto (fun k => r k d) l (𝓝 (r0 d)))
    (hp : ∀ d < dim, 0 ≤ θ0 d) {ox oy : Option ℕ} (hx : ∀ i ∈ ox, i < dim) (hy : ∀ i ∈ oy, i < dim) :
    Tendsto (fun k => radKG (prφ kt (α k)) (prφ1 kt (α k)) (prφ2 kt (α k)) dim (θ k) (r k) ox oy) l
      (𝓝 (radKG (prφ kt α0) (prφ1 kt α0) (prφ2 kt α0) dim θ0 r0 ox oy)) := by
  have hs : Tendsto (fun k => ssq dim (θ k) (r k)) l (𝓝 (ssq dim θ0 r0)) :=
    tendsto_finsetSum _ fun d hd => (hθ d (Finset.mem_range.mp hd)).mul ((hr d (Finset.mem_range.mp hd)).pow 2)
  obtain ⟨a0, a1, a2⟩ := prφ_tendsto kt hα h0 hs (ssq_nonneg hp r0)
  cases ox with
  | none =>
    cases oy with
    | none => exact a0
    | some j =>
      have hj := hy j rfl
      exact ((((hθ j hj).const_mul 2).mul (hr j hj)).mul a1).neg
  | some i =>
    have hi := hx i rfl
    cases oy with
    | none => exact (((hθ i hi).const_mul 2).mul (hr i hi)).mul a1
    | some j =>
      have hj := hy j rfl
      exact ((((hθ i hi).const_mul 2).mul_const _).mul a1).neg.sub (((((hθ i hi).const_mul 4).mul (hθ j hj)).mul (hr i hi)).mul (hr j hj) |>.mul a2)

/-! ### Covariance matrices -/

section
variable {g : Gp} {hps : ι → HpVals} {hp : HpVals}

theorem conv_theta (hh : HpAdm g hp) (hhs : ∀ k, HpAdm g (hps k)) (h : HpConv l hps hp) {d : ℕ} (hd : d < g.dim) :
    Tendsto (fun k => thF (hps k) d) l (𝓝 (thF hp d)) := by
  have key : ∀ {q : HpVals}, HpAdm g q → (getSlot q (.theta d)).getD 0 = thF q d := by
    intro q hq
    obtain ⟨th, e, en, -⟩ := hq.theta
    simp [getSlot, thF, e, en, hd]
  have := h (.theta d)
  rw [key hh] at this
  exact this.congr fun k => key (hhs k)

theorem conv_alpha (hh : HpAdm g hp) (hhs : ∀ k, HpAdm g (hps k)) (h : HpConv l hps hp) :
    Tendsto (fun k => alphaOf g.kernel (hps k).kernel) l (𝓝 (alphaOf g.kernel hp.kernel)) := by
  cases hk : g.kernel with
  | sqExp => exact tendsto_const_nhds
  | matern => exact tendsto_const_nhds
  | ratQuad =>
    have key : ∀ {q : HpVals}, HpAdm g q → (getSlot q .kernel).getD 0 = alphaOf .ratQuad q.kernel := by
      intro q hq
      obtain ⟨a, -, e⟩ := hq.kernel hk
      simp [getSlot, alphaOf, e]
    have := h .kernel
    rw [key hh] at this
    exact this.congr fun k => key (hhs k)

/-- Covariances between a datum, or any quantity at a moving point, and another. -/
theorem conv_rad (hh : HpAdm g hp) (hhs : ∀ k, HpAdm g (hps k)) (h : HpConv l hps hp) {r : ι → ℕ → ℝ} {r0 : ℕ → ℝ}
    (hr : ∀ d < g.dim, Tendsto (fun k => r k d) l (𝓝 (r0 d))) {ox oy : Option ℕ} (hx : ∀ i ∈ ox, i < g.dim) (hy : ∀ i ∈ oy, i < g.dim) :
    Tendsto (fun k => radKG (prφ g.kernel (alphaOf g.kernel (hps k).kernel)) (prφ1 g.kernel (alphaOf g.kernel (hps k).kernel))
        (prφ2 g.kernel (alphaOf g.kernel (hps k).kernel)) g.dim (thF (hps k)) (r k) ox oy) l
      (𝓝 (radKG (prφ g.kernel (alphaOf g.kernel hp.kernel)) (prφ1 g.kernel (alphaOf g.kernel hp.kernel))
        (prφ2 g.kernel (alphaOf g.kernel hp.kernel)) g.dim (thF hp) r0 ox oy)) :=
  radKG_tends g.kernel (conv_alpha hh hhs h) (alphaOf_pos hh.kernel) (fun _ hd => conv_theta hh hhs h hd) hr
    (fun d hd => (thF_pos hh d hd).le) hx hy

theorem kern_tendsto (hg : GpOk g) (hh : HpAdm g hp) (hhs : ∀ k, HpAdm g (hps k)) (h : HpConv l hps hp) {K : ι → Mat g.nData g.nData}
    {K0 : Mat g.nData g.nData} (hK : ∀ k, IsKern g (hps k) (K k)) (hK0 : IsKern g hp K0) : Tendsto K l (𝓝 K0) := by
  refine mat_tendsto fun p q => ?_
  rw [isKern_entry hg hh hK0 p q, show (fun k => K k p q) = fun k => kk g (hps k) p q from
    funext fun k => isKern_entry hg (hhs k) (hK k) p q]
  unfold kk
  exact conv_rad (r := fun _ d => dpt g p d - dpt g q d) (r0 := fun d => dpt g p d - dpt g q d) hh hhs h
    (fun _ _ => tendsto_const_nhds) (dco_lt hg p) (dco_lt hg q)

theorem noise_tendsto (hg : GpOk g) (h : HpConv l hps hp) {N : ι → Arr1} {N0 : Arr1} (hN : ∀ k, NoiseSpec g (hps k) (N k))
    (hN0 : NoiseSpec g hp N0) : Tendsto (fun k => toVec g.nData (N k)) l (𝓝 (toVec g.nData N0)) := by
  refine tendsto_pi_nhds.mpr fun i => ?_
  unfold toVec
  have hi : (i : ℕ) < g.nEval + g.nGrad * g.dim := by rw [← hg.nData]; exact i.2
  rcases row_cases hi with h1 | ⟨j, a, hj, ha, he⟩
  · rw [hN0.val i h1]
    refine Tendsto.congr (fun k => ((hN k).val i h1).symm) ?_
    unfold valVar
    split_ifs
    · exact tendsto_const_nhds
    · exact tendsto_const_nhds
    · exact h .varFval
  · rw [he, hN0.grad j hj a ha]
    refine Tendsto.congr (fun k => ((hN k).grad j hj a ha).symm) ?_
    unfold gradVar
    split_ifs
    · exact tendsto_const_nhds
    · exact tendsto_const_nhds
    · exact h .varFgrad

end

section
variable {n : ℕ} {v : ι → ℝ} {v0 : ℝ} {K : ι → Mat n n} {K0 : Mat n n} {N : ι → Vec n} {N0 : Vec n}

theorem kwn_tendsto (hv : Tendsto v l (𝓝 v0)) (hv0 : v0 ≠ 0) (hK : Tendsto K l (𝓝 K0)) (hN : Tendsto N l (𝓝 N0)) :
    Tendsto (fun k => kwn (v k) (K k) (N k)) l (𝓝 (kwn v0 K0 N0)) := by
  refine mat_tendsto fun i j => ?_
  simp only [kwn, Matrix.add_apply, diagonal_apply]
  refine (mat_entry hK i j).add ?_
  split_ifs
  · exact (vec_entry hN i).div hv hv0
  · exact tendsto_const_nhds

theorem corr_tendsto {A : ι → Mat n n} {A0 : Mat n n} (hA : Tendsto A l (𝓝 A0)) (hd : ∀ i, 0 < A0 i i) :
    Tendsto (fun k => corr (A k)) l (𝓝 (corr A0)) := by
  refine mat_tendsto fun i j => ?_
  simp only [corr, of_apply]
  have hs : ∀ i, Tendsto (fun k => Real.sqrt (A k i i)) l (𝓝 (Real.sqrt (A0 i i))) := fun i =>
    (Real.continuous_sqrt.tendsto _).comp (mat_entry hA i i)
  exact (mat_entry hA i j).div ((hs i).mul (hs j)) (mul_pos (Real.sqrt_pos.mpr (hd i)) (Real.sqrt_pos.mpr (hd j))).ne'

theorem iSup_fin_tendsto {f : ι → Vec n} {f0 : Vec n} (h : Tendsto f l (𝓝 f0)) : Tendsto (fun k => ⨆ i, f k i) l (𝓝 (⨆ i, f0 i)) := by
  rcases isEmpty_or_nonempty (Fin n) with he | he
  · simp only [Real.iSup_of_isEmpty]; exact tendsto_const_nhds
  · simp only [← Finset.sup'_univ_eq_ciSup]
    exact Tendsto.finset_sup'_nhds_apply Finset.univ_nonempty fun i _ => vec_entry h i

theorem rowSup_tendsto {A : ι → Mat n n} {A0 : Mat n n} (hA : Tendsto A l (𝓝 A0)) :
    Tendsto (fun k => ⨆ i, ∑ j, |A k i j|) l (𝓝 (⨆ i, ∑ j, |A0 i j|)) :=
  iSup_fin_tendsto (tendsto_pi_nhds.mpr fun i => tendsto_finsetSum _ fun j _ => (mat_entry hA i j).abs)

theorem eta_tendsto (o : CondOpts) (hv : Tendsto v l (𝓝 v0)) (hv0 : 0 < v0) (hK : Tendsto K l (𝓝 K0)) (hN : Tendsto N l (𝓝 N0))
    (hd : ∀ i, 0 < K0 i i) (hN0 : ∀ i, 0 ≤ N0 i) :
    Tendsto (fun k => if o.etaConst then o.etaK else
        (⨆ i, ∑ j, |(if o.precon then corr (kwn (v k) (K k) (N k)) else K k) i j|) / (o.condMaxTarget - 1)) l
      (𝓝 (if o.etaConst then o.etaK else (⨆ i, ∑ j, |(if o.precon then corr (kwn v0 K0 N0) else K0) i j|) / (o.condMaxTarget - 1))) := by
  have hdk : ∀ i, 0 < kwn v0 K0 N0 i i := by
    intro i
    simp only [kwn, Matrix.add_apply, diagonal_apply_eq]
    have := hd i; have := div_nonneg (hN0 i) hv0.le; linarith
  split_ifs
  · exact tendsto_const_nhds
  · exact (rowSup_tendsto (corr_tendsto (kwn_tendsto hv hv0.ne' hK hN) hdk)).div_const _
  · exact (rowSup_tendsto hK).div_const _

/-- The covariance matrices of converging kernels, noise and prior variance converge. -/
theorem cov_tendsto {o : CondOpts} (hv : Tendsto v l (𝓝 v0)) (hv0 : 0 < v0) (hK : Tendsto K l (𝓝 K0)) (hN : Tendsto N l (𝓝 N0))
    (hd : ∀ i, 0 < K0 i i) (hN0 : ∀ i, 0 ≤ N0 i) {cf cc : Bool} {out : ι → CovOut n} {out0 : CovOut n}
    (h : ∀ k, CovSpec o (v k) (K k) (N k) cf cc (out k)) (h0 : CovSpec o v0 K0 N0 cf cc out0) :
    Tendsto (fun k => (out k).etaK) l (𝓝 out0.etaK) ∧ Tendsto (fun k => (out k).Kcov) l (𝓝 out0.Kcov) := by
  have he : Tendsto (fun k => (out k).etaK) l (𝓝 out0.etaK) := by
    rw [h0.eta]
    exact (eta_tendsto o hv hv0 hK hN hd hN0).congr fun k => (h k).eta.symm
  refine ⟨he, ?_⟩
  rw [h0.cov]
  refine Tendsto.congr (fun k => (h k).cov.symm) ?_
  have hk := kwn_tendsto hv hv0.ne' hK hN
  refine mat_tendsto fun i j => ?_
  simp only [Matrix.smul_apply, Matrix.add_apply, smul_eq_mul]
  refine hv.mul ((mat_entry hk i j).add (he.mul ?_))
  split_ifs
  · simp only [diagonal_apply]
    split_ifs
    · exact mat_entry hk i i
    · exact tendsto_const_nhds
  · exact tendsto_const_nhds

end

end Props
