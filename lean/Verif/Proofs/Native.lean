import Verif.Spec.NativeSpec
import Verif.Proofs.MoreData
import Verif.Proofs.EvalCore3
import Verif.Props.Eval

/-! Error bounds for functions of the native space, and the effect of errors in the data. -/

open Set Filter Topology Np GP Matrix

noncomputable section

namespace Spec

variable {φ φ1 φ2 : ℝ → ℝ} {dim : ℕ} {θ : ℕ → ℝ}

/-- The functional applied to a function with partial derivatives `D`. -/
def fE (h : Pt → ℝ) (D : ℕ → Pt → ℝ) (f : Fnl) : ℝ := match f.o with
  | none => h f.x
  | some i => D i f.x

/-- `∑ c_f f(h)`. -/
def fS (h : Pt → ℝ) (D : ℕ → Pt → ℝ) (L : List Fnl) : ℝ := (L.map fun f => f.c * fE h D f).sum

theorem fS_cons (h : Pt → ℝ) (D : ℕ → Pt → ℝ) (f : Fnl) (L : List Fnl) : fS h D (f :: L) = f.c * fE h D f + fS h D L := by simp [fS]

theorem fS_perm (h : Pt → ℝ) (D : ℕ → Pt → ℝ) {L L' : List Fnl} (hp : L.Perm L') : fS h D L = fS h D L' := (hp.map _).sum_eq

theorem norm_aux (P : Profile φ φ1 φ2) (hθ : ∀ d < dim, 0 ≤ θ d) {h : Pt → ℝ} {D : ℕ → Pt → ℝ} {B : ℝ}
    (hB : NormLe (radial φ dim θ) h B) (L : List Fnl)
    (hL : ∀ f ∈ L, ∀ i ∈ f.o, i < dim ∧ HasDerivAt (fun t => h (Function.update f.x i t)) (D i f.x) (f.x i)) :
    ∀ V : List Fnl, (∀ f ∈ V, f.o = none) → fS h D (L ++ V) ^ 2 ≤ B ^ 2 * fB φ φ1 φ2 dim θ (L ++ V) (L ++ V) := by
  induction L with
  | nil =>
    intro V hVal
    have := hB V.length (fun i => (V[i]).x) (fun i => (V[i]).c)
    have e : fB φ φ1 φ2 dim θ ([] ++ V) ([] ++ V) =
        ∑ i : Fin V.length, ∑ j : Fin V.length, (V[i]).c * (V[j]).c * radial φ dim θ (V[i]).x (V[j]).x := by
      unfold fB
      rw [List.nil_append, ← Fin.sum_univ_fun_getElem]
      refine Finset.sum_congr rfl fun i _ => ?_
      rw [← Fin.sum_univ_fun_getElem]
      refine Finset.sum_congr rfl fun j _ => ?_
      unfold fK
      rw [hVal V[i.1] (List.getElem_mem _), hVal V[j.1] (List.getElem_mem _)]
      rfl
    have e2 : fS h D ([] ++ V) = ∑ i : Fin V.length, (V[i]).c * h (V[i]).x := by
      unfold fS
      rw [List.nil_append, ← Fin.sum_univ_fun_getElem]
      refine Finset.sum_congr rfl fun i _ => ?_
      unfold fE
      rw [hVal V[i.1] (List.getElem_mem _)]
      rfl
    rw [e, e2]; exact this
  | cons d L ih =>
    intro V hVal
    have ih' := ih fun f hf => hL f (by simp [hf])
    match ho : d.o with
    | none =>
      have hp : (d :: L ++ V).Perm (L ++ d :: V) := List.perm_middle.symm
      rw [fB_perm hp, fS_perm h D hp]
      exact ih' (d :: V) (by
        intro f hf
        rcases List.mem_cons.mp hf with rfl | h
        · exact ho
        · exact hVal f h)
    | some i =>
      obtain ⟨hi, hder0⟩ := hL d (by simp) i ho
      set M := L ++ V with hM
      have hMd : ∀ g ∈ M, ∀ i ∈ g.o, i < dim := by
        intro g hg j hj
        rcases List.mem_append.mp hg with h | h
        · exact (hL g (by simp [h]) j hj).1
        · rw [hVal g h] at hj; simp at hj
      set p : ℝ → Fnl := fun h => ⟨Function.update d.x i (d.x i + h), none, d.c / h⟩ with hp
      set q : ℝ → Fnl := fun h => ⟨d.x, none, -(d.c / h)⟩ with hq
      have hQ : ∀ s, fS h D (p s :: q s :: M) ^ 2 ≤ B ^ 2 * fB φ φ1 φ2 dim θ (p s :: q s :: M) (p s :: q s :: M) := by
        intro s
        have := ih' (p s :: q s :: V) (by
          intro f hf
          rcases List.mem_cons.mp hf with rfl | hf
          · rfl
          rcases List.mem_cons.mp hf with rfl | hf
          · rfl
          exact hVal f hf)
        have hperm : (L ++ p s :: q s :: V).Perm (p s :: q s :: M) :=
          List.perm_middle.trans ((List.perm_middle).cons _)
        rwa [fB_perm hperm, fS_perm h D hperm] at this
      have hlin : ∀ (x : Pt) (c c' : ℝ), fLin φ φ1 φ2 dim θ M ⟨x, none, c⟩ = fLin φ φ1 φ2 dim θ M ⟨x, none, c'⟩ :=
        fun _ _ _ => rfl
      have hexp : ∀ h, h ≠ 0 → fB φ φ1 φ2 dim θ (p h :: q h :: M) (p h :: q h :: M) =
          d.c * d.c * ((2 * φ 0 - 2 * φ (θ i * h ^ 2)) / h ^ 2) +
          2 * d.c * (h⁻¹ • (fLin φ φ1 φ2 dim θ M ⟨Function.update d.x i (d.x i + h), none, 1⟩ -
            fLin φ φ1 φ2 dim θ M ⟨Function.update d.x i (d.x i), none, 1⟩)) + fB φ φ1 φ2 dim θ M M := by
        intro h hh
        rw [fB_cons, fB_cons, fLin_cons]
        have k1 : fK φ φ1 φ2 dim θ (p h) (p h) = φ 0 := by
          show φ (wdist2 dim θ _ _) = _; rw [wdist2_self]
        have k2 : fK φ φ1 φ2 dim θ (q h) (q h) = φ 0 := by
          show φ (wdist2 dim θ _ _) = _; rw [wdist2_self]
        have k3 : fK φ φ1 φ2 dim θ (q h) (p h) = φ (θ i * h ^ 2) := by
          show φ (wdist2 dim θ _ _) = _
          rw [wdist2_comm, wdist2_update θ d.x hi]
        rw [k1, k2, k3, Function.update_eq_self]
        rw [show fLin φ φ1 φ2 dim θ M (p h) = fLin φ φ1 φ2 dim θ M ⟨Function.update d.x i (d.x i + h), none, 1⟩ from rfl,
          show fLin φ φ1 φ2 dim θ M (q h) = fLin φ φ1 φ2 dim θ M ⟨d.x, none, 1⟩ from rfl]
        simp only [hp, hq, smul_eq_mul]
        field_simp
        ring
      have hexpS : ∀ s, fS h D (p s :: q s :: M) = d.c * (s⁻¹ • (h (Function.update d.x i (d.x i + s)) -
          h (Function.update d.x i (d.x i)))) + fS h D M := by
        intro s
        rw [fS_cons, fS_cons, Function.update_eq_self]
        simp only [hp, hq, smul_eq_mul, fE]
        ring
      have hder := fLin_hasDeriv P hθ M hMd d.x hi 1
      have ht := ((diag_tendsto P (hθ i hi)).const_mul (d.c * d.c)).add
        ((hasDerivAt_iff_tendsto_slope_zero.mp hder).const_mul (2 * d.c))
      have ht2 := (ht.add (tendsto_const_nhds (x := fB φ φ1 φ2 dim θ M M))).const_mul (B ^ 2)
      have hS := (((hasDerivAt_iff_tendsto_slope_zero.mp hder0).const_mul d.c).add (tendsto_const_nhds (x := fS h D M))).pow 2
      have hfin : fB φ φ1 φ2 dim θ (d :: L ++ V) (d :: L ++ V) =
          d.c * d.c * (-(2 * θ i * φ1 0)) + 2 * d.c * fLin φ φ1 φ2 dim θ M ⟨d.x, some i, 1⟩ + fB φ φ1 φ2 dim θ M M := by
        rw [List.cons_append, ← hM, fB_cons]
        have k1 : fK φ φ1 φ2 dim θ d d = -(2 * θ i * φ1 0) := by
          unfold fK
          rw [ho]
          simp only [radKG, sub_self, kron_self]
          have : ssq dim θ (fun _ => 0) = 0 := by simp [ssq]
          rw [this]; ring
        have k2 : fLin φ φ1 φ2 dim θ M d = fLin φ φ1 φ2 dim θ M ⟨d.x, some i, 1⟩ := by
          unfold fLin fK; rw [ho]
        rw [k1, k2]
      have hfinS : fS h D (d :: L ++ V) = d.c * D i d.x + fS h D M := by
        rw [List.cons_append, ← hM, fS_cons]
        have : fE h D d = D i d.x := by unfold fE; rw [ho]
        rw [this]
      rw [hfin, hfinS]
      refine le_of_tendsto_of_tendsto hS ht2 ?_
      filter_upwards [self_mem_nhdsWithin] with s hs
      rw [← hexp s hs, ← hexpS s]
      exact hQ s

/-- A function of the native space: values and partial derivatives together are bounded by the norm. -/
theorem norm_fnl (P : Profile φ φ1 φ2) (hθ : ∀ d < dim, 0 ≤ θ d) {h : Pt → ℝ} {B : ℝ}
    (hB : NormLe (radial φ dim θ) h B) (n : ℕ) (X : Fin n → Pt) (o : Fin n → Option ℕ) (y c : Fin n → ℝ)
    (hv : ∀ a, o a = none → y a = h (X a))
    (hd : ∀ a, ∀ i ∈ o a, i < dim ∧ HasDerivAt (fun t => h (Function.update (X a) i t)) (y a) (X a i)) :
    (∑ a, c a * y a) ^ 2 ≤ B ^ 2 * ∑ a, ∑ b, c a * c b * radKG φ φ1 φ2 dim θ (fun d => X a d - X b d) (o a) (o b) := by
  set D : ℕ → Pt → ℝ := fun i x => deriv (fun t => h (Function.update x i t)) (x i) with hD
  have := norm_aux P hθ (D := D) hB (List.ofFn fun a => (⟨X a, o a, c a⟩ : Fnl)) (by
    intro f hf i hi
    obtain ⟨a, rfl⟩ := List.mem_ofFn.mp hf
    obtain ⟨h1, h2⟩ := hd a i hi
    exact ⟨h1, h2.congr_deriv h2.deriv.symm⟩) [] (by simp)
  rw [List.append_nil] at this
  unfold fB fS at this
  rw [List.map_ofFn, List.sum_ofFn, List.map_ofFn, List.sum_ofFn] at this
  have e1 : ∑ a, c a * y a = ∑ a, ((fun f : Fnl => f.c * fE h D f) ∘ fun a => (⟨X a, o a, c a⟩ : Fnl)) a := by
    refine Finset.sum_congr rfl fun a _ => ?_
    show c a * y a = c a * fE h D ⟨X a, o a, c a⟩
    congr 1
    match ho : o a with
    | none => simp only [fE]; exact hv a ho
    | some i =>
      simp only [fE, hD]
      exact ((hd a i (by rw [ho]; rfl)).2.deriv).symm
  rw [e1]
  refine this.trans_eq ?_
  congr 1
  refine Finset.sum_congr rfl fun a _ => ?_
  simp only [Function.comp, List.map_ofFn, List.sum_ofFn]
  rfl

end Spec

namespace GP

/-- `bᵀ` in a positive definite inverse: Cauchy–Schwarz. -/
theorem inv_cs {n : ℕ} {M : Mat n n} (hM : M.PosDef) (k δ : Vec n) :
    (k ⬝ᵥ M⁻¹ *ᵥ δ) ^ 2 ≤ (k ⬝ᵥ M⁻¹ *ᵥ k) * (δ ⬝ᵥ M⁻¹ *ᵥ δ) := by
  have hdet : IsUnit M.det := hM.det_pos.ne'.isUnit
  set u := M⁻¹ *ᵥ δ with hu
  have hMu : M *ᵥ u = δ := by rw [hu, mulVec_mulVec, mul_nonsing_inv _ hdet, one_mulVec]
  have key : ∀ t : ℝ, 2 * t * (k ⬝ᵥ u) - t ^ 2 * (δ ⬝ᵥ u) ≤ k ⬝ᵥ M⁻¹ *ᵥ k := by
    intro t
    have := quad_ge hM k (t • u)
    rw [smul_dotProduct, mulVec_smul, smul_dotProduct, dotProduct_smul, hMu, dotProduct_comm u k, dotProduct_comm u δ] at this
    simp only [smul_eq_mul] at this
    linarith
  have h0 : 0 ≤ δ ⬝ᵥ u := by
    have := quad_ge hM δ 0
    simp only [zero_dotProduct, mulVec_zero, mul_zero, sub_zero] at this
    exact this
  rcases h0.eq_or_lt with h | h
  · have hb : k ⬝ᵥ u = 0 := by
      by_contra hb
      have := key ((k ⬝ᵥ M⁻¹ *ᵥ k + 1) / (2 * (k ⬝ᵥ u)))
      rw [← h] at this
      have e : 2 * ((k ⬝ᵥ M⁻¹ *ᵥ k + 1) / (2 * (k ⬝ᵥ u))) * (k ⬝ᵥ u) = k ⬝ᵥ M⁻¹ *ᵥ k + 1 := by field_simp
      rw [e] at this
      linarith
    rw [hb, ← h]; simp
  · have := key ((k ⬝ᵥ u) / (δ ⬝ᵥ u))
    have e : 2 * ((k ⬝ᵥ u) / (δ ⬝ᵥ u)) * (k ⬝ᵥ u) - ((k ⬝ᵥ u) / (δ ⬝ᵥ u)) ^ 2 * (δ ⬝ᵥ u) = (k ⬝ᵥ u) ^ 2 / (δ ⬝ᵥ u) := by
      field_simp; ring
    rw [e, div_le_iff₀ h] at this
    exact this

/-- The added diagonal bounds the inverse. -/
theorem inv_diag_le {n : ℕ} {M K : Mat n n} {d : Vec n} (hM : M.PosDef) (hK : K.PosSemidef) (hd : ∀ i, 0 < d i)
    (hMK : M = K + diagonal d) (δ : Vec n) : δ ⬝ᵥ M⁻¹ *ᵥ δ ≤ ∑ i, δ i ^ 2 / d i := by
  rw [← quad_eq hM δ]
  set u := M⁻¹ *ᵥ δ
  have h1 : 0 ≤ u ⬝ᵥ K *ᵥ u := by simpa using hK.dotProduct_mulVec_nonneg u
  have h2 : u ⬝ᵥ M *ᵥ u = u ⬝ᵥ K *ᵥ u + ∑ i, d i * u i ^ 2 := by
    rw [hMK, add_mulVec, dotProduct_add]
    congr 1
    simp only [dotProduct, mulVec_diagonal]
    exact Finset.sum_congr rfl fun i _ => by ring
  have h3 : 2 * (u ⬝ᵥ δ) - ∑ i, d i * u i ^ 2 ≤ ∑ i, δ i ^ 2 / d i := by
    simp only [dotProduct, Finset.mul_sum, ← Finset.sum_sub_distrib]
    refine Finset.sum_le_sum fun i _ => ?_
    rw [le_div_iff₀ (hd i)]
    nlinarith [sq_nonneg (d i * u i - δ i)]
  linarith

end GP

open Spec

namespace GP

section
variable {g : Gp} {hp : HpVals}

/-- The bordered quadratic form. -/
theorem border_form (hg : GpOk g) (hh : HpAdm g hp) {K : Mat g.nData g.nData} (hK : IsKern g hp K) (x : Pt) (c : Vec g.nData) (s : ℝ) :
    (∑ a : Fin (g.nData + 1), ∑ b : Fin (g.nData + 1), snocV c s a * snocV c s b *
      radKG (prφ g.kernel (alphaOf g.kernel hp.kernel)) (prφ1 g.kernel (alphaOf g.kernel hp.kernel))
        (prφ2 g.kernel (alphaOf g.kernel hp.kernel)) g.dim (thF hp)
        (fun d => (Fin.snoc (α := fun _ => Pt) (fun q : Fin g.nData => dpt g q) x a) d -
          (Fin.snoc (α := fun _ => Pt) (fun q : Fin g.nData => dpt g q) x b) d)
        (Fin.snoc (α := fun _ => Option ℕ) (fun q : Fin g.nData => dco g q) none a)
        (Fin.snoc (α := fun _ => Option ℕ) (fun q : Fin g.nData => dco g q) none b)) =
      c ⬝ᵥ K *ᵥ c + 2 * s * (c ⬝ᵥ kv g hp x) + s ^ 2 := by
  simp only [Fin.sum_univ_castSucc, Fin.snoc_castSucc, Fin.snoc_last, snocV_c, snocV_l]
  have e1 : ∀ q : Fin g.nData, radKG (prφ g.kernel (alphaOf g.kernel hp.kernel)) (prφ1 g.kernel (alphaOf g.kernel hp.kernel))
      (prφ2 g.kernel (alphaOf g.kernel hp.kernel)) g.dim (thF hp) (fun d => x d - dpt g q d) none (dco g q) = kv g hp x q :=
    fun q => radKG_symm (fun d => by ring) _ _
  have e2 : radKG (prφ g.kernel (alphaOf g.kernel hp.kernel)) (prφ1 g.kernel (alphaOf g.kernel hp.kernel))
      (prφ2 g.kernel (alphaOf g.kernel hp.kernel)) g.dim (thF hp) (fun d => x d - x d) none none = 1 := by
    simp only [radKG, sub_self]
    rw [show ssq g.dim (thF hp) (fun _ => 0) = 0 by simp [ssq]]
    exact Props.prφ_zero g.kernel _
  simp only [e1, e2]
  have e3 : c ⬝ᵥ K *ᵥ c = ∑ a, ∑ b, c a * c b * kk g hp a b := by
    simp only [dotProduct, mulVec, Finset.mul_sum]
    refine Finset.sum_congr rfl fun a _ => Finset.sum_congr rfl fun b _ => ?_
    rw [isKern_entry hg hh hK]; ring
  rw [e3, Finset.sum_add_distrib]
  have e4 : ∑ a : Fin g.nData, c a * s * radKG (prφ g.kernel (alphaOf g.kernel hp.kernel)) (prφ1 g.kernel (alphaOf g.kernel hp.kernel))
      (prφ2 g.kernel (alphaOf g.kernel hp.kernel)) g.dim (thF hp) (fun d => dpt g a d - x d) (dco g a) none = s * (c ⬝ᵥ kv g hp x) := by
    simp only [dotProduct, Finset.mul_sum]
    refine Finset.sum_congr rfl fun a _ => ?_
    show _ = s * (c a * radKG _ _ _ _ _ _ _ _); ring
  have e5 : ∑ b : Fin g.nData, s * c b * kv g hp x b = s * (c ⬝ᵥ kv g hp x) := by
    simp only [dotProduct, Finset.mul_sum]
    refine Finset.sum_congr rfl fun a _ => ?_
    ring
  rw [e4, e5]
  simp only [kk]
  ring

/-- The rows of the data vector, without prior mean and errors, are those of `h - β`. -/
theorem observed_rows (hg : GpOk g) {h : Pt → ℝ} {β : ℝ} {y : Vec g.nData} {e : ℕ → ℝ} (ho : Observes g h e) (hy : DataSpec g y)
    (q : Fin g.nData) : (dco g q = none → y q - priorMean g β q - e q = h (dpt g q) - β) ∧
      ∀ i ∈ dco g q, i < g.dim ∧ HasDerivAt (fun s => h (Function.update (dpt g q) i s) - β) (y q - priorMean g β q - e q) (dpt g q i) := by
  have hq : (q : ℕ) < g.nEval + g.nGrad * g.dim := by rw [← hg.nData]; exact q.2
  rcases row_cases hq with h1 | ⟨j, a, hj, ha, he⟩
  · have e1 : dco g q = none := by unfold dco; rw [dIx_val h1]; rfl
    have e2 : dpt g q = g.x.get q := by unfold dpt; rw [dIx_val h1]; rfl
    refine ⟨fun _ => ?_, fun i hi => by rw [e1] at hi; cases hi⟩
    rw [e2]
    simp only [priorMean, h1, if_true]
    rw [hy.val q h1, ho.val q h1]; ring
  · have e1 : dco g q = some j := by unfold dco; rw [he, dIx_grad hj ha]; rfl
    have e2 : dpt g q = g.x.get (gSel g.bvec a) := by unfold dpt; rw [he, dIx_grad hj ha]; rfl
    have hu : g.useGrad = true := by
      by_contra hu
      rw [hg.nGrad] at ha
      simp [hu] at ha
    obtain ⟨G, hG, -⟩ := hg.grad_some hu
    refine ⟨(fun hn => by rw [e1] at hn; cases hn), fun i hi => ?_⟩
    rw [e1] at hi
    cases hi
    refine ⟨hj, ?_⟩
    rw [e2]
    refine (ho.grad G hG a ha j hj).sub_const β |>.congr_deriv ?_
    have h1 : ¬ (q : ℕ) < g.nEval := by omega
    simp only [priorMean, h1, if_false]
    rw [hy.grad G hG q j hj a ha he, he]; ring

/-- The error of the prediction from exact data of a function of the native space. -/
theorem native_err (hg : GpOk g) (hh : HpAdm g hp) {K M : Mat g.nData g.nData} (hK : IsKern g hp K) {d : Vec g.nData}
    (hd : ∀ i, 0 ≤ d i) (hM : M = K + diagonal d) (hpd : M.PosDef) {h : Pt → ℝ} {β B : ℝ}
    (hB : NormLe (gpKern g hp) (fun x => h x - β) B) {y : Vec g.nData} {e : ℕ → ℝ} (ho : Observes g h e) (hy : DataSpec g y) (x : Pt) :
    (h x - (β + kv g hp x ⬝ᵥ M⁻¹ *ᵥ (fun q : Fin g.nData => y q - priorMean g β q - e q))) ^ 2 ≤ B ^ 2 * s2F g hp M x := by
  have P := prProfile g.kernel (alphaOf_pos hh.kernel)
  have hθ : ∀ d < g.dim, 0 ≤ thF hp d := fun d hd => (thF_pos hh d hd).le
  rw [gpKern_canon hh] at hB
  set t : Vec g.nData := fun q => y q - priorMean g β q - e q with ht
  set k := kv g hp x with hk
  have hu : IsUnit M.det := (posDef_detne hpd).isUnit
  set c : Vec g.nData := M⁻¹ *ᵥ k with hc
  have hMc : M *ᵥ c = k := by rw [hc, mulVec_mulVec, mul_nonsing_inv _ hu, one_mulVec]
  have hdat := observed_rows hg ho hy (β := β)
  have key := norm_fnl P hθ hB (g.nData + 1) (Fin.snoc (α := fun _ => Pt) (fun q : Fin g.nData => dpt g q) x)
    (Fin.snoc (α := fun _ => Option ℕ) (fun q : Fin g.nData => dco g q) none) (snocV t (h x - β)) (snocV c (-1)) (by
      intro a
      refine Fin.lastCases ?_ (fun q => ?_) a
      · simp [snocV_l]
      · simpa [snocV_c] using (hdat q).1) (by
      intro a
      refine Fin.lastCases ?_ (fun q => ?_) a
      · simp
      · simpa [snocV_c] using (hdat q).2)
  rw [border_form hg hh hK x c (-1)] at key
  simp only [Fin.sum_univ_castSucc, snocV_c, snocV_l] at key
  have h2 : c ⬝ᵥ M *ᵥ c = c ⬝ᵥ K *ᵥ c + ∑ i, d i * c i ^ 2 := by
    rw [hM, add_mulVec, dotProduct_add]
    congr 1
    simp only [dotProduct, mulVec_diagonal]
    exact Finset.sum_congr rfl fun i _ => by ring
  rw [hMc] at h2
  have h3 : 0 ≤ ∑ i, d i * c i ^ 2 := Finset.sum_nonneg fun i _ => mul_nonneg (hd i) (sq_nonneg _)
  have h4 : s2F g hp M x = 1 - c ⬝ᵥ k := by unfold s2F; rw [← hk, ← hc, dotProduct_comm]
  have h5 : k ⬝ᵥ M⁻¹ *ᵥ t = ∑ q, c q * t q := by
    have hT : M⁻¹ᵀ = M⁻¹ := by
      have := hpd.inv.isHermitian.eq
      rwa [conjTranspose_eq_transpose_of_trivial] at this
    rw [dotProduct_mulVec, ← mulVec_transpose, hT]; rfl
  rw [h4, h5]
  calc _ = (∑ q, c q * t q + -1 * (h x - β)) ^ 2 := by ring
    _ ≤ _ := key
    _ ≤ _ := mul_le_mul_of_nonneg_left (by linarith) (sq_nonneg _)

end

end GP

namespace GP

section
variable {g : Gp} {hp : HpVals}

/-- Combinations of covariances with the data belong to the native space. -/
theorem comb_norm (hg : GpOk g) (hh : HpAdm g hp) {K : Mat g.nData g.nData} (hK : IsKern g hp K) (w : Vec g.nData) :
    0 ≤ w ⬝ᵥ K *ᵥ w ∧ NormLe (gpKern g hp) (fun x => kv g hp x ⬝ᵥ w) (Real.sqrt (w ⬝ᵥ K *ᵥ w)) := by
  have P := prProfile g.kernel (alphaOf_pos hh.kernel)
  have hV := valPsd_pr g.kernel (alphaOf_pos hh.kernel)
  have hθ : ∀ d < g.dim, 0 ≤ thF hp d := fun d hd => (thF_pos hh d hd).le
  set κ : Pt → Pt → ℝ := radial (prφ g.kernel (alphaOf g.kernel hp.kernel)) g.dim (thF hp) with hκ
  have e3 : w ⬝ᵥ K *ᵥ w = ∑ a, ∑ b, w a * w b * kk g hp a b := by
    simp only [dotProduct, mulVec, Finset.mul_sum]
    refine Finset.sum_congr rfl fun a _ => Finset.sum_congr rfl fun b _ => ?_
    rw [isKern_entry hg hh hK]; ring
  have key : ∀ (n : ℕ) (x : Fin n → Pt) (a : Fin n → ℝ) (s t : ℝ), 0 ≤ s ^ 2 * (∑ i, ∑ j, a i * a j * κ (x i) (x j)) +
      2 * (s * t) * (∑ i, a i * (kv g hp (x i) ⬝ᵥ w)) + t ^ 2 * (w ⬝ᵥ K *ᵥ w) := by
    intro n x a s t
    have := fnl_psd P hV hθ (n + g.nData) (Fin.append x fun q : Fin g.nData => dpt g q)
      (Fin.append (fun _ => none) fun q : Fin g.nData => dco g q) (by
        intro b
        refine Fin.addCases (fun i => ?_) (fun q => ?_) b
        · simp
        · simpa using dco_lt hg q) (Fin.append (fun i => s * a i) (fun q => t * w q))
    simp only [Fin.sum_univ_add, Fin.append_left, Fin.append_right] at this
    refine this.trans_eq ?_
    rw [Finset.sum_add_distrib, Finset.sum_add_distrib]
    have e1 : ∀ (q : Fin g.nData) (i : Fin n), radKG (prφ g.kernel (alphaOf g.kernel hp.kernel)) (prφ1 g.kernel (alphaOf g.kernel hp.kernel))
        (prφ2 g.kernel (alphaOf g.kernel hp.kernel)) g.dim (thF hp) (fun d => x i d - dpt g q d) none (dco g q) = kv g hp (x i) q :=
      fun q i => radKG_symm (fun d => by ring) _ _
    have e2 : ∀ (q : Fin g.nData) (i : Fin n), radKG (prφ g.kernel (alphaOf g.kernel hp.kernel)) (prφ1 g.kernel (alphaOf g.kernel hp.kernel))
        (prφ2 g.kernel (alphaOf g.kernel hp.kernel)) g.dim (thF hp) (fun d => dpt g q d - x i d) (dco g q) none = kv g hp (x i) q :=
      fun q i => rfl
    have e4 : ∀ i j : Fin n, radKG (prφ g.kernel (alphaOf g.kernel hp.kernel)) (prφ1 g.kernel (alphaOf g.kernel hp.kernel))
        (prφ2 g.kernel (alphaOf g.kernel hp.kernel)) g.dim (thF hp) (fun d => x i d - x j d) none none = κ (x i) (x j) := fun i j => rfl
    have e5 : ∀ p q : Fin g.nData, radKG (prφ g.kernel (alphaOf g.kernel hp.kernel)) (prφ1 g.kernel (alphaOf g.kernel hp.kernel))
        (prφ2 g.kernel (alphaOf g.kernel hp.kernel)) g.dim (thF hp) (fun d => dpt g p d - dpt g q d) (dco g p) (dco g q) = kk g hp p q :=
      fun p q => rfl
    simp only [e1, e2, e4, e5]
    have f1 : ∑ i, ∑ j, s * a i * (s * a j) * κ (x i) (x j) = s ^ 2 * ∑ i, ∑ j, a i * a j * κ (x i) (x j) := by
      simp only [Finset.mul_sum]
      exact Finset.sum_congr rfl fun i _ => Finset.sum_congr rfl fun j _ => by ring
    have f2 : ∑ i, ∑ q, s * a i * (t * w q) * kv g hp (x i) q = s * t * ∑ i, a i * (kv g hp (x i) ⬝ᵥ w) := by
      simp only [Finset.mul_sum, dotProduct]
      exact Finset.sum_congr rfl fun i _ => Finset.sum_congr rfl fun j _ => by ring
    have f3 : ∑ q, ∑ i, t * w q * (s * a i) * kv g hp (x i) q = s * t * ∑ i, a i * (kv g hp (x i) ⬝ᵥ w) := by
      rw [Finset.sum_comm]
      simp only [Finset.mul_sum, dotProduct]
      exact Finset.sum_congr rfl fun i _ => Finset.sum_congr rfl fun j _ => by ring
    have f4 : ∑ p : Fin g.nData, ∑ q : Fin g.nData, t * w p * (t * w q) * kk g hp p q = t ^ 2 * (w ⬝ᵥ K *ᵥ w) := by
      rw [e3]
      simp only [Finset.mul_sum]
      exact Finset.sum_congr rfl fun i _ => Finset.sum_congr rfl fun j _ => by ring
    rw [f1, f2, f3, f4]; ring
  have hC0 : 0 ≤ w ⬝ᵥ K *ᵥ w := by simpa using key 0 Fin.elim0 Fin.elim0 0 1
  refine ⟨hC0, ?_⟩
  rw [gpKern_canon hh]
  intro n x a
  show (∑ i, a i * (kv g hp (x i) ⬝ᵥ w)) ^ 2 ≤ _
  rw [Real.sq_sqrt hC0]
  set A := ∑ i, ∑ j, a i * a j * κ (x i) (x j) with hA
  set b := ∑ i, a i * (kv g hp (x i) ⬝ᵥ w) with hb
  set C := w ⬝ᵥ K *ᵥ w with hC
  have hA0 : 0 ≤ A := by simpa using key n x a 1 0
  rcases hA0.eq_or_lt with h0 | h0
  · have hb0 : b = 0 := by
      by_contra hne
      have := key n x a (-(C + 1) / (2 * b)) 1
      rw [← hA, ← hb, ← h0] at this
      have e : (-(C + 1) / (2 * b)) ^ 2 * 0 + 2 * (-(C + 1) / (2 * b) * 1) * b + 1 ^ 2 * C = -1 := by field_simp; ring
      rw [e] at this
      linarith
    rw [hb0, ← h0]; simp
  · have := key n x a (-b / A) 1
    have e : (-b / A) ^ 2 * A + 2 * (-b / A * 1) * b + 1 ^ 2 * C = C - b ^ 2 / A := by field_simp; ring
    rw [← hA, ← hb, e, sub_nonneg, div_le_iff₀ h0] at this
    exact this

/-- The data of the function `β + k(·)ᵀw`. -/
theorem comb_observes (hg : GpOk g) (hh : HpAdm g hp) {K : Mat g.nData g.nData} (hK : IsKern g hp K) (w : Vec g.nData) (β : ℝ)
    {y : Vec g.nData} (hy : DataSpec g y) {e : ℕ → ℝ} (he : ∀ q : Fin g.nData, e q = y q - priorMean g β q - (K *ᵥ w) q) :
    Observes g (fun x => β + kv g hp x ⬝ᵥ w) e := by
  have hKw : ∀ p : Fin g.nData, (K *ᵥ w) p = ∑ q : Fin g.nData, kk g hp q p * w q := by
    intro p
    simp only [mulVec, dotProduct]
    refine Finset.sum_congr rfl fun q _ => ?_
    rw [isKern_entry hg hh hK]
    congr 1
    exact radKG_symm (fun d => by ring) _ _
  have hle : g.nEval ≤ g.nData := by rw [hg.nData]; omega
  refine ⟨fun p hp' => ?_, fun A hA r hr i hi => ?_⟩
  · set q : Fin g.nData := ⟨p, by omega⟩ with hq
    have e1 := he q
    rw [hy.val q hp', hKw q] at e1
    have e2 : priorMean g β q = β := by simp [priorMean, hq, hp']
    have e3 : kv g hp (g.x.get p) ⬝ᵥ w = ∑ q' : Fin g.nData, kk g hp q' q * w q' := by
      simp only [dotProduct]
      refine Finset.sum_congr rfl fun q' _ => ?_
      have d1 : dpt g q = g.x.get p := by unfold dpt; rw [dIx_val hp']; rfl
      have d2 : dco g q = none := by unfold dco; rw [dIx_val hp']; rfl
      unfold kk kv
      rw [d1, d2]
    show g.fval.get p = β + kv g hp (g.x.get p) ⬝ᵥ w + e p
    rw [e3]
    rw [e2] at e1
    have : e p = g.fval.get p - β - ∑ q' : Fin g.nData, kk g hp q' q * w q' := e1
    rw [this]; ring
  · have hlt : g.nEval + i * g.nGrad + r < g.nData := by
      rw [hg.nData]
      have : (i + 1) * g.nGrad ≤ g.dim * g.nGrad := Nat.mul_le_mul_right _ hi
      nlinarith
    set q : Fin g.nData := ⟨g.nEval + i * g.nGrad + r, hlt⟩ with hq
    have hn : ¬ (q : ℕ) < g.nEval := by simp only [hq]; omega
    have e1 := he q
    rw [hy.grad A hA q i hi r hr rfl, hKw q] at e1
    have e2 : priorMean g β q = 0 := by simp only [priorMean, hn, if_false]
    have d1 : dpt g q = g.x.get (gSel g.bvec r) := by unfold dpt; rw [hq]; simp only; rw [dIx_grad hi hr]; rfl
    have d2 : dco g q = some i := by unfold dco; rw [hq]; simp only; rw [dIx_grad hi hr]; rfl
    have hder : HasDerivAt (fun t => ∑ q', kv g hp (Function.update (g.x.get (gSel g.bvec r)) i t) q' * w q')
        (∑ q', kd g hp (g.x.get (gSel g.bvec r)) i q' * w q') (g.x.get (gSel g.bvec r) i) :=
      HasDerivAt.fun_sum fun q' _ => (kv_deriv hg hh (g.x.get (gSel g.bvec r)) hi q').mul_const (w q')
    refine (hder.const_add β).congr_deriv ?_
    have e3 : ∑ q', kd g hp (g.x.get (gSel g.bvec r)) i q' * w q' = ∑ q' : Fin g.nData, kk g hp q' q * w q' := by
      refine Finset.sum_congr rfl fun q' _ => ?_
      unfold kk kd
      rw [d1, d2]
    rw [e3]
    rw [e2] at e1
    have : e (g.nEval + i * g.nGrad + r) = A.get r i - 0 - ∑ q' : Fin g.nData, kk g hp q' q * w q' := e1
    rw [this]; ring

end

end GP

namespace GP

/-- Two Cauchy–Schwarz bounds together. -/
theorem cs_add {a b A P E R : ℝ} (hA : 0 ≤ A) (hP : 0 ≤ P) (hE : 0 ≤ E) (hR : 0 ≤ R) (ha : a ^ 2 ≤ A * P) (hb : b ^ 2 ≤ E * R) :
    (a + b) ^ 2 ≤ (A + E) * (P + R) := by
  have h1 : (a * b) ^ 2 ≤ (A * R) * (E * P) := by
    rw [mul_pow]
    calc a ^ 2 * b ^ 2 ≤ (A * P) * (E * R) := mul_le_mul ha hb (sq_nonneg _) (mul_nonneg hA hP)
      _ = _ := by ring
  have h2 : 2 * (a * b) ≤ A * R + E * P := by
    have h3 : (2 * (a * b)) ^ 2 ≤ (A * R + E * P) ^ 2 := by nlinarith [sq_nonneg (A * R - E * P)]
    exact abs_le_of_sq_le_sq' h3 (add_nonneg (mul_nonneg hA hR) (mul_nonneg hE hP)) |>.2
  nlinarith

/-- From all `λ` to the product bound. -/
theorem lam_bound {J J0 δ s : ℝ} (hJ : 0 ≤ J) (hJ0 : 0 ≤ J0) (hs : 0 ≤ s)
    (h : ∀ l : ℝ, (J0 + l * δ) ^ 2 ≤ J * (J0 + l ^ 2 * s)) : J0 ≤ J ∧ δ ^ 2 ≤ (J - J0) * s := by
  have h0 : J0 ≤ J := by
    have := h 0
    simp only [zero_mul, add_zero, ne_eq, OfNat.ofNat_ne_zero, not_false_eq_true, zero_pow] at this
    rcases hJ0.eq_or_lt with h0 | h0
    · rw [← h0]; exact hJ
    · rw [sq] at this
      exact le_of_mul_le_mul_right this h0
  refine ⟨h0, ?_⟩
  rcases hJ0.eq_or_lt with h1 | h1
  · have := h 1
    rw [← h1] at this
    nlinarith
  · by_cases h2 : δ = 0
    · rw [h2]
      have := mul_nonneg (sub_nonneg.mpr h0) hs
      simpa using this
    · have key : ∀ l : ℝ, 0 ≤ l ^ 2 * (J * s - δ ^ 2) - 2 * l * (δ * J0) + J0 * (J - J0) := by
        intro l
        have := h l
        nlinarith
      set q := J * s - δ ^ 2 with hq
      have hqpos : 0 < q := by
        by_contra hn
        push Not at hn
        have := key ((J0 * (J - J0) + 1) / (2 * (δ * J0)))
        have e : 2 * ((J0 * (J - J0) + 1) / (2 * (δ * J0))) * (δ * J0) = J0 * (J - J0) + 1 := by
          field_simp
        rw [e] at this
        have : ((J0 * (J - J0) + 1) / (2 * (δ * J0))) ^ 2 * q ≤ 0 := mul_nonpos_of_nonneg_of_nonpos (sq_nonneg _) hn
        linarith
      have := key (δ * J0 / q)
      have e : (δ * J0 / q) ^ 2 * q - 2 * (δ * J0 / q) * (δ * J0) + J0 * (J - J0) = J0 * (J - J0) - (δ * J0) ^ 2 / q := by
        field_simp; ring
      rw [e, sub_nonneg, div_le_iff₀ hqpos] at this
      have h3 : δ ^ 2 * J0 ≤ (J - J0) * q := by
        have h4 : J0 * (δ ^ 2 * J0) ≤ J0 * ((J - J0) * q) := by nlinarith
        exact le_of_mul_le_mul_left h4 h1
      have hJp : 0 < J := lt_of_lt_of_le h1 h0
      have h5 : J * δ ^ 2 ≤ J * ((J - J0) * s) := by rw [hq] at h3; nlinarith
      exact le_of_mul_le_mul_left h5 hJp

section
variable {g : Gp} {hp : HpVals}

/-- A function of the native space: any weighted sum of the value at `x` and the data. -/
theorem native_form (hg : GpOk g) (hh : HpAdm g hp) {K : Mat g.nData g.nData} (hK : IsKern g hp K) {h : Pt → ℝ} {β B : ℝ}
    (hB : NormLe (gpKern g hp) (fun x => h x - β) B) {y : Vec g.nData} {e : ℕ → ℝ} (ho : Observes g h e) (hy : DataSpec g y) (x : Pt)
    (u : Vec g.nData) (s : ℝ) : (u ⬝ᵥ (fun q : Fin g.nData => y q - priorMean g β q - e q) + s * (h x - β)) ^ 2 ≤
      B ^ 2 * (u ⬝ᵥ K *ᵥ u + 2 * s * (u ⬝ᵥ kv g hp x) + s ^ 2) := by
  have P := prProfile g.kernel (alphaOf_pos hh.kernel)
  have hθ : ∀ d < g.dim, 0 ≤ thF hp d := fun d hd => (thF_pos hh d hd).le
  rw [gpKern_canon hh] at hB
  have hdat := observed_rows hg ho hy (β := β)
  have key := norm_fnl P hθ hB (g.nData + 1) (Fin.snoc (α := fun _ => Pt) (fun q : Fin g.nData => dpt g q) x)
    (Fin.snoc (α := fun _ => Option ℕ) (fun q : Fin g.nData => dco g q) none)
    (snocV (fun q : Fin g.nData => y q - priorMean g β q - e q) (h x - β)) (snocV u s) (by
      intro a
      refine Fin.lastCases ?_ (fun q => ?_) a
      · simp [snocV_l]
      · simpa [snocV_c] using (hdat q).1) (by
      intro a
      refine Fin.lastCases ?_ (fun q => ?_) a
      · simp
      · simpa [snocV_c] using (hdat q).2)
  rw [border_form hg hh hK x u s] at key
  simp only [Fin.sum_univ_castSucc, snocV_c, snocV_l] at key
  exact key

/-- The mean is the best compromise between smoothness and fit, and how far another function is from it. -/
theorem smooth_key (hg : GpOk g) (hh : HpAdm g hp) {K M : Mat g.nData g.nData} (hK : IsKern g hp K) {d : Vec g.nData}
    (hd : ∀ i, 0 ≤ d i) (hM : M = K + diagonal d) (hpd : M.PosDef) {h : Pt → ℝ} {β B : ℝ}
    (hB : NormLe (gpKern g hp) (fun x => h x - β) B) {y : Vec g.nData} {e : ℕ → ℝ} (ho : Observes g h e)
    (he : ∀ q : Fin g.nData, d q = 0 → e q = 0) (hy : DataSpec g y) (hs2 : ∀ x, 0 ≤ s2F g hp M x) (x : Pt) :
    (y - priorMean g β) ⬝ᵥ M⁻¹ *ᵥ (y - priorMean g β) ≤ B ^ 2 + ∑ q : Fin g.nData, e q ^ 2 / d q ∧
    (h x - (β + kv g hp x ⬝ᵥ M⁻¹ *ᵥ (y - priorMean g β))) ^ 2 ≤
      (B ^ 2 + ∑ q : Fin g.nData, e q ^ 2 / d q - (y - priorMean g β) ⬝ᵥ M⁻¹ *ᵥ (y - priorMean g β)) * s2F g hp M x := by
  have hu : IsUnit M.det := (posDef_detne hpd).isUnit
  have hMT : Mᵀ = M := by
    have := hpd.isHermitian.eq
    rwa [conjTranspose_eq_transpose_of_trivial] at this
  have hIT : M⁻¹ᵀ = M⁻¹ := by rw [transpose_nonsing_inv, hMT]
  set z := y - priorMean g β with hz
  set k := kv g hp x with hk
  set w := M⁻¹ *ᵥ z with hw
  set c := M⁻¹ *ᵥ k with hc
  have hMw : M *ᵥ w = z := by rw [hw, mulVec_mulVec, mul_nonsing_inv _ hu, one_mulVec]
  have hMc : M *ᵥ c = k := by rw [hc, mulVec_mulVec, mul_nonsing_inv _ hu, one_mulVec]
  have hcz : c ⬝ᵥ z = k ⬝ᵥ w := by
    rw [hw, dotProduct_mulVec k, ← mulVec_transpose, hIT]
  set E := ∑ q : Fin g.nData, e q ^ 2 / d q with hE
  have hE0 : 0 ≤ E := Finset.sum_nonneg fun q _ => div_nonneg (sq_nonneg _) (hd q)
  have hJ0 : 0 ≤ z ⬝ᵥ w := by
    have := quad_ge hpd z 0
    simpa using this
  have main : ∀ l : ℝ, (z ⬝ᵥ w + l * (h x - (β + k ⬝ᵥ w))) ^ 2 ≤ (B ^ 2 + E) * (z ⬝ᵥ w + l ^ 2 * s2F g hp M x) := by
    intro l
    set u : Vec g.nData := w - l • c with hul
    have h1 := native_form hg hh hK hB ho hy x u l
    have h2 : (u ⬝ᵥ fun q : Fin g.nData => e q) ^ 2 ≤ E * ∑ q, d q * u q ^ 2 := by
      have := Finset.sum_mul_sq_le_sq_mul_sq Finset.univ (fun q : Fin g.nData => e q / Real.sqrt (d q)) (fun q => Real.sqrt (d q) * u q)
      have e1 : ∑ q : Fin g.nData, e q / Real.sqrt (d q) * (Real.sqrt (d q) * u q) = u ⬝ᵥ fun q : Fin g.nData => e q := by
        simp only [dotProduct]
        refine Finset.sum_congr rfl fun q _ => ?_
        rcases (hd q).eq_or_lt with h0 | h0
        · rw [he q h0.symm]; simp
        · have := (Real.sqrt_pos.mpr h0).ne'
          field_simp
      have e2 : ∑ q : Fin g.nData, (e q / Real.sqrt (d q)) ^ 2 = E := by
        refine Finset.sum_congr rfl fun q _ => ?_
        rw [div_pow, Real.sq_sqrt (hd q)]
      have e3 : ∑ q : Fin g.nData, (Real.sqrt (d q) * u q) ^ 2 = ∑ q, d q * u q ^ 2 := by
        refine Finset.sum_congr rfl fun q _ => ?_
        rw [mul_pow, Real.sq_sqrt (hd q)]
      rw [e1, e2, e3] at this
      exact this
    have hquad : u ⬝ᵥ M *ᵥ u = u ⬝ᵥ K *ᵥ u + ∑ i, d i * u i ^ 2 := by
      rw [hM, add_mulVec, dotProduct_add]
      congr 1
      simp only [dotProduct, mulVec_diagonal]
      exact Finset.sum_congr rfl fun i _ => by ring
    have hP0 := border_nonneg hg hh hK x u l
    have h3 := cs_add (sq_nonneg B) hP0 hE0 (Finset.sum_nonneg fun q _ => mul_nonneg (hd q) (sq_nonneg (u q))) h1 h2
    have hlin : u ⬝ᵥ (fun q : Fin g.nData => y q - priorMean g β q - e q) + l * (h x - β) + (u ⬝ᵥ fun q : Fin g.nData => e q) =
        z ⬝ᵥ w + l * (h x - (β + k ⬝ᵥ w)) := by
      have e1 : (u ⬝ᵥ fun q : Fin g.nData => y q - priorMean g β q - e q) + (u ⬝ᵥ fun q : Fin g.nData => e q) = u ⬝ᵥ z := by
        rw [← dotProduct_add]
        congr 1
        funext q
        show y q - priorMean g β q - e q + e q = y q - priorMean g β q
        ring
      have e2 : u ⬝ᵥ z = z ⬝ᵥ w - l * (k ⬝ᵥ w) := by
        rw [hul, sub_dotProduct, smul_dotProduct, hcz, dotProduct_comm w z, smul_eq_mul]
      linarith
    have hq : u ⬝ᵥ K *ᵥ u + 2 * l * (u ⬝ᵥ k) + l ^ 2 + ∑ q, d q * u q ^ 2 = z ⬝ᵥ w + l ^ 2 * s2F g hp M x := by
      have e1 : u ⬝ᵥ M *ᵥ u = z ⬝ᵥ w - 2 * l * (k ⬝ᵥ w) + l ^ 2 * (k ⬝ᵥ c) := by
        rw [hul, mulVec_sub, mulVec_smul, hMw, hMc]
        simp only [sub_dotProduct, dotProduct_sub, smul_dotProduct, dotProduct_smul, smul_eq_mul]
        rw [hcz, dotProduct_comm w z, dotProduct_comm w k, dotProduct_comm c k]; ring
      have e2 : u ⬝ᵥ k = k ⬝ᵥ w - l * (k ⬝ᵥ c) := by
        rw [hul, sub_dotProduct, smul_dotProduct, smul_eq_mul, dotProduct_comm w k, dotProduct_comm c k]
      have e3 : s2F g hp M x = 1 - k ⬝ᵥ c := rfl
      rw [hquad] at e1
      rw [e2, e3]
      linarith
    rw [hlin, hq] at h3
    exact h3
  exact lam_bound (add_nonneg (sq_nonneg B) hE0) hJ0 (hs2 x) main

end

end GP
