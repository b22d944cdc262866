import Verif.Proofs.PsdVal
import Mathlib.Algebra.BigOperators.Fin
import Mathlib.Analysis.Calculus.Deriv.Slope

/-! A radial kernel that is positive semidefinite on values is positive semidefinite on values and partial
derivatives. -/

open Set Filter Topology

noncomputable section

namespace Spec

/-- A linear functional: value (`none`) or partial derivative at `x`, with a coefficient. -/
structure Fnl where
  x : Pt
  o : Option ℕ
  c : ℝ

theorem ssq_neg {dim : ℕ} {θ r r' : ℕ → ℝ} (h : ∀ d, r d = -r' d) : ssq dim θ r = ssq dim θ r' := by
  unfold ssq; refine Finset.sum_congr rfl fun d _ => ?_; rw [h d]; ring

theorem radKG_symm {φ φ1 φ2 : ℝ → ℝ} {dim : ℕ} {θ r r' : ℕ → ℝ} (h : ∀ d, r d = -r' d) (ox oy : Option ℕ) :
    radKG φ φ1 φ2 dim θ r ox oy = radKG φ φ1 φ2 dim θ r' oy ox := by
  have hs := ssq_neg (dim := dim) (θ := θ) h
  match ox, oy with
  | none, none => simp only [radKG, hs]
  | some i, none => simp only [radKG, hs, h]; ring
  | none, some j => simp only [radKG, hs, h]; ring
  | some i, some j =>
    simp only [radKG, hs, h]
    by_cases hij : i = j
    · subst hij; ring
    · rw [kron_ne hij, kron_ne (Ne.symm hij)]; ring

section
variable (φ φ1 φ2 : ℝ → ℝ) (dim : ℕ) (θ : ℕ → ℝ)

/-- Covariance of two functionals. -/
def fK (f g : Fnl) : ℝ := radKG φ φ1 φ2 dim θ (fun d => f.x d - g.x d) f.o g.o

/-- `∑_{f∈L} ∑_{g∈M} c_f c_g K(f,g)`. -/
def fB (L M : List Fnl) : ℝ := (L.map fun f => (M.map fun g => f.c * g.c * fK φ φ1 φ2 dim θ f g).sum).sum

/-- `∑_{g∈M} c_g K(g,f)`. -/
def fLin (M : List Fnl) (f : Fnl) : ℝ := (M.map fun g => g.c * fK φ φ1 φ2 dim θ g f).sum
end

variable {φ φ1 φ2 : ℝ → ℝ} {dim : ℕ} {θ : ℕ → ℝ}

theorem fK_symm (f g : Fnl) : fK φ φ1 φ2 dim θ f g = fK φ φ1 φ2 dim θ g f :=
  radKG_symm (fun d => by ring) _ _

theorem fB_perm {L L' : List Fnl} (h : L.Perm L') : fB φ φ1 φ2 dim θ L L = fB φ φ1 φ2 dim θ L' L' := by
  unfold fB
  have h1 : ∀ f : Fnl, (L.map fun g => f.c * g.c * fK φ φ1 φ2 dim θ f g).sum =
      (L'.map fun g => f.c * g.c * fK φ φ1 φ2 dim θ f g).sum := fun f => (h.map _).sum_eq
  simp only [h1]
  exact (h.map _).sum_eq

theorem fB_cons (f : Fnl) (M : List Fnl) : fB φ φ1 φ2 dim θ (f :: M) (f :: M) =
    f.c * f.c * fK φ φ1 φ2 dim θ f f + 2 * f.c * fLin φ φ1 φ2 dim θ M f + fB φ φ1 φ2 dim θ M M := by
  unfold fB fLin
  simp only [List.map_cons, List.sum_cons]
  have h1 : (M.map fun g => f.c * g.c * fK φ φ1 φ2 dim θ f g).sum = f.c * (M.map fun g => g.c * fK φ φ1 φ2 dim θ g f).sum := by
    rw [← List.sum_map_mul_left]
    congr 1
    refine List.map_congr_left fun g _ => ?_
    rw [fK_symm f g]; ring
  have h2 : (M.map fun g => g.c * f.c * fK φ φ1 φ2 dim θ g f +
      (M.map fun g' => g.c * g'.c * fK φ φ1 φ2 dim θ g g').sum).sum =
      f.c * (M.map fun g => g.c * fK φ φ1 φ2 dim θ g f).sum +
      (M.map fun g => (M.map fun g' => g.c * g'.c * fK φ φ1 φ2 dim θ g g').sum).sum := by
    rw [List.sum_map_add, ← List.sum_map_mul_left]
    congr 2
    refine List.map_congr_left fun g _ => ?_
    ring
  rw [h1, h2]; ring

theorem fLin_cons (g : Fnl) (M : List Fnl) (f : Fnl) : fLin φ φ1 φ2 dim θ (g :: M) f =
    g.c * fK φ φ1 φ2 dim θ g f + fLin φ φ1 φ2 dim θ M f := by simp [fLin]

/-- The covariance with a functional is differentiable in its point, and the derivative is the covariance with the
derivative. -/
theorem fK_hasDeriv (P : Profile φ φ1 φ2) (hθ : ∀ d < dim, 0 ≤ θ d) (g : Fnl) (hg : ∀ i ∈ g.o, i < dim) (x : Pt) {i : ℕ}
    (hi : i < dim) (c : ℝ) : HasDerivAt (fun t => fK φ φ1 φ2 dim θ g ⟨Function.update x i t, none, c⟩)
      (fK φ φ1 φ2 dim θ g ⟨x, some i, c⟩) (x i) := by
  have h := radKG_isCov P hθ g.x x g.o (some i) hg (by intro j hj; simp at hj; subst hj; exact hi)
  unfold fK
  match ho : g.o with
  | none =>
    rw [ho] at h
    exact h
  | some j =>
    rw [ho] at h
    obtain ⟨D, h1, h2⟩ := h
    have : D = fun t => radKG φ φ1 φ2 dim θ (fun d => g.x d - Function.update x i t d) (some j) none := by
      funext t
      have h3 := radKG_isCov P hθ g.x (Function.update x i t) (some j) none (by rw [← ho]; exact hg) (by simp)
      exact (h1 t).unique h3
    rw [this] at h2
    exact h2

theorem fLin_hasDeriv (P : Profile φ φ1 φ2) (hθ : ∀ d < dim, 0 ≤ θ d) (M : List Fnl)
    (hM : ∀ g ∈ M, ∀ i ∈ g.o, i < dim) (x : Pt) {i : ℕ} (hi : i < dim) (c : ℝ) :
    HasDerivAt (fun t => fLin φ φ1 φ2 dim θ M ⟨Function.update x i t, none, c⟩)
      (fLin φ φ1 φ2 dim θ M ⟨x, some i, c⟩) (x i) := by
  induction M with
  | nil => simpa [fLin] using hasDerivAt_const (x i) (0 : ℝ)
  | cons g M ih =>
    have h1 := (fK_hasDeriv P hθ g (hM g (by simp)) x hi c).const_mul g.c
    have h2 := ih fun g' hg' => hM g' (by simp [hg'])
    simpa only [fLin_cons] using h1.fun_add h2

/-- Second difference of the kernel on the diagonal. -/
theorem diag_tendsto (P : Profile φ φ1 φ2) {t : ℝ} (ht : 0 ≤ t) :
    Tendsto (fun h : ℝ => (2 * φ 0 - 2 * φ (t * h ^ 2)) / h ^ 2) (𝓝[≠] 0) (𝓝 (-(2 * t * φ1 0))) := by
  rcases ht.eq_or_lt with rfl | hp
  · simp only [zero_mul, sub_self, zero_div, mul_zero, neg_zero]
    exact tendsto_const_nhds
  · have h1 := hasDerivWithinAt_iff_tendsto_slope.mp (P.d1 0 le_rfl)
    have h2 : Tendsto (fun h : ℝ => t * h ^ 2) (𝓝[≠] 0) (𝓝[Ici 0 \ {0}] 0) := by
      refine tendsto_nhdsWithin_iff.mpr ⟨?_, ?_⟩
      · have : Tendsto (fun h : ℝ => t * h ^ 2) (𝓝 0) (𝓝 (t * 0 ^ 2)) :=
          ((continuous_pow 2).const_mul t).tendsto 0
        simp only [ne_eq, OfNat.ofNat_ne_zero, not_false_eq_true, zero_pow, mul_zero] at this
        exact this.mono_left nhdsWithin_le_nhds
      · filter_upwards [self_mem_nhdsWithin] with h hh
        have hh' : h ≠ 0 := hh
        have : 0 < t * h ^ 2 := by positivity
        exact ⟨this.le, this.ne'⟩
    have h3 := (h1.comp h2).const_mul (-(2 * t))
    have e : -(2 * t * φ1 0) = -(2 * t) * φ1 0 := by ring
    rw [e]
    refine h3.congr' ?_
    filter_upwards [self_mem_nhdsWithin] with h hh
    have hh' : h ≠ 0 := hh
    simp only [Function.comp, slope_def_field, sub_zero]
    field_simp
    ring

theorem wdist2_self (dim : ℕ) (θ : ℕ → ℝ) (x : Pt) : wdist2 dim θ x x = 0 := by simp [wdist2]

theorem wdist2_update {dim : ℕ} (θ : ℕ → ℝ) (x : Pt) {i : ℕ} (hi : i < dim) (h : ℝ) :
    wdist2 dim θ (Function.update x i (x i + h)) x = θ i * h ^ 2 := by
  unfold wdist2
  rw [Finset.sum_eq_single i]
  · simp
  · intro d _ hd; simp [Function.update_of_ne hd]
  · intro h; exact absurd (Finset.mem_range.mpr hi) h

theorem fnl_psd_aux (P : Profile φ φ1 φ2) (hV : ValPsd φ) (hθ : ∀ d < dim, 0 ≤ θ d) (D : List Fnl)
    (hD : ∀ f ∈ D, ∀ i ∈ f.o, i < dim) : ∀ V : List Fnl, (∀ f ∈ V, f.o = none) →
      0 ≤ fB φ φ1 φ2 dim θ (D ++ V) (D ++ V) := by
  induction D with
  | nil =>
    intro V hVal
    have := hV dim θ hθ V.length (fun i => (V[i]).x) (fun i => (V[i]).c)
    have e : fB φ φ1 φ2 dim θ ([] ++ V) ([] ++ V) =
        ∑ i : Fin V.length, ∑ j : Fin V.length, (V[i]).c * (V[j]).c * φ (wdist2 dim θ (V[i]).x (V[j]).x) := by
      unfold fB
      rw [List.nil_append, ← Fin.sum_univ_fun_getElem]
      refine Finset.sum_congr rfl fun i _ => ?_
      rw [← Fin.sum_univ_fun_getElem]
      refine Finset.sum_congr rfl fun j _ => ?_
      unfold fK
      rw [hVal V[i.1] (List.getElem_mem _), hVal V[j.1] (List.getElem_mem _)]
      rfl
    rw [e]; exact this
  | cons d D ih =>
    intro V hVal
    have ih' := ih fun f hf => hD f (by simp [hf])
    match ho : d.o with
    | none =>
      have hp : (d :: D ++ V).Perm (D ++ d :: V) := List.perm_middle.symm
      rw [fB_perm hp]
      exact ih' (d :: V) (by
        intro f hf
        rcases List.mem_cons.mp hf with rfl | h
        · exact ho
        · exact hVal f h)
    | some i =>
      have hi : i < dim := hD d (by simp) i ho
      set M := D ++ V with hM
      have hMd : ∀ g ∈ M, ∀ i ∈ g.o, i < dim := by
        intro g hg j hj
        rcases List.mem_append.mp hg with h | h
        · exact hD g (by simp [h]) j hj
        · rw [hVal g h] at hj; simp at hj
      -- the difference-quotient replacement
      set p : ℝ → Fnl := fun h => ⟨Function.update d.x i (d.x i + h), none, d.c / h⟩ with hp
      set q : ℝ → Fnl := fun h => ⟨d.x, none, -(d.c / h)⟩ with hq
      have hQ : ∀ h, 0 ≤ fB φ φ1 φ2 dim θ (p h :: q h :: M) (p h :: q h :: M) := by
        intro h
        have := ih' (p h :: q h :: V) (by
          intro f hf
          rcases List.mem_cons.mp hf with rfl | hf
          · rfl
          rcases List.mem_cons.mp hf with rfl | hf
          · rfl
          exact hVal f hf)
        have hperm : (D ++ p h :: q h :: V).Perm (p h :: q h :: M) :=
          List.perm_middle.trans ((List.perm_middle).cons _)
        rwa [fB_perm hperm] at this
      have hlin : ∀ (x : Pt) (c c' : ℝ), fLin φ φ1 φ2 dim θ M ⟨x, none, c⟩ = fLin φ φ1 φ2 dim θ M ⟨x, none, c'⟩ :=
        fun _ _ _ => rfl
      have hexp : ∀ h, h ≠ 0 → fB φ φ1 φ2 dim θ (p h :: q h :: M) (p h :: q h :: M) =
          d.c * d.c * ((2 * φ 0 - 2 * φ (θ i * h ^ 2)) / h ^ 2) +
          2 * d.c * (h⁻¹ • (fLin φ φ1 φ2 dim θ M ⟨Function.update d.x i (d.x i + h), none, 1⟩ -
            fLin φ φ1 φ2 dim θ M ⟨Function.update d.x i (d.x i), none, 1⟩)) + fB φ φ1 φ2 dim θ M M := by
        intro h hh
        rw [fB_cons, fB_cons, fLin_cons]
        have k1 : fK φ φ1 φ2 dim θ (p h) (p h) = φ 0 := by
          show φ (wdist2 dim θ _ _) = _; rw [wdist2_self]
        have k2 : fK φ φ1 φ2 dim θ (q h) (q h) = φ 0 := by
          show φ (wdist2 dim θ _ _) = _; rw [wdist2_self]
        have k3 : fK φ φ1 φ2 dim θ (q h) (p h) = φ (θ i * h ^ 2) := by
          show φ (wdist2 dim θ _ _) = _
          rw [wdist2_comm, wdist2_update θ d.x hi]
        rw [k1, k2, k3, Function.update_eq_self]
        rw [show fLin φ φ1 φ2 dim θ M (p h) = fLin φ φ1 φ2 dim θ M ⟨Function.update d.x i (d.x i + h), none, 1⟩ from rfl,
          show fLin φ φ1 φ2 dim θ M (q h) = fLin φ φ1 φ2 dim θ M ⟨d.x, none, 1⟩ from rfl]
        simp only [hp, hq, smul_eq_mul]
        field_simp
        ring
      have hder := fLin_hasDeriv P hθ M hMd d.x hi 1
      have ht := ((diag_tendsto P (hθ i hi)).const_mul (d.c * d.c)).add
        ((hasDerivAt_iff_tendsto_slope_zero.mp hder).const_mul (2 * d.c))
      have ht2 := ht.add (tendsto_const_nhds (x := fB φ φ1 φ2 dim θ M M))
      have hfin : fB φ φ1 φ2 dim θ (d :: D ++ V) (d :: D ++ V) =
          d.c * d.c * (-(2 * θ i * φ1 0)) + 2 * d.c * fLin φ φ1 φ2 dim θ M ⟨d.x, some i, 1⟩ + fB φ φ1 φ2 dim θ M M := by
        rw [List.cons_append, ← hM, fB_cons]
        have k1 : fK φ φ1 φ2 dim θ d d = -(2 * θ i * φ1 0) := by
          unfold fK
          rw [ho]
          simp only [radKG, sub_self, kron_self]
          have : ssq dim θ (fun _ => 0) = 0 := by simp [ssq]
          rw [this]; ring
        have k2 : fLin φ φ1 φ2 dim θ M d = fLin φ φ1 φ2 dim θ M ⟨d.x, some i, 1⟩ := by
          unfold fLin fK; rw [ho]
        rw [k1, k2]
      rw [hfin]
      refine ge_of_tendsto ht2 ?_
      filter_upwards [self_mem_nhdsWithin] with h hh
      rw [← hexp h hh]
      exact hQ h

/-- Every quadratic form in finitely many values and partial derivatives is nonnegative. -/
theorem fnl_psd (P : Profile φ φ1 φ2) (hV : ValPsd φ) (hθ : ∀ d < dim, 0 ≤ θ d) (n : ℕ) (X : Fin n → Pt)
    (o : Fin n → Option ℕ) (ho : ∀ a, ∀ i ∈ o a, i < dim) (c : Fin n → ℝ) :
    0 ≤ ∑ a, ∑ b, c a * c b * radKG φ φ1 φ2 dim θ (fun d => X a d - X b d) (o a) (o b) := by
  have := fnl_psd_aux P hV hθ (List.ofFn fun a => (⟨X a, o a, c a⟩ : Fnl)) (by
    intro f hf
    obtain ⟨a, rfl⟩ := List.mem_ofFn.mp hf
    exact ho a) [] (by simp)
  rw [List.append_nil] at this
  unfold fB at this
  rw [List.map_ofFn, List.sum_ofFn] at this
  refine this.trans_eq ?_
  refine Finset.sum_congr rfl fun a _ => ?_
  simp only [Function.comp, List.map_ofFn, List.sum_ofFn]
  rfl

end Spec
