import Verif.Model.Kernel
import Verif.Spec.Profiles
import Verif.Spec.Radial2

/-! The specification kernel of each `kernel_type`, and what it means for an array to be the joint
covariance of values and derivatives, its hyperparameter derivative or its point derivative. -/

open GP

noncomputable section

namespace Spec

/-- The kernel function that `kernel_type` stands for (`α` is only used by the rational quadratic). -/
def kern (k : KType) (α : ℝ) (dim : ℕ) (θ : ℕ → ℝ) (x y : Pt) : ℝ :=
  match k with
  | .sqExp => kSqExp dim θ x y
  | .matern => kMatern dim θ x y
  | .ratQuad => kRatQuad α dim θ x y

/-- `A` is the joint covariance matrix, under the kernel `κ`, of
* rows: the values at `X 0 .. X (n1-1)`, then for each coordinate `i < dim` the partial derivatives wrt
  `i` at the `g1` points `X (s1 0) .. X (s1 (g1-1))`;
* columns: likewise for `Y`, `n2`, `g2`, `s2`.
`A p q` is the entry in row `p`, column `q`. -/
structure JointCov (κ : Pt → Pt → ℝ) (dim n1 g1 n2 g2 : ℕ) (X : ℕ → Pt) (s1 : ℕ → ℕ) (Y : ℕ → Pt) (s2 : ℕ → ℕ)
    (A : ℕ → ℕ → ℝ) : Prop where
  val_val : ∀ p < n1, ∀ q < n2, A p q = κ (X p) (Y q)
  der_val : ∀ i < dim, ∀ a < g1, ∀ q < n2,
    IsCov κ (X (s1 a)) (some i) (Y q) none (A (n1 + i * g1 + a) q)
  val_der : ∀ p < n1, ∀ j < dim, ∀ b < g2,
    IsCov κ (X p) none (Y (s2 b)) (some j) (A p (n2 + j * g2 + b))
  der_der : ∀ i < dim, ∀ a < g1, ∀ j < dim, ∀ b < g2,
    IsCov κ (X (s1 a)) (some i) (Y (s2 b)) (some j) (A (n1 + i * g1 + a) (n2 + j * g2 + b))

/-- A joint covariance matrix is determined by its specification. -/
theorem JointCov.unique {κ : Pt → Pt → ℝ} {dim n1 g1 n2 g2 : ℕ} {X Y : ℕ → Pt} {s1 s2 : ℕ → ℕ} {A B : ℕ → ℕ → ℝ}
    (hA : JointCov κ dim n1 g1 n2 g2 X s1 Y s2 A) (hB : JointCov κ dim n1 g1 n2 g2 X s1 Y s2 B)
    {p q : ℕ} (hp : p < n1 + g1 * dim) (hq : q < n2 + g2 * dim) : A p q = B p q := by
  rcases Np.row_cases hp with h | ⟨i, a, hi, ha, rfl⟩ <;> rcases Np.row_cases hq with h' | ⟨j, b, hj, hb, rfl⟩
  · rw [hA.val_val p h q h', hB.val_val p h q h']
  · exact (hA.val_der p h j hj b hb).unique (hB.val_der p h j hj b hb)
  · exact (hA.der_val i hi a ha q h').unique (hB.der_val i hi a ha q h')
  · exact (hA.der_der i hi a ha j hj b hb).unique (hB.der_der i hi a ha j hj b hb)

end Spec
