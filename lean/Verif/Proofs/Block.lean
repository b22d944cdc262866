import Verif.Np

/-! Symbolic block indices: value rows and gradient rows of the gradient-enhanced matrices. -/

namespace Np

theorem forRange_congr {α : Type} {lo hi : ℕ} {init : α} {body body' : ℕ → α → Py α}
    (h : ∀ i a, lo ≤ i → i < hi → body i a = body' i a) :
    forRange lo hi init body = forRange lo hi init body' := by
  unfold forRange
  have : ∀ i ∈ List.range' lo (hi - lo), ∀ a, body i a = body' i a := by
    intro i hi' a
    rw [List.mem_range'_1] at hi'
    exact h i a hi'.1 (by omega)
  revert this
  generalize List.range' lo (hi - lo) = l
  intro this
  induction l generalizing init with
  | nil => rfl
  | cons x xs ih =>
    rw [List.foldlM_cons, List.foldlM_cons, this x (by simp)]
    congr 1
    funext a
    exact ih (fun i hi a => this i (by simp [hi]) a)

/-- Symbolic row/column: value entry `p`, or derivative wrt coordinate `i` at (selected) point `a`. -/
inductive Ix where
  | v (p : ℕ)
  | g (i a : ℕ)

namespace Ix
/-- Position in the array. -/
def pos (n g : ℕ) : Ix → ℕ
  | v p => p
  | Ix.g i a => n + i * g + a
/-- The index is inside of an array with `n` value rows and `dim` blocks of `g` gradient rows. -/
def ok (n g dim : ℕ) : Ix → Prop
  | v p => p < n
  | Ix.g i a => i < dim ∧ a < g
@[simp] theorem pos_v (n g p) : (v p).pos n g = p := rfl
@[simp] theorem pos_g (n g i a) : (Ix.g i a).pos n g = n + i * g + a := rfl
@[simp] theorem ok_v (n g dim p) : (v p).ok n g dim ↔ p < n := Iff.rfl
@[simp] theorem ok_g (n g dim i a) : (Ix.g i a).ok n g dim ↔ i < dim ∧ a < g := Iff.rfl

theorem pos_lt {n g dim : ℕ} {x : Ix} (h : x.ok n g dim) : x.pos n g < n + g * dim := by
  cases x with
  | v p => simp at h; simp; omega
  | g i a => simp at h; exact blk_lt h.1 h.2

theorem pos_surj {n g dim p : ℕ} (h : p < n + g * dim) : ∃ x : Ix, x.ok n g dim ∧ x.pos n g = p := by
  rcases row_cases h with h | ⟨i, a, hi, ha, rfl⟩
  · exact ⟨v p, h, rfl⟩
  · exact ⟨.g i a, ⟨hi, ha⟩, rfl⟩

theorem pos_inj {n g dim : ℕ} {x y : Ix} (hx : x.ok n g dim) (hy : y.ok n g dim)
    (h : x.pos n g = y.pos n g) : x = y := by
  cases x with
  | v p => cases y with
    | v q => simp at h; rw [h]
    | g i a => simp at h hx; omega
  | g i a => cases y with
    | v q => simp at h hy; omega
    | g j b =>
      simp at h hx hy
      have := (blk_iff (n := n) (g := g) (i := j) (I := i) (a := a) hx.2).mp ⟨by omega, by omega⟩
      subst this
      have : a = b := by omega
      rw [this]
end Ix

/-- Symbolic slice: all value rows, or the rows of gradient block `i`. -/
inductive Sl where
  | v
  | g (i : ℕ)

namespace Sl
def lo (n g : ℕ) : Sl → ℕ
  | v => 0
  | Sl.g i => n + i * g
def hi (n g : ℕ) : Sl → ℕ
  | v => n
  | Sl.g i => n + i * g + g
def len (n g : ℕ) : Sl → ℕ
  | v => n
  | Sl.g _ => g
def ok (dim : ℕ) : Sl → Prop
  | v => True
  | Sl.g i => i < dim
/-- The local index of `x` in the slice, if it lies in it. -/
def hit : Sl → Ix → Option ℕ
  | v, .v p => some p
  | Sl.g i, .g I a => if I = i then some a else none
  | _, _ => none
@[simp] theorem hit_vv (p) : hit v (.v p) = some p := rfl
@[simp] theorem hit_vg (i a) : hit v (.g i a) = none := rfl
@[simp] theorem hit_gv (i p) : hit (Sl.g i) (.v p) = none := rfl
@[simp] theorem hit_gg (i I a) : hit (Sl.g i) (.g I a) = if I = i then some a else none := rfl

theorem hit_some {n g dim : ℕ} {s : Sl} {x : Ix} {a : ℕ} (hx : x.ok n g dim) (h : s.hit x = some a) :
    (s.lo n g ≤ x.pos n g ∧ x.pos n g < s.hi n g) ∧ x.pos n g - s.lo n g = a := by
  cases s <;> cases x <;> simp [lo, hi, hit] at *
  · omega
  · obtain ⟨rfl, rfl⟩ := h; omega

theorem hit_none {n g dim : ℕ} {s : Sl} {x : Ix} (hx : x.ok n g dim) (h : s.hit x = none) :
    ¬ (s.lo n g ≤ x.pos n g ∧ x.pos n g < s.hi n g) := by
  cases s with
  | v => cases x <;> simp [lo, hi, hit] at * <;> omega
  | g i => cases x with
    | v p => simp [lo, hi] at *; omega
    | g I a =>
      simp only [hit_gg] at h
      simp only [Ix.ok_g] at hx
      show ¬ (n + i * g ≤ n + I * g + a ∧ n + I * g + a < n + i * g + g)
      rw [blk_iff hx.2]
      intro e; simp [e] at h

theorem hi_le {n g dim : ℕ} {s : Sl} (h : s.ok dim) : s.hi n g ≤ n + g * dim := by
  cases s with
  | v => simp [hi]
  | g i => have := blk_le (g := g) h; simp [hi]; omega

theorem lo_add_len (n g : ℕ) (s : Sl) : s.lo n g + s.len n g = s.hi n g := by
  cases s <;> simp [lo, hi, len]
end Sl

/-- Value written at `(x,y)` by a slice update with symbolic slices. -/
def symUpd (f : ℝ → ℝ → ℝ) (F : Ix → Ix → ℝ) (s t : Sl) (V : ℕ → ℕ → ℝ) (x y : Ix) : ℝ :=
  match s.hit x, t.hit y with
  | some a, some b => f (F x y) (V a b)
  | _, _ => F x y

/-- The 2-d array `A` (rows: `n1` values and `dim` blocks of `g1`; columns likewise) represents `F`. -/
structure Rep (n1 g1 n2 g2 dim : ℕ) (A : Arr2) (F : Ix → Ix → ℝ) : Prop where
  r : A.r = n1 + g1 * dim
  c : A.c = n2 + g2 * dim
  get : ∀ x y, x.ok n1 g1 dim → y.ok n2 g2 dim → A.get (x.pos n1 g1) (y.pos n2 g2) = F x y

theorem Rep.congr {n1 g1 n2 g2 dim : ℕ} {A : Arr2} {F F' : Ix → Ix → ℝ} (h : Rep n1 g1 n2 g2 dim A F)
    (e : ∀ x y, x.ok n1 g1 dim → y.ok n2 g2 dim → F x y = F' x y) : Rep n1 g1 n2 g2 dim A F' :=
  ⟨h.r, h.c, fun x y hx hy => (h.get x y hx hy).trans (e x y hx hy)⟩

theorem Rep.zeros (n1 g1 n2 g2 dim : ℕ) :
    Rep n1 g1 n2 g2 dim (Arr2.zeros (n1 + g1 * dim) (n2 + g2 * dim)) (fun _ _ => 0) :=
  ⟨rfl, rfl, fun _ _ _ _ => rfl⟩

theorem Rep.mod {n1 g1 n2 g2 dim : ℕ} {A V : Arr2} {F : Ix → Ix → ℝ} (h : Rep n1 g1 n2 g2 dim A F)
    (f : ℝ → ℝ → ℝ) (s t : Sl) (hs : s.ok dim) (ht : t.ok dim)
    (hr : V.r = s.len n1 g1) (hc : V.c = t.len n2 g2) :
    ∃ A', A.modSlice f (s.lo n1 g1) (s.hi n1 g1) (t.lo n2 g2) (t.hi n2 g2) V = .ok A' ∧
      Rep n1 g1 n2 g2 dim A' (symUpd f F s t V.get) := by
  refine ⟨_, Arr2.modSlice_ok (by rw [hr, Sl.lo_add_len]) (by rw [h.r]; exact Sl.hi_le hs)
    (by rw [hc, Sl.lo_add_len]) (by rw [h.c]; exact Sl.hi_le ht), ⟨h.r, h.c, ?_⟩⟩
  intro x y hx hy
  rw [Arr2.upd_get, h.get x y hx hy]
  unfold symUpd
  rcases hsx : s.hit x with _ | a
  · have := Sl.hit_none hx hsx
    rw [if_neg]
    rintro ⟨a1, a2, -, -⟩; exact this ⟨a1, a2⟩
  · rcases hty : t.hit y with _ | b
    · have := Sl.hit_none hy hty
      rw [if_neg]
      rintro ⟨-, -, a1, a2⟩; exact this ⟨a1, a2⟩
    · obtain ⟨h1, h2⟩ := Sl.hit_some hx hsx
      obtain ⟨h3, h4⟩ := Sl.hit_some hy hty
      rw [if_pos ⟨h1.1, h1.2, h3.1, h3.2⟩, h2, h4]

/-- 3-d version of `Rep`. -/
structure Rep3 (D n1 g1 n2 g2 dim : ℕ) (A : Arr3) (F : ℕ → Ix → Ix → ℝ) : Prop where
  d : A.d = D
  r : A.r = n1 + g1 * dim
  c : A.c = n2 + g2 * dim
  get : ∀ k x y, k < D → x.ok n1 g1 dim → y.ok n2 g2 dim →
    A.get k (x.pos n1 g1) (y.pos n2 g2) = F k x y

theorem Rep3.congr {D n1 g1 n2 g2 dim : ℕ} {A : Arr3} {F F' : ℕ → Ix → Ix → ℝ}
    (h : Rep3 D n1 g1 n2 g2 dim A F)
    (e : ∀ k x y, k < D → x.ok n1 g1 dim → y.ok n2 g2 dim → F k x y = F' k x y) :
    Rep3 D n1 g1 n2 g2 dim A F' :=
  ⟨h.d, h.r, h.c, fun k x y hk hx hy => (h.get k x y hk hx hy).trans (e k x y hk hx hy)⟩

theorem Rep3.zeros (D n1 g1 n2 g2 dim : ℕ) :
    Rep3 D n1 g1 n2 g2 dim (Arr3.zeros D (n1 + g1 * dim) (n2 + g2 * dim)) (fun _ _ _ => 0) :=
  ⟨rfl, rfl, rfl, fun _ _ _ _ _ _ => rfl⟩

theorem Rep3.mod {D n1 g1 n2 g2 dim : ℕ} {A : Arr3} {V : Arr2} {F : ℕ → Ix → Ix → ℝ}
    (h : Rep3 D n1 g1 n2 g2 dim A F)
    (f : ℝ → ℝ → ℝ) (k : ℕ) (hk : k < D) (s t : Sl) (hs : s.ok dim) (ht : t.ok dim)
    (hr : V.r = s.len n1 g1) (hc : V.c = t.len n2 g2) :
    ∃ A', A.modSlice f k (s.lo n1 g1) (s.hi n1 g1) (t.lo n2 g2) (t.hi n2 g2) V = .ok A' ∧
      Rep3 D n1 g1 n2 g2 dim A' (fun d => if d = k then symUpd f (F d) s t V.get else F d) := by
  refine ⟨_, Arr3.modSlice_ok (by rw [h.d]; exact hk) (by rw [hr, Sl.lo_add_len])
    (by rw [h.r]; exact Sl.hi_le hs)
    (by rw [hc, Sl.lo_add_len]) (by rw [h.c]; exact Sl.hi_le ht), ⟨h.d, h.r, h.c, ?_⟩⟩
  intro d x y hd hx hy
  rw [Arr3.upd_get, h.get d x y hd hx hy]
  by_cases hdk : d = k
  swap
  · simp [hdk]
  simp only [hdk, true_and, if_true]
  unfold symUpd
  rcases hsx : s.hit x with _ | a
  · have := Sl.hit_none hx hsx
    rw [if_neg]
    rintro ⟨a1, a2, -, -⟩; exact this ⟨a1, a2⟩
  · rcases hty : t.hit y with _ | b
    · have := Sl.hit_none hy hty
      rw [if_neg]
      rintro ⟨-, -, a1, a2⟩; exact this ⟨a1, a2⟩
    · obtain ⟨h1, h2⟩ := Sl.hit_some hx hsx
      obtain ⟨h3, h4⟩ := Sl.hit_some hy hty
      rw [if_pos ⟨h1.1, h1.2, h3.1, h3.2⟩, h2, h4]

end Np

namespace Np

/-- Number of points whose gradient is used: all `n`, or those selected by the mask. -/
def gN (m : Option (List Bool)) (n : ℕ) : ℕ := match m with | none => n | some l => nTrue l
/-- The point whose gradient is in local gradient row `a`. -/
def gSel (m : Option (List Bool)) (a : ℕ) : ℕ := match m with | none => a | some l => sel l a
/-- The mask, if any, has one entry per point. -/
def maskOk (m : Option (List Bool)) (n : ℕ) : Prop := ∀ l, m = some l → l.length = n

theorem sel_full {l : List Bool} (h : nTrue l = l.length) {a : ℕ} (ha : a < l.length) : sel l a = a := by
  have hs : selIdx l = List.range l.length := by
    unfold selIdx
    have h' : ((List.range l.length).filter fun i => l.getD i false).length = (List.range l.length).length := by
      rw [List.length_range]; exact h
    exact List.filter_eq_self.mpr (List.length_filter_eq_length_iff.mp h')
  unfold sel
  rw [hs, List.getD_eq_getElem _ _ (by simpa using ha), List.getElem_range]

/-- The mask, if any, selects all of the `n` points. -/
def fullMask (m : Option (List Bool)) (n : ℕ) : Prop := gN m n = n

theorem fullMask_none (n : ℕ) : fullMask none n := rfl

theorem gSel_full {m : Option (List Bool)} {n a : ℕ} (h : maskOk m n) (hf : fullMask m n) (ha : a < n) : gSel m a = a := by
  cases m with
  | none => rfl
  | some l =>
    have := h l rfl
    exact sel_full (by rw [this]; exact hf) (by rw [this]; exact ha)

theorem gSel_lt {m : Option (List Bool)} {n a : ℕ} (h : maskOk m n) (ha : a < gN m n) : gSel m a < n := by
  cases m with
  | none => exact ha
  | some l => have := h l rfl; subst this; exact sel_lt ha

/-- The point of a symbolic row. -/
def Ix.pt (m : Option (List Bool)) : Ix → ℕ
  | .v p => p
  | .g _ a => gSel m a
/-- The datum of a symbolic row: value (`none`) or derivative. -/
def Ix.coord : Ix → Option ℕ
  | .v _ => none
  | .g i _ => some i
@[simp] theorem Ix.pt_v (m p) : (Ix.v p).pt m = p := rfl
@[simp] theorem Ix.pt_g (m i a) : (Ix.g i a).pt m = gSel m a := rfl
@[simp] theorem Ix.coord_v (p) : (Ix.v p).coord = none := rfl
@[simp] theorem Ix.coord_g (i a) : (Ix.g i a).coord = some i := rfl

theorem Ix.pt_lt {m : Option (List Bool)} {n dim : ℕ} {x : Ix} (h : maskOk m n) (hx : x.ok n (gN m n) dim) :
    x.pt m < n := by
  cases x with
  | v p => exact hx
  | g i a => exact gSel_lt h hx.2

theorem Ix.coord_lt {g n dim : ℕ} {x : Ix} (hx : x.ok n g dim) : ∀ i ∈ x.coord, i < dim := by
  cases x with
  | v p => intro i h; simp at h
  | g i a => intro j h; simp at h; subst h; exact hx.1

end Np
