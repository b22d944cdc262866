import Verif.Proofs.Block

/-! Selection with concatenated masks. -/

namespace Np

theorem selIdx_append (l1 l2 : List Bool) :
    selIdx (l1 ++ l2) = selIdx l1 ++ (selIdx l2).map (l1.length + ·) := by
  unfold selIdx
  rw [List.length_append, List.range_add, List.filter_append]
  congr 1
  · apply List.filter_congr
    intro i hi
    rw [List.getD_append _ _ _ _ (List.mem_range.mp hi)]
  · rw [List.filter_map]
    congr 1
    apply List.filter_congr
    intro i _
    simp only [Function.comp]
    rw [List.getD_append_right _ _ _ _ (by omega)]
    congr 1
    omega

theorem nTrue_append (l1 l2 : List Bool) : nTrue (l1 ++ l2) = nTrue l1 + nTrue l2 := by
  unfold nTrue; rw [selIdx_append]; simp

theorem sel_append_left {l1 l2 : List Bool} {a : ℕ} (h : a < nTrue l1) : sel (l1 ++ l2) a = sel l1 a := by
  unfold sel; rw [selIdx_append, List.getD_append _ _ _ _ h]

theorem sel_append_right {l1 l2 : List Bool} {a : ℕ} (h : a < nTrue l2) :
    sel (l1 ++ l2) (nTrue l1 + a) = l1.length + sel l2 a := by
  unfold sel; rw [selIdx_append, List.getD_append_right _ _ _ _ (by unfold nTrue; omega)]
  unfold nTrue at h ⊢
  rw [List.getD_eq_getElem _ _ (by simp; omega), List.getD_eq_getElem _ _ h]
  simp

theorem selIdx_replicate (n : ℕ) : selIdx (List.replicate n true) = List.range n := by
  unfold selIdx
  rw [List.length_replicate, List.filter_eq_self]
  intro i hi
  rw [List.getD_eq_getElem _ _ (by simpa using hi)]
  simp

theorem nTrue_replicate (n : ℕ) : nTrue (List.replicate n true) = n := by
  unfold nTrue; rw [selIdx_replicate]; simp

theorem sel_replicate {n a : ℕ} (h : a < n) : sel (List.replicate n true) a = a := by
  unfold sel; rw [selIdx_replicate, List.getD_eq_getElem _ _ (by simpa using h)]; simp

theorem nTrue_tile (dim : ℕ) (m : List Bool) : nTrue (List.replicate dim m).flatten = nTrue m * dim := by
  induction dim with
  | zero => simp [nTrue, selIdx]
  | succ d ih => rw [List.replicate_succ, List.flatten_cons, nTrue_append, ih]; ring

theorem sel_tile {dim i a : ℕ} {m : List Bool} (hi : i < dim) (ha : a < nTrue m) :
    sel (List.replicate dim m).flatten (i * nTrue m + a) = i * m.length + sel m a := by
  induction dim generalizing i with
  | zero => omega
  | succ d ih =>
    rw [List.replicate_succ, List.flatten_cons]
    cases i with
    | zero => simp only [Nat.zero_mul, Nat.zero_add]; exact sel_append_left ha
    | succ i =>
      have h1 : (i + 1) * nTrue m + a = nTrue m + (i * nTrue m + a) := by ring
      rw [h1, sel_append_right, ih (by omega)]
      · ring
      · rw [nTrue_tile]; have := blk_lt (n := 0) (g := nTrue m) (show i < d by omega) ha; omega

/-- The mask over all rows of a gradient-enhanced matrix that keeps the `n` value rows and, in each of
the `dim` gradient blocks, the points selected by the mask (all of them without a mask). -/
def keepRows (n dim : ℕ) (m : Option (List Bool)) : List Bool :=
  List.replicate n true ++ (List.replicate dim (m.getD (List.replicate n true))).flatten

theorem keep_len {n dim : ℕ} {m : Option (List Bool)} (hm : maskOk m n) :
    (keepRows n dim m).length = n + n * dim := by
  have : (m.getD (List.replicate n true)).length = n := by
    cases m with
    | none => simp
    | some l => simpa using hm l rfl
  simp [keepRows, List.length_flatten, this]
  ring

theorem keep_nTrue {n dim : ℕ} {m : Option (List Bool)} : nTrue (keepRows n dim m) = n + gN m n * dim := by
  have : nTrue (m.getD (List.replicate n true)) = gN m n := by
    cases m with
    | none => simp [gN, nTrue_replicate]
    | some l => simp [gN]
  rw [keepRows, nTrue_append, nTrue_replicate, nTrue_tile, this]

theorem keep_sel_v {n dim p : ℕ} {m : Option (List Bool)} (hp : p < n) : sel (keepRows n dim m) p = p := by
  rw [keepRows, sel_append_left (by rw [nTrue_replicate]; exact hp), sel_replicate hp]

theorem keep_sel_g {n dim i a : ℕ} {m : Option (List Bool)} (hm : maskOk m n) (hi : i < dim) (ha : a < gN m n) :
    sel (keepRows n dim m) (n + i * gN m n + a) = n + i * n + gSel m a := by
  have h1 : nTrue (m.getD (List.replicate n true)) = gN m n := by
    cases m with
    | none => simp [gN, nTrue_replicate]
    | some l => simp [gN]
  have h2 : (m.getD (List.replicate n true)).length = n := by
    cases m with
    | none => simp
    | some l => simpa using hm l rfl
  have h3 : sel (m.getD (List.replicate n true)) a = gSel m a := by
    cases m with
    | none => exact sel_replicate ha
    | some l => rfl
  have := sel_append_right (l1 := List.replicate n true) (l2 := (List.replicate dim (m.getD (List.replicate n true))).flatten)
    (a := i * gN m n + a) (by rw [nTrue_tile, h1]; have := blk_lt (n := 0) hi ha; omega)
  rw [nTrue_replicate, ← Nat.add_assoc, List.length_replicate] at this
  rw [keepRows, this]
  rw [show i * gN m n + a = i * nTrue (m.getD (List.replicate n true)) + a by rw [h1], sel_tile hi (by rw [h1]; exact ha), h2, h3]
  ring

end Np
