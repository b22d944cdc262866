import Verif.Spec.HpSlots
import Mathlib.Analysis.SpecialFunctions.Log.Base

/-! Properties C54, C55: layout of the optimiser's vector. -/

open Np GP Spec

noncomputable section

namespace GP

theorem setTrue_append {L : List Bool} {r : ℕ} (hr : 1 ≤ r) :
    setTrue (L ++ List.replicate r false) L.length = .ok (L ++ true :: List.replicate (r - 1) false) := by
  obtain ⟨r, rfl⟩ : ∃ s, r = s + 1 := ⟨r - 1, by omega⟩
  unfold setTrue
  rw [if_pos (by simp), List.replicate_succ, List.set_append_right _ _ (le_refl _)]
  simp

theorem addScalar_ok {has log ok : Bool} (hok : has = true → ok = true) {L : List Bool} {r : ℕ} (hr : b2n has ≤ r) :
    addScalar has log ok L.length (L ++ List.replicate r false) =
      .ok (L.length + b2n has, if has then L.length else 0,
        (L ++ if has then [log] else []) ++ List.replicate (r - b2n has) false) := by
  unfold addScalar
  cases has with
  | false => simp [b2n]
  | true =>
    simp only [b2n, if_true] at hr ⊢
    rw [pyAssert_true (hok rfl), ok_bind]
    unfold setTrueIf
    cases log with
    | true => rw [if_pos rfl, setTrue_append hr]; simp
    | false =>
      rw [if_neg (by simp)]
      obtain ⟨r, rfl⟩ : ∃ s, r = s + 1 := ⟨r - 1, by omega⟩
      simp [List.replicate_succ]

theorem foldlM_setTrue {L : List Bool} {dim r : ℕ} (hr : dim ≤ r) :
    (List.range' L.length dim).foldlM setTrue (L ++ List.replicate r false) =
      .ok ((L ++ List.replicate dim true) ++ List.replicate (r - dim) false) := by
  induction dim generalizing L r with
  | zero => simp
  | succ d ih =>
    rw [List.range'_succ, List.foldlM_cons, setTrue_append (by omega), ok_bind]
    have := ih (L := L ++ [true]) (r := r - 1) (by omega)
    rw [List.length_append, List.length_singleton] at this
    rw [show L ++ true :: List.replicate (r - 1) false = L ++ [true] ++ List.replicate (r - 1) false by simp, this]
    rw [List.replicate_succ]
    simp [Nat.sub_sub, Nat.add_comm]

theorem addTheta_ok {has log : Bool} {dim r : ℕ} (hr : b2n has * dim ≤ r) :
    addTheta has log dim 0 (List.replicate r false) =
      .ok (b2n has * dim, if has then List.range dim else [],
        (if has then List.replicate dim log else []) ++ List.replicate (r - b2n has * dim) false) := by
  unfold addTheta
  cases has with
  | false => simp [b2n]
  | true =>
    simp only [b2n, if_true, Nat.one_mul] at hr ⊢
    cases log with
    | true =>
      have := foldlM_setTrue (L := []) hr
      simp only [List.length_nil, List.nil_append] at this
      simp only [if_true, this, ok_bind, pure_eq_ok, Nat.zero_add]
      rw [List.range_eq_range']
    | false =>
      simp only [Bool.false_eq_true, if_false, pure_eq_ok, ok_bind, Nat.zero_add]
      rw [List.range_eq_range', List.replicate_append_replicate, Nat.add_sub_cancel' hr]

/-- Closed form of the layout record. -/
def hpInfoOf (lo : LogOpts) (dim : ℕ) (t k v f g : Bool) : HpInfo where
  nHp := b2n t * dim + b2n k + b2n v + b2n f + b2n g
  hasTheta := t
  idxTheta := if t then List.range dim else []
  hasKernel := k
  idxKernel := if k then b2n t * dim else 0
  hasVarK := v
  idxVarK := if v then b2n t * dim + b2n k else 0
  hasVarFval := f
  idxVarFval := if f then b2n t * dim + b2n k + b2n v else 0
  hasVarFgrad := g
  idxVarFgrad := if g then b2n t * dim + b2n k + b2n v + b2n f else 0
  logOptz := (if t then List.replicate dim lo.theta else []) ++ (if k then [lo.kernel] else []) ++
    (if v then [lo.var] else []) ++ (if f then [lo.var] else []) ++ (if g then [lo.var] else [])

theorem len_if {α : Type} (b : Bool) (x : α) : (if b then [x] else []).length = b2n b := by cases b <;> rfl

theorem setHpOptzInfo_ok (lo : LogOpts) (dim : ℕ) {kh kf kg : Bool} {t k v f g : Bool} (h1 : k = true → kh = true)
    (h2 : f = true → kf = false) (h3 : g = true → kg = false) :
    setHpOptzInfo lo dim kh kf kg t k v f g = .ok (hpInfoOf lo dim t k v f g) := by
  unfold setHpOptzInfo
  dsimp only
  rw [addTheta_ok (by omega), ok_bind]
  dsimp only
  set L1 := (if t then List.replicate dim lo.theta else []) with hL1
  have l1 : L1.length = b2n t * dim := by rw [hL1]; cases t <;> simp [b2n]
  rw [← l1, addScalar_ok h1 (by rw [l1]; omega), ok_bind]
  dsimp only
  set L2 := L1 ++ (if k then [lo.kernel] else []) with hL2
  have l2 : L2.length = b2n t * dim + b2n k := by rw [hL2, List.length_append, l1, len_if]
  rw [show L1.length + b2n k = L2.length by rw [l2, l1], addScalar_ok (by simp) (by rw [l1]; omega), ok_bind]
  dsimp only
  set L3 := L2 ++ (if v then [lo.var] else []) with hL3
  have l3 : L3.length = b2n t * dim + b2n k + b2n v := by rw [hL3, List.length_append, l2, len_if]
  rw [show L2.length + b2n v = L3.length by rw [l3, l2], addScalar_ok (by simpa using h2) (by rw [l1]; omega), ok_bind]
  dsimp only
  set L4 := L3 ++ (if f then [lo.var] else []) with hL4
  have l4 : L4.length = b2n t * dim + b2n k + b2n v + b2n f := by rw [hL4, List.length_append, l3, len_if]
  rw [show L3.length + b2n f = L4.length by rw [l4, l3], addScalar_ok (by simpa using h3) (by rw [l1]; omega), ok_bind]
  simp only [pure_eq_ok]
  congr 1
  simp only [hpInfoOf]
  rw [← hL1, ← hL2, ← hL3, ← hL4]
  have : L4.length + b2n g - L1.length - b2n k - b2n v - b2n f - b2n g = 0 := by omega
  rw [this]
  simp only [l1, l2, l3, l4, List.replicate_zero, List.append_nil]

theorem hpSlots_length (dim : ℕ) (t k v f g : Bool) :
    (hpSlots dim t k v f g).length = b2n t * dim + b2n k + b2n v + b2n f + b2n g := by
  cases t <;> cases k <;> cases v <;> cases f <;> cases g <;> simp [hpSlots, b2n]

theorem hpSlots_log (lo : LogOpts) (dim : ℕ) (t k v f g : Bool) :
    (hpSlots dim t k v f g).map (slotLog lo) = (hpInfoOf lo dim t k v f g).logOptz := by
  have : (List.range dim).map (slotLog lo ∘ Slot.theta) = List.replicate dim lo.theta := by
    apply List.ext_getElem <;> simp [slotLog]
  cases t <;> cases k <;> cases v <;> cases f <;> cases g <;> simp [hpSlots, hpInfoOf, this, slotLog]

theorem range_getElem? {dim d p : ℕ} : (List.range dim)[d]? = some p ↔ d = p ∧ p < dim := by
  rw [List.getElem?_eq_some_iff]
  simp only [List.length_range, List.getElem_range]
  constructor
  · rintro ⟨h, rfl⟩; exact ⟨rfl, h⟩
  · rintro ⟨rfl, h⟩; exact ⟨h, rfl⟩

theorem ifOne_getElem? (b : Bool) (x : Slot) (q : ℕ) :
    (if b then [x] else [])[q]? = if b = true ∧ q = 0 then some x else none := by
  cases b <;> cases q <;> simp

theorem ifTheta_getElem? (t : Bool) (dim q : ℕ) :
    (if t then (List.range dim).map Slot.theta else [])[q]? = if t = true ∧ q < dim then some (Slot.theta q) else none := by
  cases t with
  | false => simp
  | true => by_cases h : q < dim <;> simp [h]

theorem ifTheta_length (t : Bool) (dim : ℕ) :
    (if t then (List.range dim).map Slot.theta else []).length = b2n t * dim := by cases t <;> simp [b2n]

theorem slotPos_theta (lo : LogOpts) (dim : ℕ) (t k v f g : Bool) (d : ℕ) (p : ℕ) :
    slotPos (hpInfoOf lo dim t k v f g) (.theta d) = some p ↔ (hpSlots dim t k v f g)[p]? = some (.theta d) := by
  unfold hpSlots
  simp only [List.getElem?_append, List.length_append, ifTheta_length, len_if, ifOne_getElem?, ifTheta_getElem?, slotPos, hpInfoOf]
  cases t <;> cases k <;> cases v <;> cases f <;> cases g <;> simp [b2n, range_getElem?] <;> (try split_ifs) <;> (try simp) <;> (try omega)

theorem slotPos_kernel (lo : LogOpts) (dim : ℕ) (t k v f g : Bool) (p : ℕ) :
    slotPos (hpInfoOf lo dim t k v f g) .kernel = some p ↔ (hpSlots dim t k v f g)[p]? = some .kernel := by
  unfold hpSlots
  simp only [List.getElem?_append, List.length_append, ifTheta_length, len_if, ifOne_getElem?, ifTheta_getElem?, slotPos, hpInfoOf]
  cases t <;> cases k <;> cases v <;> cases f <;> cases g <;> simp [b2n, range_getElem?] <;> (try split_ifs) <;> (try simp) <;> (try omega)

theorem slotPos_varK (lo : LogOpts) (dim : ℕ) (t k v f g : Bool) (p : ℕ) :
    slotPos (hpInfoOf lo dim t k v f g) .varK = some p ↔ (hpSlots dim t k v f g)[p]? = some .varK := by
  unfold hpSlots
  simp only [List.getElem?_append, List.length_append, ifTheta_length, len_if, ifOne_getElem?, ifTheta_getElem?, slotPos, hpInfoOf]
  cases t <;> cases k <;> cases v <;> cases f <;> cases g <;> simp [b2n, range_getElem?] <;> (try split_ifs) <;> (try simp) <;> (try omega)

theorem slotPos_varFval (lo : LogOpts) (dim : ℕ) (t k v f g : Bool) (p : ℕ) :
    slotPos (hpInfoOf lo dim t k v f g) .varFval = some p ↔ (hpSlots dim t k v f g)[p]? = some .varFval := by
  unfold hpSlots
  simp only [List.getElem?_append, List.length_append, ifTheta_length, len_if, ifOne_getElem?, ifTheta_getElem?, slotPos, hpInfoOf]
  cases t <;> cases k <;> cases v <;> cases f <;> cases g <;> simp [b2n, range_getElem?] <;> (try split_ifs) <;> (try simp) <;> (try omega)

theorem slotPos_varFgrad (lo : LogOpts) (dim : ℕ) (t k v f g : Bool) (p : ℕ) :
    slotPos (hpInfoOf lo dim t k v f g) .varFgrad = some p ↔ (hpSlots dim t k v f g)[p]? = some .varFgrad := by
  unfold hpSlots
  simp only [List.getElem?_append, List.length_append, ifTheta_length, len_if, ifOne_getElem?, ifTheta_getElem?, slotPos, hpInfoOf]
  cases t <;> cases k <;> cases v <;> cases f <;> cases g <;> simp [b2n, range_getElem?] <;> (try split_ifs) <;> (try simp) <;> (try omega)

theorem slotPos_iff (lo : LogOpts) (dim : ℕ) (t k v f g : Bool) (s : Slot) (p : ℕ) :
    slotPos (hpInfoOf lo dim t k v f g) s = some p ↔ (hpSlots dim t k v f g)[p]? = some s := by
  cases s with
  | theta d => exact slotPos_theta lo dim t k v f g d p
  | kernel => exact slotPos_kernel lo dim t k v f g p
  | varK => exact slotPos_varK lo dim t k v f g p
  | varFval => exact slotPos_varFval lo dim t k v f g p
  | varFgrad => exact slotPos_varFgrad lo dim t k v f g p

theorem hpSlots_nodup (dim : ℕ) (t k v f g : Bool) : (hpSlots dim t k v f g).Nodup := by
  have : ((List.range dim).map Slot.theta).Nodup := by
    refine List.Nodup.map (fun a b h => by simpa using h) List.nodup_range
  cases t <;> cases k <;> cases v <;> cases f <;> cases g <;> simp [hpSlots, this, List.nodup_append]

end GP

namespace Props

/-- **C54.** The layout succeeds for every admissible choice of optimised hyperparameters; the optimiser's vector has one
entry per optimised hyperparameter; entry `p` belongs to slot `s` exactly if `s` is the `p`-th of the optimised
hyperparameters (so the positions are disjoint, in order and cover the vector); and the log mask marks exactly the slots
that are optimised through their logarithm. -/
theorem C54_layout (lo : LogOpts) (dim : ℕ) {kh kf kg : Bool} {t k v f g : Bool} (h1 : k = true → kh = true)
    (h2 : f = true → kf = false) (h3 : g = true → kg = false) :
    ∃ info, setHpOptzInfo lo dim kh kf kg t k v f g = .ok info ∧ info.nHp = (hpSlots dim t k v f g).length ∧
      (∀ s p, slotPos info s = some p ↔ (hpSlots dim t k v f g)[p]? = some s) ∧ (hpSlots dim t k v f g).Nodup ∧
      info.logOptz = (hpSlots dim t k v f g).map (slotLog lo) :=
  ⟨_, setHpOptzInfo_ok lo dim h1 h2 h3, (hpSlots_length ..).symm, slotPos_iff lo dim t k v f g, hpSlots_nodup .., (hpSlots_log ..).symm⟩

/-- **C54**, inadmissible choices are rejected: a kernel parameter for a kernel that has none, or a noise variance that is
known, raises an assertion error. -/
theorem C54_rejects (lo : LogOpts) (dim : ℕ) {kh kf kg : Bool} {t k v f g : Bool}
    (h : (k = true ∧ kh = false) ∨ (f = true ∧ kf = true) ∨ (g = true ∧ kg = true)) :
    setHpOptzInfo lo dim kh kf kg t k v f g = .error .assertion := by
  unfold setHpOptzInfo
  dsimp only
  rw [addTheta_ok (by omega), ok_bind]
  dsimp only
  set L1 := (if t then List.replicate dim lo.theta else []) with hL1
  have l1 : L1.length = b2n t * dim := by rw [hL1]; cases t <;> simp [b2n]
  have bad : ∀ log cnt bv, addScalar true log false cnt bv = .error .assertion := by
    intro log cnt bv; simp [addScalar]
  by_cases hk : k = true ∧ kh = false
  · obtain ⟨rfl, rfl⟩ := hk
    rw [bad]; rfl
  rw [← l1, addScalar_ok (by cases k <;> cases kh <;> simp_all) (by rw [l1]; omega), ok_bind]
  dsimp only
  set L2 := L1 ++ (if k then [lo.kernel] else []) with hL2
  have l2 : L2.length = b2n t * dim + b2n k := by rw [hL2, List.length_append, l1, len_if]
  rw [show L1.length + b2n k = L2.length by rw [l2, l1], addScalar_ok (by simp) (by rw [l1]; omega), ok_bind]
  dsimp only
  set L3 := L2 ++ (if v then [lo.var] else []) with hL3
  have l3 : L3.length = b2n t * dim + b2n k + b2n v := by rw [hL3, List.length_append, l2, len_if]
  by_cases hf : f = true ∧ kf = true
  · obtain ⟨rfl, rfl⟩ := hf
    rw [Bool.not_true, bad]; rfl
  rw [show L2.length + b2n v = L3.length by rw [l3, l2], addScalar_ok (by cases f <;> cases kf <;> simp_all) (by rw [l1]; omega), ok_bind]
  dsimp only
  have hg : g = true ∧ kg = true := by tauto
  obtain ⟨rfl, rfl⟩ := hg
  rw [Bool.not_true, bad]; rfl

theorem natural_encoded (lo : LogOpts) (s : Slot) {y : ℝ} (hy : 0 < y) : natural lo s (encoded lo s y) = y := by
  unfold natural encoded
  split
  · exact Real.rpow_logb (by norm_num) (by norm_num) hy
  · rfl

theorem encoded_natural (lo : LogOpts) (s : Slot) (x : ℝ) : encoded lo s (natural lo s x) = x := by
  unfold natural encoded
  split
  · exact Real.logb_rpow (by norm_num) (by norm_num)
  · rfl

theorem logOptz_at (lo : LogOpts) (dim : ℕ) {t k v f g : Bool} {s : Slot} {p : ℕ}
    (h : (hpSlots dim t k v f g)[p]? = some s) : (hpInfoOf lo dim t k v f g).logOptz.getD p false = slotLog lo s := by
  rw [← hpSlots_log, List.getD_eq_getElem?_getD, List.getElem?_map, h]; rfl

theorem pos_lt_length (lo : LogOpts) (dim : ℕ) {t k v f g : Bool} {s : Slot} {p : ℕ}
    (h : slotPos (hpInfoOf lo dim t k v f g) s = some p) : p < (hpSlots dim t k v f g).length := by
  have := (slotPos_iff lo dim t k v f g s p).mp h
  exact (List.getElem?_eq_some_iff.mp this).1

/-- Decoding, in closed form. -/
theorem hpVec2Dataclass_ok (gp : Gp) (lo : LogOpts) (dim : ℕ) {t k v f g : Bool} (hv : v = true → gp.noisy = true)
    (hf : f = true → gp.knownFval = false) (hg : g = true → gp.useGrad = true ∧ gp.knownFgrad = false) (vec : Arr1)
    (hn : vec.n = (hpSlots dim t k v f g).length) :
    ∃ hp, hpVec2Dataclass gp (hpInfoOf lo dim t k v f g) vec = .ok hp ∧ hp.beta = none ∧
      (t = true → ∃ th, hp.theta = some th ∧ th.n = dim) ∧
      (∀ p s, (hpSlots dim t k v f g)[p]? = some s → getSlot hp s = some (natural lo s (vec.get p))) ∧
      (∀ s, s ∉ hpSlots dim t k v f g → getSlot hp s = none) := by
  set info := hpInfoOf lo dim t k v f g with hinfo
  have hlog : info.logOptz.length = vec.n := by rw [hn, hinfo, ← hpSlots_log, List.length_map]
  set w : Arr1 := ⟨vec.n, fun i => if info.logOptz.getD i false then (10 : ℝ) ^ vec.get i else vec.get i⟩ with hw
  have hpow : powMasked vec info.logOptz = .ok w := by unfold powMasked; rw [if_pos hlog]
  have hat : ∀ s p, slotPos info s = some p → p < w.n ∧ w.get p = natural lo s (vec.get p) := by
    intro s p h
    have h' := (slotPos_iff lo dim t k v f g s p).mp h
    refine ⟨by rw [hw]; simp only [hn]; exact pos_lt_length lo dim h, ?_⟩
    simp only [hw, natural]
    rw [hinfo, logOptz_at lo dim h']
  have hsc : ∀ has ok i, (has = true → ok = true ∧ i < w.n) →
      takeScalar has ok w i = .ok (if has then some (w.get i) else none) := by
    intro has ok i h
    unfold takeScalar
    cases has with
    | false => rfl
    | true =>
      obtain ⟨h1, h2⟩ := h rfl
      simp [h1, Arr1.at'_ok h2]
  have hthlen : t = true → info.idxTheta = List.range dim := by intro h; simp [hinfo, hpInfoOf, h]
  have hTh : takeTheta info w = .ok (if t then some ⟨dim, fun d => if d < dim then w.get ((List.range dim).getD d 0) else 0⟩ else none) := by
    unfold takeTheta
    cases ht : t with
    | false => rw [if_neg (by rw [hinfo, hpInfoOf, ht]; simp)]; rfl
    | true =>
      have e1 : info.hasTheta = true := by rw [hinfo, hpInfoOf, ht]
      rw [if_pos e1, hthlen ht]
      unfold takeIdx
      rw [if_pos]
      · simp
      · intro i hi
        refine (hat (.theta i) i ?_).1
        simp only [slotPos, e1, if_true, hthlen ht]
        rw [range_getElem?]; exact ⟨rfl, List.mem_range.mp hi⟩
  have eK : info.hasKernel = k := rfl
  have eV : info.hasVarK = v := rfl
  have eF : info.hasVarFval = f := rfl
  have eG : info.hasVarFgrad = g := rfl
  have he : hpVec2Dataclass gp info vec = .ok {
      beta := none
      theta := if t then some ⟨dim, fun d => if d < dim then w.get ((List.range dim).getD d 0) else 0⟩ else none
      kernel := if info.hasKernel then some (w.get info.idxKernel) else none
      varK := if info.hasVarK then some (w.get info.idxVarK) else none
      varFval := if info.hasVarFval then some (w.get info.idxVarFval) else none
      varFgrad := if info.hasVarFgrad then some (w.get info.idxVarFgrad) else none } := by
    unfold hpVec2Dataclass
    rw [hpow, ok_bind, hTh, ok_bind,
      hsc info.hasKernel true info.idxKernel (fun h => ⟨rfl, (hat .kernel _ (by simp [slotPos, h])).1⟩), ok_bind,
      hsc info.hasVarK gp.noisy info.idxVarK (fun h => ⟨hv h, (hat .varK _ (by simp [slotPos, h])).1⟩), ok_bind,
      hsc info.hasVarFval (!gp.knownFval) info.idxVarFval (fun h => ⟨by simp [hf h], (hat .varFval _ (by simp [slotPos, h])).1⟩), ok_bind,
      hsc info.hasVarFgrad (gp.useGrad && !gp.knownFgrad) info.idxVarFgrad
        (fun h => ⟨by simp [hg h], (hat .varFgrad _ (by simp [slotPos, h])).1⟩), ok_bind]
    rfl
  refine ⟨_, he, rfl, ?_, ?_, ?_⟩
  · intro ht; exact ⟨_, by simp only [ht, if_true]; rfl, rfl⟩
  · intro p s hs
    have hpos := (slotPos_iff lo dim t k v f g s p).mpr hs
    rw [← hinfo] at hpos
    obtain ⟨h1, h2⟩ := hat s p hpos
    cases s with
    | theta d =>
      have ht : t = true := by
        by_contra h
        simp [slotPos, hinfo, hpInfoOf, h] at hpos
      have e1 : info.hasTheta = true := by rw [hinfo, hpInfoOf, ht]
      simp only [slotPos, e1, if_true, hthlen ht] at hpos
      obtain ⟨rfl, hd⟩ := range_getElem?.mp hpos
      simp only [getSlot, ht, if_true, hd]
      rw [List.getD_eq_getElem?_getD, hpos, Option.getD_some, h2]
    | kernel =>
      have ht : k = true := by
        by_contra h
        simp [slotPos, hinfo, hpInfoOf, h] at hpos
      simp only [slotPos, eK, ht, if_true, Option.some.injEq] at hpos
      simp only [getSlot, eK, ht, if_true, hpos, h2]
    | varK =>
      have ht : v = true := by
        by_contra h
        simp [slotPos, hinfo, hpInfoOf, h] at hpos
      simp only [slotPos, eV, ht, if_true, Option.some.injEq] at hpos
      simp only [getSlot, eV, ht, if_true, hpos, h2]
    | varFval =>
      have ht : f = true := by
        by_contra h
        simp [slotPos, hinfo, hpInfoOf, h] at hpos
      simp only [slotPos, eF, ht, if_true, Option.some.injEq] at hpos
      simp only [getSlot, eF, ht, if_true, hpos, h2]
    | varFgrad =>
      have ht : g = true := by
        by_contra h
        simp [slotPos, hinfo, hpInfoOf, h] at hpos
      simp only [slotPos, eG, ht, if_true, Option.some.injEq] at hpos
      simp only [getSlot, eG, ht, if_true, hpos, h2]
  · intro s hs
    have hno : ∀ p, slotPos info s ≠ some p := by
      intro p h
      exact hs (List.mem_of_getElem? ((slotPos_iff lo dim t k v f g s p).mp h))
    cases s with
    | theta d =>
      cases ht : t with
      | false => simp [getSlot]
      | true =>
        have hd : ¬ d < dim := by
          intro hd
          apply hno d
          have e1 : info.hasTheta = true := by rw [hinfo, hpInfoOf, ht]
          simp only [slotPos, e1, if_true, hthlen ht]
          exact range_getElem?.mpr ⟨rfl, hd⟩
        simp [getSlot, hd]
    | kernel =>
      have : k = false := by
        by_contra h
        exact hno info.idxKernel (by simp [slotPos, eK, h])
      simp [getSlot, eK, this]
    | varK =>
      have : v = false := by
        by_contra h
        exact hno info.idxVarK (by simp [slotPos, eV, h])
      simp [getSlot, eV, this]
    | varFval =>
      have : f = false := by
        by_contra h
        exact hno info.idxVarFval (by simp [slotPos, eF, h])
      simp [getSlot, eF, this]
    | varFgrad =>
      have : g = false := by
        by_contra h
        exact hno info.idxVarFgrad (by simp [slotPos, eG, h])
      simp [getSlot, eG, this]


theorem setupHpIdx_ok (gp : Gp) (lo : LogOpts) (ok : Bool) :
    setupHpIdx gp lo ok = .ok (hpInfoOf lo gp.dim true (ok && kernelHasHp gp.kernel) gp.noisy (!gp.knownFval)
      (gp.useGrad && !gp.knownFgrad)) := by
  unfold setupHpIdx
  refine setHpOptzInfo_ok lo gp.dim ?_ ?_ ?_
  · cases ok <;> simp
  · cases gp.knownFval <;> simp
  · cases gp.useGrad <;> cases gp.knownFgrad <;> simp

/-- **C54** for the object: the layout that `set_data` prepares never fails and lists the length scales, the kernel parameter
(if the kernel has one and it is optimised), the variance (if there is noise) and each unknown noise variance. -/
theorem C54_object_layout (gp : Gp) (lo : LogOpts) (ok : Bool) :
    ∃ info, setupHpIdx gp lo ok = .ok info ∧ info.nHp = (gpSlots gp ok).length ∧
      (∀ s p, slotPos info s = some p ↔ (gpSlots gp ok)[p]? = some s) ∧ (gpSlots gp ok).Nodup ∧
      info.logOptz = (gpSlots gp ok).map (slotLog lo) :=
  ⟨_, setupHpIdx_ok gp lo ok, (hpSlots_length ..).symm, slotPos_iff lo gp.dim _ _ _ _ _, hpSlots_nodup .., (hpSlots_log ..).symm⟩

/-- **C55**, decoding: every vector of the right length decodes, entry `p` becomes the value of the `p`-th optimised
hyperparameter (`10**x` where it is optimised through its logarithm), and every other hyperparameter is absent. -/
theorem C55_decode (gp : Gp) (lo : LogOpts) (ok : Bool) {info : HpInfo} (hi : setupHpIdx gp lo ok = .ok info) (vec : Arr1)
    (hn : vec.n = info.nHp) :
    ∃ hp, hpVec2Dataclass gp info vec = .ok hp ∧ hp.beta = none ∧ (∃ th, hp.theta = some th ∧ th.n = gp.dim) ∧
      (∀ p s, (gpSlots gp ok)[p]? = some s → getSlot hp s = some (natural lo s (vec.get p))) ∧
      (∀ s, s ∉ gpSlots gp ok → getSlot hp s = none) := by
  rw [setupHpIdx_ok] at hi
  cases hi
  obtain ⟨hp, h1, h2, h3, h4, h5⟩ := hpVec2Dataclass_ok gp lo gp.dim (t := true) (k := ok && kernelHasHp gp.kernel)
    (v := gp.noisy) (f := !gp.knownFval) (g := gp.useGrad && !gp.knownFgrad) (fun h => h) (by simp) (by simp) vec
    (hn.trans (hpSlots_length ..).symm)
  exact ⟨hp, h1, h2, h3 rfl, h4, h5⟩

/-- **C55.** Encoding positive hyperparameters and decoding the vector gives back every optimised hyperparameter. -/
theorem C55_decode_encode (gp : Gp) (lo : LogOpts) (ok : Bool) {info : HpInfo} (hi : setupHpIdx gp lo ok = .ok info)
    (hp : HpVals) (hpos : ∀ s ∈ gpSlots gp ok, ∃ y, getSlot hp s = some y ∧ 0 < y) (vec : Arr1) (hn : vec.n = info.nHp)
    (henc : ∀ p s y, (gpSlots gp ok)[p]? = some s → getSlot hp s = some y → vec.get p = encoded lo s y) :
    ∃ hp', hpVec2Dataclass gp info vec = .ok hp' ∧ ∀ s ∈ gpSlots gp ok, getSlot hp' s = getSlot hp s := by
  obtain ⟨hp', h1, -, -, h4, -⟩ := C55_decode gp lo ok hi vec hn
  refine ⟨hp', h1, fun s hs => ?_⟩
  obtain ⟨p, hp1⟩ := List.mem_iff_getElem?.mp hs
  obtain ⟨y, hy, hy0⟩ := hpos s hs
  rw [h4 p s hp1, henc p s y hp1 hy, natural_encoded lo s hy0, hy]

/-- **C55**, the other direction: encoding the decoded hyperparameters gives back the vector; in particular two vectors
that decode to the same hyperparameters are equal. -/
theorem C55_encode_decode (gp : Gp) (lo : LogOpts) (ok : Bool) {info : HpInfo} (hi : setupHpIdx gp lo ok = .ok info)
    (vec : Arr1) (hn : vec.n = info.nHp) {hp : HpVals} (hd : hpVec2Dataclass gp info vec = .ok hp) (p : ℕ) (hpn : p < vec.n) :
    ∃ s y, (gpSlots gp ok)[p]? = some s ∧ getSlot hp s = some y ∧ encoded lo s y = vec.get p := by
  obtain ⟨hp', h1, -, -, h4, -⟩ := C55_decode gp lo ok hi vec hn
  rw [hd] at h1
  cases h1
  obtain ⟨info', h1, h2, -⟩ := C54_object_layout gp lo ok
  rw [hi] at h1; cases h1
  rw [hn, h2] at hpn
  exact ⟨_, _, List.getElem?_eq_getElem hpn, h4 p _ (List.getElem?_eq_getElem hpn), encoded_natural ..⟩

/-- **C55**: a vector of another length is rejected. -/
theorem C55_wrong_length (gp : Gp) (lo : LogOpts) (ok : Bool) {info : HpInfo} (hi : setupHpIdx gp lo ok = .ok info)
    (vec : Arr1) (hn : vec.n ≠ info.nHp) : hpVec2Dataclass gp info vec = .error .index := by
  obtain ⟨info', h1, h2, -, -, h5⟩ := C54_object_layout gp lo ok
  rw [hi] at h1; cases h1
  have : info.logOptz.length ≠ vec.n := by rw [h5, List.length_map, ← h2]; exact Ne.symm hn
  unfold hpVec2Dataclass powMasked
  rw [if_neg this]; rfl

/-! ### Non-triviality -/

/-- A noisy rational-quadratic model in two dimensions with unknown noise on values and gradients has six optimised
hyperparameters. -/
example (gp : Gp) (h1 : gp.dim = 2) (h2 : gp.kernel = .ratQuad) (h3 : gp.noisy = true) (h4 : gp.knownFval = false)
    (h5 : gp.knownFgrad = false) (h6 : gp.useGrad = true) :
    gpSlots gp true = [.theta 0, .theta 1, .kernel, .varK, .varFval, .varFgrad] := by
  simp [gpSlots, hpSlots, h1, h2, h3, h4, h5, h6, kernelHasHp, hpKernelDefault, List.range_succ]

example : natural ⟨true, false, true⟩ (.theta 0) 2 = 100 ∧ natural ⟨true, false, true⟩ .kernel 2 = 2 := by
  constructor
  · simp only [natural, slotLog, if_true]; norm_num
  · simp [natural, slotLog]

/-! The theorems applied to a two-dimensional layout with all kinds of hyperparameters, and to the smallest object. -/
example := C54_layout ⟨true, false, true⟩ 2 (kh := true) (kf := false) (kg := false) (t := true) (k := true) (v := true) (f := true) (g := true)
  (fun _ => rfl) (fun _ => rfl) (fun _ => rfl)
example := C54_rejects ⟨true, false, true⟩ 2 (kh := true) (kf := true) (kg := false) (t := true) (k := true) (v := true) (f := true) (g := true)
  (.inr (.inl ⟨rfl, rfl⟩))

end Props
