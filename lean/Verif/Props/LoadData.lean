import Verif.Model.LoadData
import Verif.Props.Results
import Verif.Proofs.Block
import Verif.Proofs.LkdAllCore

/-! Claim theorems for C120: the loaded results and the bounds around them. -/

open Np GP

noncomputable section

namespace Props

/-- The file can be loaded, and all its arrays have `r` rows (starting points) and `c` columns (iterations). -/
structure FileOk (f : String × Option NpzFile) (z : NpzFile) (r c : ℕ) : Prop where
  name : ".npz".toList <:+: f.1.toList
  some : f.2 = some z
  rows : z.merit.r = r ∧ z.opt.r = r ∧ z.fsb.r = r ∧ z.meritF.r = r ∧ z.optF.r = r ∧ z.fsbF.r = r
  cols : z.merit.c = c ∧ z.opt.c = c ∧ z.fsb.c = c ∧ z.meritF.c = c ∧ z.optF.c = c ∧ z.fsbF.c = c

theorem setBlock_ok {A : FArr3} {B : FMat} (i : ℕ) {n c N : ℕ} (hB : B.r = n) (hc : B.c = c) (hA : A.c = N) (hn : n ≤ A.r) :
    ∃ A', setBlock A i n (min c N) B = .ok A' ∧ A'.a = A.a ∧ A'.r = A.r ∧ A'.c = A.c ∧
      ∀ p j l, A'.get p j l = if p = i ∧ j < n ∧ l < min c N then B.get j l else A.get p j l := by
  have h1 : min n A.r = n := min_eq_left hn
  have h2 : min (min c N) B.c = min c N := by rw [hc]; omega
  have h3 : min (min c N) A.c = min c N := by rw [hA]; omega
  refine ⟨⟨A.a, A.r, A.c, fun p j l => if p = i ∧ j < n ∧ l < min c N then B.get j l else A.get p j l⟩, ?_, rfl, rfl, rfl, fun p j l => rfl⟩
  unfold setBlock
  rw [h1, h2, h3, hB]
  simp only [fitsAxis, beq_self_eq_true, Bool.true_or, Bool.and_self, if_true]
  congr 1
  congr 1
  funext p j l
  split_ifs with h <;> first | rfl | (congr 1 <;> omega)

/-- What the loop has done after the files `0, …, i - 1`. -/
structure Loaded (z : ℕ → NpzFile) (r c : ℕ → ℕ) (nX0 N : ℕ) (wo : Bool) (n i : ℕ) (s : LoadState) : Prop where
  shape : ∀ A ∈ [s.merit, s.opt, s.fsb], A.a = n ∧ A.r = nX0 ∧ A.c = N
  merit : ∀ p j l, s.merit.get p j l = if p < i ∧ j < r p ∧ l < min (c p) N then (if wo then (z p).meritF else (z p).merit).get j l else none
  opt : ∀ p j l, s.opt.get p j l = if p < i ∧ j < r p ∧ l < min (c p) N then (if wo then (z p).optF else (z p).opt).get j l else none
  fsb : ∀ p j l, s.fsb.get p j l = if p < i ∧ j < r p ∧ l < min (c p) N then (if wo then (z p).fsbF else (z p).fsb).get j l else none
  x0Max : s.x0Max = (Finset.range i).sup r
  iterMax : s.iterMax = (Finset.range i).sup fun p => min (c p) N

theorem block_step {z : FMat} {r c : ℕ → ℕ} {N i : ℕ} {get : ℕ → ℕ → ℕ → Fl} {B : ℕ → FMat} {get' : ℕ → ℕ → ℕ → Fl} (hz : z = B i)
    (h : ∀ p j l, get p j l = if p < i ∧ j < r p ∧ l < min (c p) N then (B p).get j l else none)
    (h' : ∀ p j l, get' p j l = if p = i ∧ j < r i ∧ l < min (c i) N then z.get j l else get p j l) (p j l : ℕ) :
    get' p j l = if p < i + 1 ∧ j < r p ∧ l < min (c p) N then (B p).get j l else none := by
  rw [h', h, hz]
  by_cases hp : p = i
  · subst hp
    simp
  · have : p < i + 1 ↔ p < i := by omega
    simp only [hp, false_and, if_false, this]

theorem loadFile_ok {z : ℕ → NpzFile} {r c : ℕ → ℕ} {nX0 N : ℕ} {wo : Bool} {n i : ℕ} {s : LoadState} (hs : Loaded z r c nX0 N wo n i s)
    {f : String × Option NpzFile} (hf : FileOk f (z i) (r i) (c i)) (hr : r i ≤ nX0) :
    ∃ s', loadFile N wo i f s = .ok s' ∧ Loaded z r c nX0 N wo n (i + 1) s' := by
  obtain ⟨r1, r2, r3, r4, r5, r6⟩ := hf.rows
  obtain ⟨c1, c2, c3, c4, c5, c6⟩ := hf.cols
  have hm := hs.shape s.merit (by simp)
  have ho := hs.shape s.opt (by simp)
  have hb := hs.shape s.fsb (by simp)
  obtain ⟨A1, e1, a1, b1, d1, g1⟩ := setBlock_ok (A := s.merit) (B := if wo then (z i).meritF else (z i).merit) i (n := r i) (c := c i) (N := N)
    (by split_ifs <;> assumption) (by split_ifs <;> assumption) hm.2.2 (hm.2.1 ▸ hr)
  obtain ⟨A2, e2, a2, b2, d2, g2⟩ := setBlock_ok (A := s.opt) (B := if wo then (z i).optF else (z i).opt) i (n := r i) (c := c i) (N := N)
    (by split_ifs <;> assumption) (by split_ifs <;> assumption) ho.2.2 (ho.2.1 ▸ hr)
  obtain ⟨A3, e3, a3, b3, d3, g3⟩ := setBlock_ok (A := s.fsb) (B := if wo then (z i).fsbF else (z i).fsb) i (n := r i) (c := c i) (N := N)
    (by split_ifs <;> assumption) (by split_ifs <;> assumption) hb.2.2 (hb.2.1 ▸ hr)
  refine ⟨{ merit := A1, opt := A2, fsb := A3, x0Max := max s.x0Max (r i), iterMax := max s.iterMax (min (c i) N) }, ?_, ?_⟩
  · unfold loadFile
    rw [if_neg (by simpa using hf.name), hf.some]
    dsimp only
    rw [r1, c1, e1]
    simp only [ok_bind, e2, e3]
    rfl
  · refine ⟨?_, block_step (B := fun p => if wo then (z p).meritF else (z p).merit) rfl hs.merit g1,
      block_step (B := fun p => if wo then (z p).optF else (z p).opt) rfl hs.opt g2,
      block_step (B := fun p => if wo then (z p).fsbF else (z p).fsb) rfl hs.fsb g3, ?_, ?_⟩
    · intro A hA
      simp only [List.mem_cons, List.not_mem_nil, or_false] at hA
      rcases hA with rfl | rfl | rfl
      · exact ⟨a1.trans hm.1, b1.trans hm.2.1, d1.trans hm.2.2⟩
      · exact ⟨a2.trans ho.1, b2.trans ho.2.1, d2.trans ho.2.2⟩
      · exact ⟨a3.trans hb.1, b3.trans hb.2.1, d3.trans hb.2.2⟩
    · show max s.x0Max (r i) = _
      rw [Finset.range_add_one, Finset.sup_insert, hs.x0Max]
      exact max_comm _ _
    · show max s.iterMax (min (c i) N) = _
      rw [Finset.range_add_one, Finset.sup_insert, hs.iterMax]
      exact max_comm _ _

theorem loadLoop_ok {z : ℕ → NpzFile} {r c : ℕ → ℕ} {nX0 N : ℕ} {wo : Bool} {n : ℕ} (l : List (String × Option NpzFile)) :
    ∀ (i : ℕ) (s : LoadState), Loaded z r c nX0 N wo n i s → (∀ p f, l[p]? = some f → FileOk f (z (i + p)) (r (i + p)) (c (i + p)) ∧ r (i + p) ≤ nX0) →
      ∃ s', loadLoop N wo i l s = .ok s' ∧ Loaded z r c nX0 N wo n (i + l.length) s' := by
  induction l with
  | nil => exact fun i s hs _ => ⟨s, rfl, hs⟩
  | cons f l ih =>
    intro i s hs h
    obtain ⟨h1, h2⟩ := h 0 f rfl
    obtain ⟨s1, e1, hs1⟩ := loadFile_ok hs h1 h2
    obtain ⟨s2, e2, hs2⟩ := ih (i + 1) s1 hs1 fun p f' hp => by
      have := h (p + 1) f' hp
      rwa [show i + 1 + p = i + (p + 1) by omega]
    refine ⟨s2, ?_, ?_⟩
    · unfold loadLoop
      rw [e1, ok_bind, e2]
    · rwa [List.length_cons, show i + (l.length + 1) = i + 1 + l.length by omega]

/-- **C120.** Files that can be loaded, the `p`-th with `r p` starting points and `c p` iterations, at most `nX0` starting points each. The three
arrays returned hold, for file `p`, starting point `j` and iteration `l`, the recorded number (the noise-free one if asked for), and NaN
where nothing was recorded or the iteration is beyond `n_iter_max`. They have one row for each starting point of the longest file, and
`n_iter_max` iterations, or as many as the longest file if `n_iter_max` is `None` (at most 1000); but the feasibility array has always
`n_x0_init` rows if `n_iter_max` is given. -/
theorem C120_loaded (files : List (String × Option NpzFile)) (nIter : Option ℕ) (nX0 : ℕ) (wo : Bool) (z : ℕ → NpzFile) (r c : ℕ → ℕ)
    (h : ∀ p f, files[p]? = some f → FileOk f (z p) (r p) (c p) ∧ r p ≤ nX0) :
    ∃ m o s, loadNpz files nIter nX0 wo = .ok (m, o, s) ∧
      (∀ A ∈ [m, o], A.a = files.length ∧ A.r = (Finset.range files.length).sup r ∧
        A.c = nIter.getD ((Finset.range files.length).sup fun p => min (c p) 1000)) ∧
      (s.a = files.length ∧ s.c = m.c ∧ s.r = if nIter.isSome then nX0 else m.r) ∧
      ∀ p < files.length, ∀ j l, l < m.c →
        m.get p j l = (if j < r p ∧ l < c p then (if wo then (z p).meritF else (z p).merit).get j l else none) ∧
        o.get p j l = (if j < r p ∧ l < c p then (if wo then (z p).optF else (z p).opt).get j l else none) ∧
        s.get p j l = (if j < r p ∧ l < c p then (if wo then (z p).fsbF else (z p).fsb).get j l else none) := by
  have hr : ∀ p < files.length, r p ≤ nX0 := fun p hp => (h p files[p] (by simp [hp])).2
  have hle : (Finset.range files.length).sup r ≤ nX0 := Finset.sup_le fun p hp => hr p (Finset.mem_range.mp hp)
  set N := nIter.getD 1000 with hN
  set e := fullNan files.length nX0 N with he
  have h0 : Loaded z r c nX0 N wo files.length 0 { merit := e, opt := e, fsb := e } := by
    refine ⟨fun A hA => ?_, fun p j l => ?_, fun p j l => ?_, fun p j l => ?_, by simp, by simp⟩
    · simp only [List.mem_cons, List.not_mem_nil, or_false, or_self] at hA
      subst hA
      exact ⟨rfl, rfl, rfl⟩
    all_goals simp [he, fullNan]
  obtain ⟨s, es, hs⟩ := loadLoop_ok files 0 _ h0 fun p f hp => by
    rw [Nat.zero_add]; exact h p f hp
  rw [Nat.zero_add] at hs
  have hm := hs.shape s.merit (by simp)
  have ho := hs.shape s.opt (by simp)
  have hb := hs.shape s.fsb (by simp)
  have hent : ∀ (B : ℕ → FMat) (get : ℕ → ℕ → ℕ → Fl),
      (∀ p j l, get p j l = if p < files.length ∧ j < r p ∧ l < min (c p) N then (B p).get j l else none) →
      ∀ p < files.length, ∀ j l, l < N → get p j l = if j < r p ∧ l < c p then (B p).get j l else none := by
    intro B get hg p hp j l hl
    rw [hg]
    have : l < min (c p) N ↔ l < c p := by omega
    simp only [hp, this, true_and]
  cases hn : nIter with
  | none =>
    have hN' : N = 1000 := by rw [hN, hn]; rfl
    have hK : s.iterMax ≤ N := by rw [hs.iterMax]; exact Finset.sup_le fun p _ => min_le_right _ _
    refine ⟨s.merit.clip s.x0Max s.iterMax, s.opt.clip s.x0Max s.iterMax, s.fsb.clip s.x0Max s.iterMax, ?_, ?_, ?_, ?_⟩
    · unfold loadNpz
      rw [← hn]
      simp only [← hN, ← he, es, ok_bind]
      rw [hn]
      rfl
    · intro A hA
      simp only [List.mem_cons, List.not_mem_nil, or_false] at hA
      rcases hA with rfl | rfl
      · exact ⟨hm.1, by show min _ _ = _; rw [hm.2.1, hs.x0Max, min_eq_left hle], by
          show min _ _ = _; rw [hm.2.2, min_eq_left hK, hs.iterMax, hN']; rfl⟩
      · exact ⟨ho.1, by show min _ _ = _; rw [ho.2.1, hs.x0Max, min_eq_left hle], by
          show min _ _ = _; rw [ho.2.2, min_eq_left hK, hs.iterMax, hN']; rfl⟩
    · exact ⟨hb.1, by show min _ _ = min _ _; rw [hb.2.2, hm.2.2], by show min _ _ = min _ _; rw [hb.2.1, hm.2.1]⟩
    · intro p hp j l hl
      have hl' : l < N := lt_of_lt_of_le hl ((min_le_right _ _).trans hm.2.2.le)
      exact ⟨hent (fun p => if wo then (z p).meritF else (z p).merit) _ hs.merit p hp j l hl',
        hent (fun p => if wo then (z p).optF else (z p).opt) _ hs.opt p hp j l hl',
        hent (fun p => if wo then (z p).fsbF else (z p).fsb) _ hs.fsb p hp j l hl'⟩
  | some K =>
    have hN' : N = K := by rw [hN, hn]; rfl
    refine ⟨s.merit.clip s.x0Max N, s.opt.clip s.x0Max N, s.fsb, ?_, ?_, ?_, ?_⟩
    · unfold loadNpz
      rw [← hn]
      simp only [← hN, ← he, es, ok_bind]
      rw [hn]
      rfl
    · intro A hA
      simp only [List.mem_cons, List.not_mem_nil, or_false] at hA
      rcases hA with rfl | rfl
      · exact ⟨hm.1, by show min _ _ = _; rw [hm.2.1, hs.x0Max, min_eq_left hle], by
          show min _ _ = _; rw [hm.2.2, min_self, hN']; rfl⟩
      · exact ⟨ho.1, by show min _ _ = _; rw [ho.2.1, hs.x0Max, min_eq_left hle], by
          show min _ _ = _; rw [ho.2.2, min_self, hN']; rfl⟩
    · exact ⟨hb.1, by show _ = min _ _; rw [hb.2.2, hm.2.2, min_self], hb.2.1⟩
    · intro p hp j l hl
      have hl' : l < N := lt_of_lt_of_le hl (min_le_left _ _)
      exact ⟨hent (fun p => if wo then (z p).meritF else (z p).merit) _ hs.merit p hp j l hl',
        hent (fun p => if wo then (z p).optF else (z p).opt) _ hs.opt p hp j l hl',
        hent (fun p => if wo then (z p).fsbF else (z p).fsb) _ hs.fsb p hp j l hl'⟩

/-- **C120**, refusals. A file whose name does not contain ".npz", one that cannot be read, and one with more starting points than `n_x0_init`
(and more than one) makes the call raise. -/
theorem C120_refuses (files : List (String × Option NpzFile)) (nIter : Option ℕ) (nX0 : ℕ) (wo : Bool) (p : ℕ) (f : String × Option NpzFile)
    (hf : files[p]? = some f)
    (h : ¬ ".npz".toList <:+: f.1.toList ∨ f.2 = none ∨ ∃ z, f.2 = some z ∧ nX0 < z.merit.r ∧ 1 < z.merit.r ∧ z.meritF.r = z.merit.r) :
    ∃ e, loadNpz files nIter nX0 wo = .error e := by
  have hset : ∀ {A : FArr3} {i n k : ℕ} {B : FMat} {A'}, setBlock A i n k B = .ok A' → A'.r = A.r := by
    intro A i n k B A' h
    unfold setBlock at h
    split_ifs at h <;> (cases h; rfl)
  have hfile : ∀ {N i : ℕ} {f : String × Option NpzFile} {s s' : LoadState}, loadFile N wo i f s = .ok s' → s'.merit.r = s.merit.r := by
    intro N i f s s' h
    unfold loadFile at h
    by_cases hnm : ".npz".toList <:+: f.1.toList
    swap
    · rw [if_pos hnm] at h; cases h
    rw [if_neg (not_not.mpr hnm)] at h
    cases hz : f.2 with
    | none => rw [hz] at h; cases h
    | some z =>
      rw [hz] at h
      dsimp only at h
      obtain ⟨m, h1, h⟩ := bind_eq_ok h
      obtain ⟨o, h2, h⟩ := bind_eq_ok h
      obtain ⟨b, h3, h⟩ := bind_eq_ok h
      cases h
      exact hset h1
  have hloop : ∀ (N : ℕ) (l : List (String × Option NpzFile)) (i p : ℕ) (s : LoadState), s.merit.r = nX0 → l[p]? = some f →
      ∃ e, loadLoop N wo i l s = .error e := by
    intro N l
    induction l with
    | nil => intro i p s _ hp; simp at hp
    | cons f' l ih =>
      intro i p s hs hp
      unfold loadLoop
      cases e1 : loadFile N wo i f' s with
      | error e => exact ⟨e, rfl⟩
      | ok s1 =>
        cases p with
        | zero =>
          obtain rfl : f' = f := by simpa using hp
          exfalso
          unfold loadFile at e1
          by_cases hnm : ".npz".toList <:+: f'.1.toList
          swap
          · rw [if_pos hnm] at e1; cases e1
          rw [if_neg (not_not.mpr hnm)] at e1
          rcases h with h | h | ⟨z, hz, hlt, hone, hr⟩
          · exact h hnm
          · rw [h] at e1
            cases e1
          · rw [hz] at e1
            dsimp only at e1
            obtain ⟨m, h1, -⟩ := bind_eq_ok e1
            unfold setBlock at h1
            rw [hs, min_eq_right hlt.le] at h1
            have hb : fitsAxis (if wo then z.meritF else z.merit).r nX0 = false := by
              have : (if wo then z.meritF else z.merit).r = z.merit.r := by split_ifs; exacts [hr, rfl]
              rw [this]
              simp only [fitsAxis, Bool.or_eq_false_iff, beq_eq_false_iff_ne]
              omega
            rw [hb] at h1
            cases h1
        | succ p =>
          rw [ok_bind]
          exact ih (i + 1) p s1 ((hfile e1).trans hs) (by simpa using hp)
  obtain ⟨e, he⟩ := hloop (nIter.getD 1000) files 0 p
    { merit := fullNan files.length nX0 (nIter.getD 1000), opt := fullNan files.length nX0 (nIter.getD 1000)
      fsb := fullNan files.length nX0 (nIter.getD 1000) } rfl hf
  refine ⟨e, ?_⟩
  unfold loadNpz
  simp only [he]
  rfl

/-- A number results only if all entries are numbers, and then it is the reduced value. -/
theorem reduce_min (get : ℕ → Fl) (n : ℕ) (v : ℝ) :
    reduceFl min get n = some v ↔ (∀ j ≤ n, get j ≠ none) ∧ IsLeast {x | ∃ j ≤ n, get j = some x} v := by
  induction n generalizing v with
  | zero =>
    constructor
    · intro h
      have h : get 0 = some v := h
      refine ⟨fun j hj => by obtain rfl : j = 0 := by omega
                             simp [h], ⟨0, le_rfl, h⟩, ?_⟩
      rintro x ⟨j, hj, hx⟩
      obtain rfl : j = 0 := by omega
      rw [h] at hx
      cases hx
      exact le_rfl
    · rintro ⟨-, ⟨j, hj, hx⟩, -⟩
      obtain rfl : j = 0 := by omega
      exact hx
  | succ n ih =>
    show strict2 min (reduceFl min get n) (get (n + 1)) = some v ↔ _
    constructor
    · intro h
      cases hr : reduceFl min get n with
      | none => rw [hr] at h; cases h
      | some a =>
        cases hg : get (n + 1) with
        | none => rw [hr, hg] at h; cases h
        | some b =>
          rw [hr, hg] at h
          obtain rfl : min a b = v := Option.some.inj h
          obtain ⟨h1, ⟨j, hj, hx⟩, h3⟩ := (ih a).mp hr
          refine ⟨fun j hj => ?_, ?_, ?_⟩
          · rcases Nat.lt_or_ge n j with h | h
            · obtain rfl : j = n + 1 := by omega
              simp [hg]
            · exact h1 j h
          · rcases min_choice a b with h | h <;> rw [h]
            · exact ⟨j, by omega, hx⟩
            · exact ⟨n + 1, le_rfl, hg⟩
          · rintro x ⟨i, hi, hxi⟩
            rcases Nat.lt_or_ge n i with h | h
            · obtain rfl : i = n + 1 := by omega
              rw [hg] at hxi
              cases hxi
              exact min_le_right _ _
            · exact (min_le_left _ _).trans (h3 ⟨i, h, hxi⟩)
    · rintro ⟨h1, ⟨j, hj, hx⟩, h3⟩
      obtain ⟨b, hb⟩ := Option.ne_none_iff_exists'.mp (h1 (n + 1) le_rfl)
      have hex : ∃ a, reduceFl min get n = some a := by
        clear ih hj hx h3 hb b
        induction n with
        | zero => exact Option.ne_none_iff_exists'.mp (h1 0 (by omega))
        | succ m ih =>
          obtain ⟨b', hb'⟩ := Option.ne_none_iff_exists'.mp (h1 (m + 1) (by omega))
          obtain ⟨a, ha⟩ := ih fun j hj => h1 j (by omega)
          exact ⟨min a b', by show strict2 min _ _ = _; rw [ha, hb']; rfl⟩
      obtain ⟨a, ha⟩ := hex
      obtain ⟨-, ⟨i, hi, hxi⟩, h6⟩ := (ih a).mp ha
      rw [ha, hb]
      show some (min a b) = some v
      congr 1
      apply le_antisymm
      · rcases Nat.lt_or_ge n j with h | h
        · obtain rfl : j = n + 1 := by omega
          rw [hb] at hx
          cases hx
          exact min_le_right _ _
        · exact (min_le_left _ _).trans (h6 ⟨j, h, hx⟩)
      · exact le_min (h3 ⟨i, by omega, hxi⟩) (h3 ⟨n + 1, le_rfl, hb⟩)

/-- As `reduce_min`. -/
theorem reduce_max (get : ℕ → Fl) (n : ℕ) (v : ℝ) :
    reduceFl max get n = some v ↔ (∀ j ≤ n, get j ≠ none) ∧ IsGreatest {x | ∃ j ≤ n, get j = some x} v := by
  induction n generalizing v with
  | zero =>
    constructor
    · intro h
      have h : get 0 = some v := h
      refine ⟨fun j hj => by obtain rfl : j = 0 := by omega
                             simp [h], ⟨0, le_rfl, h⟩, ?_⟩
      rintro x ⟨j, hj, hx⟩
      obtain rfl : j = 0 := by omega
      rw [h] at hx
      cases hx
      exact le_rfl
    · rintro ⟨-, ⟨j, hj, hx⟩, -⟩
      obtain rfl : j = 0 := by omega
      exact hx
  | succ n ih =>
    show strict2 max (reduceFl max get n) (get (n + 1)) = some v ↔ _
    constructor
    · intro h
      cases hr : reduceFl max get n with
      | none => rw [hr] at h; cases h
      | some a =>
        cases hg : get (n + 1) with
        | none => rw [hr, hg] at h; cases h
        | some b =>
          rw [hr, hg] at h
          obtain rfl : max a b = v := Option.some.inj h
          obtain ⟨h1, ⟨j, hj, hx⟩, h3⟩ := (ih a).mp hr
          refine ⟨fun j hj => ?_, ?_, ?_⟩
          · rcases Nat.lt_or_ge n j with h | h
            · obtain rfl : j = n + 1 := by omega
              simp [hg]
            · exact h1 j h
          · rcases max_choice a b with h | h <;> rw [h]
            · exact ⟨j, by omega, hx⟩
            · exact ⟨n + 1, le_rfl, hg⟩
          · rintro x ⟨i, hi, hxi⟩
            rcases Nat.lt_or_ge n i with h | h
            · obtain rfl : i = n + 1 := by omega
              rw [hg] at hxi
              cases hxi
              exact le_max_right _ _
            · exact (h3 ⟨i, h, hxi⟩).trans (le_max_left _ _)
    · rintro ⟨h1, ⟨j, hj, hx⟩, h3⟩
      obtain ⟨b, hb⟩ := Option.ne_none_iff_exists'.mp (h1 (n + 1) le_rfl)
      have hex : ∃ a, reduceFl max get n = some a := by
        clear ih hj hx h3 hb b
        induction n with
        | zero => exact Option.ne_none_iff_exists'.mp (h1 0 (by omega))
        | succ m ih =>
          obtain ⟨b', hb'⟩ := Option.ne_none_iff_exists'.mp (h1 (m + 1) (by omega))
          obtain ⟨a, ha⟩ := ih fun j hj => h1 j (by omega)
          exact ⟨max a b', by show strict2 max _ _ = _; rw [ha, hb']; rfl⟩
      obtain ⟨a, ha⟩ := hex
      obtain ⟨-, ⟨i, hi, hxi⟩, h6⟩ := (ih a).mp ha
      rw [ha, hb]
      show some (max a b) = some v
      congr 1
      symm
      apply le_antisymm
      · rcases Nat.lt_or_ge n j with h | h
        · obtain rfl : j = n + 1 := by omega
          rw [hb] at hx
          cases hx
          exact le_max_right _ _
        · exact (h6 ⟨j, h, hx⟩).trans (le_max_left _ _)
      · exact max_le (h3 ⟨i, by omega, hxi⟩) (h3 ⟨n + 1, le_rfl, hb⟩)

theorem bestAll_ok (A : FArr3) (method : String) (hok : ∀ i < A.a, ∀ j < A.r, ∃ b, bestAtAllIter (A.row i j) method = .ok b ∧ b.n = A.c) :
    ∃ B, bestAll A method = .ok B ∧ B.a = A.a ∧ B.r = A.r ∧ B.c = A.c ∧
      ∀ i < A.a, ∀ j < A.r, ∃ b, bestAtAllIter (A.row i j) method = .ok b ∧ ∀ l, B.get i j l = b.get l := by
  unfold bestAll
  refine (forRange_inv (lo := 0) (hi := A.a)
    (fun i (B : FArr3) => B.a = A.a ∧ B.r = A.r ∧ B.c = A.c ∧
      ∀ p < i, ∀ j < A.r, ∃ b, bestAtAllIter (A.row p j) method = .ok b ∧ ∀ l, B.get p j l = b.get l)
    (Nat.zero_le _) (init := ⟨A.a, A.r, A.c, fun _ _ _ => some 0⟩) ⟨rfl, rfl, rfl, fun p hp => absurd hp (Nat.not_lt_zero p)⟩ ?_).imp fun B h => ⟨h.1, h.2.1, h.2.2.1, h.2.2.2.1, h.2.2.2.2⟩
  intro i B _ hi ⟨e1, e2, e3, e4⟩
  refine (forRange_inv (lo := 0) (hi := A.r)
    (fun j (B' : FArr3) => B'.a = A.a ∧ B'.r = A.r ∧ B'.c = A.c ∧ (∀ p < i, ∀ q l, B'.get p q l = B.get p q l) ∧
      ∀ q < j, ∃ b, bestAtAllIter (A.row i q) method = .ok b ∧ ∀ l, B'.get i q l = b.get l)
    (Nat.zero_le _) (init := B) ⟨e1, e2, e3, fun _ _ _ _ => rfl, fun q hq => absurd hq (Nat.not_lt_zero q)⟩ ?_).imp
    fun B' ⟨g1, g2, g3, g4, g5, g6⟩ => ⟨g1, g2, g3, g4, fun p hp j hj => ?_⟩
  rotate_left
  · rcases Nat.lt_or_ge p i with h | h
    · obtain ⟨b, hb, hl⟩ := e4 p h j hj
      exact ⟨b, hb, fun l => by rw [g5 p h, hl]⟩
    · obtain rfl : p = i := by omega
      exact g6 j hj
  intro j C _ hj ⟨k1, k2, k3, k4, k5⟩
  obtain ⟨b, hb, hn⟩ := hok i hi j hj
  refine ⟨⟨C.a, C.r, C.c, fun p q l => if p = i ∧ q = j then b.get l else C.get p q l⟩, by simp only [hb, ok_bind]; rw [if_pos hn], k1, k2, k3, fun p hp q l => ?_, fun q hq => ?_⟩
  · have : p ≠ i := by omega
    simp only [this, false_and, if_false]
    exact k4 p hp q l
  · by_cases h : q = j
    · subst h
      exact ⟨b, hb, fun l => by simp⟩
    · obtain ⟨b', hb', hl⟩ := k5 q (by omega)
      exact ⟨b', hb', fun l => by simp only [h, and_false, if_false]; exact hl l⟩

/-- **C120**, the bounds around the runs, for histories that are minimised. The lower bound at iteration `l` is a number only if every run has recorded a
number by iteration `l` and one at iteration `l` or later; then it is the smallest number recorded by any run up to `l`, and the upper
bound is the largest of the best values of the runs. So the area ends where the shortest run ends. -/
theorem C120_band (A : FArr3) (hr : 0 < A.r) (hc : 0 < A.c) :
    ∃ lb ub, convBand A "min" = .ok (lb, ub) ∧ lb.r = A.a ∧ lb.c = A.c ∧ ub.r = A.a ∧ ub.c = A.c ∧
      ∀ i < A.a, ∀ l < A.c, ∀ v,
        (lb.get i l = some v ↔ (∀ j < A.r, (∃ k ≤ l, A.get i j k ≠ none) ∧ ∃ k, l ≤ k ∧ k < A.c ∧ A.get i j k ≠ none) ∧
          IsLeast {x | ∃ j < A.r, ∃ k ≤ l, A.get i j k = some x} v) ∧
        (ub.get i l = some v ↔ (∀ j < A.r, (∃ k ≤ l, A.get i j k ≠ none) ∧ ∃ k, l ≤ k ∧ k < A.c ∧ A.get i j k ≠ none) ∧
          IsGreatest {x | ∃ j < A.r, IsLeast {y | ∃ k ≤ l, A.get i j k = some y} x} v) := by
  obtain ⟨B, hB, ha, hbr, hbc, hrow⟩ := bestAll_ok A "min" fun i _ j _ => by
    obtain ⟨r, h1, h2, -⟩ := C105_running_min (A.row i j) hc
    exact ⟨r, h1, h2⟩
  have hent : ∀ i < A.a, ∀ j < A.r, ∀ l < A.c, ∀ v, B.get i j l = some v ↔
      (∃ k, l ≤ k ∧ k < A.c ∧ A.get i j k ≠ none) ∧ IsLeast {x | ∃ k ≤ l, A.get i j k = some x} v := by
    intro i hi j hj l hl v
    obtain ⟨b, hb, hg⟩ := hrow i hi j hj
    obtain ⟨r, h1, -, h2⟩ := C105_running_min (A.row i j) hc
    obtain rfl : b = r := Except.ok.inj (hb.symm.trans h1)
    rw [hg]
    exact h2 l hl v
  have hne : ∀ i < A.a, ∀ j < A.r, ∀ l < A.c, B.get i j l ≠ none ↔
      (∃ k ≤ l, A.get i j k ≠ none) ∧ ∃ k, l ≤ k ∧ k < A.c ∧ A.get i j k ≠ none := by
    intro i hi j hj l hl
    constructor
    · intro h
      obtain ⟨v, hv⟩ := Option.ne_none_iff_exists'.mp h
      obtain ⟨h1, ⟨k, hk, hx⟩, -⟩ := (hent i hi j hj l hl v).mp hv
      exact ⟨⟨k, hk, by simp [hx]⟩, h1⟩
    · rintro ⟨⟨k, hk, hx⟩, h2⟩
      obtain ⟨x, hx⟩ := Option.ne_none_iff_exists'.mp hx
      have hfin : {x | ∃ k ≤ l, A.get i j k = some x}.Finite := by
        refine ((Finset.range (l + 1)).finite_toSet.image fun k => (A.get i j k).getD 0).subset ?_
        rintro y ⟨k, hk, hy⟩
        exact ⟨k, by simpa using Nat.lt_succ_of_le hk, by simp [hy]⟩
      obtain ⟨v, hv⟩ := hfin.exists_minimal ⟨x, k, hk, hx⟩
      have hleast : IsLeast {x | ∃ k ≤ l, A.get i j k = some x} v := ⟨hv.1, fun y hy => (le_total v y).elim id fun h => hv.2 hy h⟩
      rw [(hent i hi j hj l hl v).mpr ⟨h2, hleast⟩]
      simp
  have hcv : convBand A "min" = .ok (⟨B.a, B.c, fun i l => reduceFl min (fun j => B.get i j l) (B.r - 1)⟩,
      ⟨B.a, B.c, fun i l => reduceFl max (fun j => B.get i j l) (B.r - 1)⟩) := by
    unfold convBand
    rw [hB, ok_bind, if_neg (by omega)]
    rfl
  refine ⟨_, _, hcv, ha, hbc, ha, hbc, fun i hi l hl v => ⟨?_, ?_⟩⟩
  · show reduceFl min (fun j => B.get i j l) (B.r - 1) = some v ↔ _
    rw [reduce_min]
    have hj : ∀ j, j ≤ B.r - 1 ↔ j < A.r := fun j => by omega
    simp only [hj]
    have e1 : (∀ j < A.r, B.get i j l ≠ none) ↔ ∀ j < A.r, (∃ k ≤ l, A.get i j k ≠ none) ∧ ∃ k, l ≤ k ∧ k < A.c ∧ A.get i j k ≠ none :=
      forall₂_congr fun j hj => hne i hi j hj l hl
    rw [e1]
    refine and_congr_right fun hall => ?_
    constructor
    · rintro ⟨⟨j, hj, hx⟩, h2⟩
      obtain ⟨-, ⟨k, hk, hx'⟩, -⟩ := (hent i hi j hj l hl v).mp hx
      refine ⟨⟨j, hj, k, hk, hx'⟩, ?_⟩
      rintro y ⟨j', hj', k', hk', hy⟩
      obtain ⟨w, hw⟩ := Option.ne_none_iff_exists'.mp ((hne i hi j' hj' l hl).mpr (hall j' hj'))
      exact (h2 ⟨j', hj', hw⟩).trans (((hent i hi j' hj' l hl w).mp hw).2.2 ⟨k', hk', hy⟩)
    · rintro ⟨⟨j, hj, k, hk, hx⟩, h2⟩
      have hlow : ∀ j' < A.r, ∀ w, B.get i j' l = some w → v ≤ w := fun j' hj' w hw => by
        obtain ⟨-, ⟨k', hk', hx'⟩, -⟩ := (hent i hi j' hj' l hl w).mp hw
        exact h2 ⟨j', hj', k', hk', hx'⟩
      refine ⟨⟨j, hj, (hent i hi j hj l hl v).mpr ⟨(hall j hj).2, ⟨k, hk, hx⟩, ?_⟩⟩, ?_⟩
      · rintro y ⟨k', hk', hy⟩
        exact h2 ⟨j, hj, k', hk', hy⟩
      · rintro w ⟨j', hj', hw⟩
        exact hlow j' hj' w hw
  · show reduceFl max (fun j => B.get i j l) (B.r - 1) = some v ↔ _
    rw [reduce_max]
    have hj : ∀ j, j ≤ B.r - 1 ↔ j < A.r := fun j => by omega
    simp only [hj]
    have e1 : (∀ j < A.r, B.get i j l ≠ none) ↔ ∀ j < A.r, (∃ k ≤ l, A.get i j k ≠ none) ∧ ∃ k, l ≤ k ∧ k < A.c ∧ A.get i j k ≠ none :=
      forall₂_congr fun j hj => hne i hi j hj l hl
    rw [e1]
    refine and_congr_right fun hall => ?_
    have e2 : {x | ∃ j < A.r, B.get i j l = some x} = {x | ∃ j < A.r, IsLeast {y | ∃ k ≤ l, A.get i j k = some y} x} := by
      ext x
      refine exists_congr fun j => and_congr_right fun hj => ?_
      rw [hent i hi j hj l hl x]
      exact and_iff_right (hall j hj).2
    rw [e2]

/-! ### Concrete cases -/

/-- A file with two runs of three and two iterations, and one with a single run of two. -/
def exNpz (m : FMat) : NpzFile := ⟨m, m, m, m, m, m⟩

/-- Two runs. -/
def exRuns : FMat := ⟨2, 3, fun j l => if j = 0 then some (5 - l) else if l < 2 then some (3 - l) else none⟩

/-- One run. -/
def exRun : FMat := ⟨1, 2, fun _ l => some (7 - l)⟩

/-- The two files. -/
def exFiles : List (String × Option NpzFile) := [("a.npz", some (exNpz exRuns)), ("b.npz", some (exNpz exRun))]

example : ∃ m o s, loadNpz exFiles none 20 true = .ok (m, o, s) ∧ m.a = 2 ∧ m.r = 2 ∧ m.c = 3 ∧ m.get 0 1 1 = some 2 ∧ m.get 1 0 1 = some 6 ∧
    m.get 1 1 0 = none ∧ m.get 1 0 2 = none := by
  obtain ⟨m, o, s, h1, h2, -, h4⟩ := C120_loaded exFiles none 20 true (fun p => if p = 0 then exNpz exRuns else exNpz exRun)
    (fun p => if p = 0 then 2 else 1) (fun p => if p = 0 then 3 else 2) (by
      intro p f hp
      match p with
      | 0 =>
        obtain rfl : ("a.npz", some (exNpz exRuns)) = f := by simpa [exFiles] using hp
        exact ⟨⟨⟨['a'], [], by decide⟩, rfl, by decide, by decide⟩, by decide⟩
      | 1 =>
        obtain rfl : ("b.npz", some (exNpz exRun)) = f := by simpa [exFiles] using hp
        exact ⟨⟨⟨['b'], [], by decide⟩, rfl, by decide, by decide⟩, by decide⟩
      | p + 2 => simp [exFiles] at hp)
  obtain ⟨e1, e2, e3⟩ := h2 m (by simp)
  have hc : m.c = 3 := e3.trans (by decide)
  refine ⟨m, o, s, h1, e1, e2.trans (by decide), hc, ?_, ?_, ?_, ?_⟩
  · rw [(h4 0 (by decide) 1 1 (by omega)).1]; norm_num [exNpz, exRuns]
  · rw [(h4 1 (by decide) 0 1 (by omega)).1]; norm_num [exNpz, exRun]
  · rw [(h4 1 (by decide) 1 0 (by omega)).1]; norm_num
  · rw [(h4 1 (by decide) 0 2 (by omega)).1]; norm_num

/-- The given number of iterations: the feasibility array has 20 rows, the others two. -/
example : ∃ m o s, loadNpz exFiles (some 160) 20 true = .ok (m, o, s) ∧ m.r = 2 ∧ o.r = 2 ∧ s.r = 20 := by
  obtain ⟨m, o, s, h1, h2, h3, -⟩ := C120_loaded exFiles (some 160) 20 true (fun p => if p = 0 then exNpz exRuns else exNpz exRun)
    (fun p => if p = 0 then 2 else 1) (fun p => if p = 0 then 3 else 2) (by
      intro p f hp
      match p with
      | 0 =>
        obtain rfl : ("a.npz", some (exNpz exRuns)) = f := by simpa [exFiles] using hp
        exact ⟨⟨⟨['a'], [], by decide⟩, rfl, by decide, by decide⟩, by decide⟩
      | 1 =>
        obtain rfl : ("b.npz", some (exNpz exRun)) = f := by simpa [exFiles] using hp
        exact ⟨⟨⟨['b'], [], by decide⟩, rfl, by decide, by decide⟩, by decide⟩
      | p + 2 => simp [exFiles] at hp)
  exact ⟨m, o, s, h1, ((h2 m (by simp)).2.1).trans (by decide), ((h2 o (by simp)).2.1).trans (by decide), h3.2.2⟩

/-- Too many starting points. -/
example : ∃ e, loadNpz exFiles none 1 true = .error e :=
  C120_refuses exFiles none 1 true 0 ("a.npz", some (exNpz exRuns)) rfl (.inr (.inr ⟨_, rfl, by decide, by decide, rfl⟩))

/-- The second run ends after two iterations, and so does the area. -/
example : ∃ lb ub, convBand ⟨1, 2, 3, fun _ j l => exRuns.get j l⟩ "min" = .ok (lb, ub) ∧ ub.get 0 2 = none ∧ lb.get 0 2 = none := by
  obtain ⟨lb, ub, h1, -, -, -, -, h2⟩ := C120_band ⟨1, 2, 3, fun _ j l => exRuns.get j l⟩ (by decide) (by decide)
  have key : ¬ ∃ k, 2 ≤ k ∧ k < 3 ∧ exRuns.get 1 k ≠ none := by
    rintro ⟨k, h3, h4, h5⟩
    obtain rfl : k = 2 := by omega
    exact h5 (by norm_num [exRuns])
  refine ⟨lb, ub, h1, ?_, ?_⟩
  · by_contra h
    obtain ⟨v, hv⟩ := Option.ne_none_iff_exists'.mp h
    exact key (((h2 0 (by decide) 2 (by decide) v).2.mp hv).1 1 (by decide)).2
  · by_contra h
    obtain ⟨v, hv⟩ := Option.ne_none_iff_exists'.mp h
    exact key (((h2 0 (by decide) 2 (by decide) v).1.mp hv).1 1 (by decide)).2

end Props
