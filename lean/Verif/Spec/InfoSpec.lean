import Verif.Model.GpInfo
import Verif.Spec.HistSpec

/-! What the text tables should show. -/

open Np GP

noncomputable section

namespace Spec

/-- A column: its header and the number in each row. -/
abbrev Column := String × (ℕ → Fl)

/-- The table consists of these columns. -/
structure Shows (t : Table) (cs : List Column) : Prop where
  headers : t.headers = cs.map Prod.fst
  cols : t.cols = cs.length
  cell : ∀ i < t.rows, ∀ (c : ℕ) (hc : c < cs.length), t.cell i c = cs[c].2 i

/-- `x` is the least of the entries, NaN if one of them is NaN. -/
def IsLeast (l : List Fl) (x : Fl) : Prop :=
  (none ∈ l ∧ x = none) ∨ ∃ m, x = some m ∧ x ∈ l ∧ ∀ y ∈ l, ∃ z, y = some z ∧ m ≤ z

/-- `x` is the greatest of the entries, NaN if one of them is NaN. -/
def IsGreatest (l : List Fl) (x : Fl) : Prop :=
  (none ∈ l ∧ x = none) ∨ ∃ m, x = some m ∧ x ∈ l ∧ ∀ y ∈ l, ∃ z, y = some z ∧ z ≤ m

open Classical in
/-- At least half of the entries are not above `x` and at least half are not below; NaN if one of them is NaN. -/
def IsMiddle (l : List Fl) (x : Fl) : Prop :=
  (none ∈ l ∧ x = none) ∨ ∃ m, x = some m ∧ none ∉ l ∧
    l.length ≤ 2 * l.countP (fun y => decide (∃ z, y = some z ∧ z ≤ m)) ∧
    l.length ≤ 2 * l.countP (fun y => decide (∃ z, y = some z ∧ m ≤ z))

/-- The length scales stored in row `i`. -/
def thetaRow (dim : ℕ) (h : Surr) (i : ℕ) : List Fl := (List.range dim).map ((h.two .theta).get i)

/-- Columns of the summary before the length scales. -/
def summaryHead (nBeta : ℕ) (bf bg : Bool) (h : Surr) : List Column :=
  ([(" ", fun (i : ℕ) => some (i : ℝ)),
   ("Kernel", (h.one .kernel).get),
   ("Mu", fun i => if nBeta = 0 then none else (h.two .beta).get i 0),
   ("varK", (h.one .varK).get),
   ("varK / var_f", (h.one .varKVarF).get)] : List Column)
  ++ (if bf then [("hp var fun", (h.one .varFval).get)] else [])
  ++ (if bg then [("hp var grad", (h.one .varFgrad).get)] else [])

/-- One column for each length scale. -/
def thetaCols (pre : String) (dim : ℕ) (h : Surr) : List Column :=
  (List.range dim).map fun d => (pre ++ toString d, fun i => (h.two .theta).get i d)

/-- Columns of the table on the optimisation. -/
def optzCols (h : Surr) : List Column :=
  [(" ", fun (i : ℕ) => some (i : ℝ)),
   ("Time", (h.one .timeOptz).get),
   ("Success (%)", fun i => ((h.one .success).get i).map (100 * ·)),
   ("Mean i", (h.one .iterMean).get),
   ("Max i", (h.one .iterMax).get),
   ("Con good %", fun i => ((h.one .conGood).get i).map (100 * ·)),
   ("Cond", (h.one .cond).get),
   ("At cond max?", fun i => some (if h.atMax.get i = true then 1 else 0))]

end Spec
