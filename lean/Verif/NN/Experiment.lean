import Verif.NN.TestData
/-!
# Model of `run_experiment.py`: reading a data file and numbering the classes

`process` reads a KEEL data file and sends the numbers to `test/model_test.cpp`. Python's `float` is a parameter (`none` is a `ValueError`); exceptions of Python are `throw`. A Python list of lists
of numbers is a function of row and column, all of whose accesses in the script are within its sizes. Not modelled: printing, downloading, the parameter table (`params`), and the text of the numbers
on their way to the program (`str` of a number and `cin >> double`).
-/
namespace Nnet.NN
noncomputable section
open Classical

namespace Experiment
open TestData

/-- `re.match('-?[0-9.]+', string)`, run_experiment.py:187-191: a match at the front of the text is enough. -/
def isnum (s : List Char) : Bool :=
  match s with
  | '-' :: t => t.head?.any (fun c => c.isDigit || c == '.')
  | t => t.head?.any (fun c => c.isDigit || c == '.')

/-- `isallnum`, run_experiment.py:193-197. -/
def isallnum : List (List Char) → Bool
  | [] => true
  | s :: ss => if !isnum s then false else isallnum ss

/-- `line.replace(' ', '').split(',')`, run_experiment.py:282. -/
def fields (line : List Char) : List (List Char) := (line.filter (fun c => c ≠ ' ')).splitOn ','

/-- Lines 279-282 of run_experiment.py. A line includes the `\n` that ends it (the last line of a file may lack it). -/
def content (lines : List (List Char)) : List (List (List Char)) := (lines.filter (fun l => l.head? ≠ some '@')).map fields

/-- `[x[i] for x in content]`, run_experiment.py:287: a row that is too short raises `IndexError`. -/
def column (rows : List (List (List Char))) (i : Nat) : Res (List (List Char)) :=
  rows.mapM (fun x => match x[i]? with | some s => .ok s | none => .error .throw)

/-- `training_data`. -/
abbrev Table := Nat → Nat → ℝ

/-- `training_data[j][i] = v`. -/
def Table.put (t : Table) (j i : Nat) (v : ℝ) : Table := fun a b => if a = j ∧ b = i then v else t a b

/-- The loop of run_experiment.py:288-289. -/
def numericColumn (float : List Char → Option ℝ) (col : List (List Char)) (i : Nat) (t : Table) : Res Table :=
  loop col.length (fun j t => match float (col.getD j []) with | some v => .ok (t.put j i v) | none => .error .throw) t

/-- Lines 291-297 of run_experiment.py: `mapping` is a dictionary, `num` the number of its keys. -/
def namedColumn (col : List (List Char)) (i : Nat) (t : Table) : Res Table := do
  let r ← loop col.length (fun j (s : (List Char → Option Nat) × Nat × Table) =>
    let w := col.getD j []
    let s := if s.1 w = none then (Function.update s.1 w (some s.2.1), s.2.1 + 1, s.2.2) else s
    match s.1 w with
    | some v => .ok (s.1, s.2.1, s.2.2.put j i v)
    | none => .error .throw) (fun _ => none, 0, t)
  .ok r.2.2

/-- Lines 285-297 of run_experiment.py for `cols = len(content[0])`. -/
def table (float : List Char → Option ℝ) (rows : List (List (List Char))) (cols : Nat) : Res Table :=
  loop cols (fun i t => do
    let col ← column rows i
    if isallnum col then numericColumn float col i t else namedColumn col i t) (fun _ _ => 0)

/-- `geto`, run_experiment.py:202-208: `record` is a dictionary whose keys are the labels seen. -/
def geto (t : Table) (m last : Nat) : Res Nat := do
  let record ← loop m (fun i (record : List ℝ) => if ¬ t i last ∈ record then .ok (t i last :: record) else .ok record) []
  .ok record.length

/-- `max_label`, run_experiment.py:210-215. -/
def maxLabel (t : Table) (m last : Nat) : Res ℝ := loop m (fun i (max_val : ℝ) => if t i last > max_val then .ok (t i last) else .ok max_val) 0

/-- `replace`, run_experiment.py:218-222. -/
def replace (t : Table) (m index : Nat) (old new : ℝ) : Res Table := loop m (fun i (t : Table) => if t i index = old then .ok (t.put i index new) else .ok t) t

/-- What is sent to the program: the numbers `n`, `o`, `m` of features, classes and samples, and the samples. -/
structure Prepared where
  n : Nat
  o : Nat
  m : Nat
  data : Table

/-- `process`, run_experiment.py:276-307, from the lines of the file to the numbers that are sent. `content[0]` raises `IndexError` for a file without data. -/
def process (float : List Char → Option ℝ) (lines : List (List Char)) : Res Prepared :=
  match content lines with
  | [] => .error .throw
  | row :: rows => do
    let cols := row.length
    let m := (row :: rows).length
    let t ← table float (row :: rows) cols
    let top ← maxLabel t m (cols - 1)
    let count ← geto t m (cols - 1)
    let t ← if toInt top = (count : Int) then (do
        let top ← maxLabel t m (cols - 1)
        replace t m (cols - 1) top 0) else .ok t
    let o ← geto t m (cols - 1)
    .ok ⟨cols - 1, o, m, t⟩

/-- `p.communicate(input=input_data)` and what `load` (model_test.cpp:56-87) makes of the data. -/
def send (junk : Nat → Nat → ℝ) (rnd : Nat → Nat) (p : Prepared) : Res Split :=
  load junk rnd p.n p.o p.m p.data (fun i => toInt (p.data i p.n))

end Experiment
end
end Nnet.NN
