import Verif.NN.Net
/-!
# NeuralNet::save and NeuralNet::load (src/neuralnet.cpp:99-152)

Files are lists of characters. Formatting (`out << double`) and conversion (`strtod`, as `in >> double` uses it) are parameters: which decimal
digits the C++ library chooses is not modelled. How `in >> double` skips white space, which characters it takes, and when the stream goes bad is
modelled after libstdc++ (`std::num_get::_M_extract_float`). The loops over one matrix are written for any type of weights; networks here have real weights.
`FloatFile.lean` is the same for `double`s with infinities and NaN, which `out <<` writes as text that `in >>` does not accept.
-/
namespace Nnet.NN
noncomputable section

/-- The library's conversions: `fmt v` is the text of `out << v`; `conv cs` the number `strtod` makes of the characters taken from the input, and whether
it accepts them. -/
structure TextIOOf (R : Type) where
  fmt : R → List Char
  conv : List Char → R × Bool

/-- The conversions when weights are real numbers. -/
abbrev TextIO := TextIOOf ℝ

/-- `std::isspace` in the default locale. -/
def isSpace (c : Char) : Bool := c = ' ' ∨ c = '\n' ∨ c = '\t' ∨ c = '\r' ∨ c = '\x0b' ∨ c = '\x0c'

/-- How far `num_get` has got in a floating-point number. -/
structure NumState where
  /-- nothing read yet: a sign is allowed -/
  start : Bool
  /-- a digit of the mantissa was seen -/
  mantissa : Bool
  /-- the decimal point was seen -/
  point : Bool
  /-- the exponent letter was seen -/
  sci : Bool
  /-- the exponent letter was the previous character: a sign is allowed -/
  afterE : Bool

/-- Initial state. -/
def NumState.init : NumState := ⟨true, false, false, false, false⟩

/-- The next state if the character belongs to the number, `none` if reading stops before it. -/
def NumState.step (s : NumState) (c : Char) : Option NumState :=
  if c = '+' ∨ c = '-' then
    if s.start ∨ s.afterE then some { s with start := false, afterE := false } else none
  else if '0' ≤ c ∧ c ≤ '9' then some { s with start := false, mantissa := s.mantissa || !s.sci, afterE := false }
  else if c = '.' then if s.point ∨ s.sci then none else some { s with start := false, point := true, afterE := false }
  else if c = 'e' ∨ c = 'E' then if s.sci ∨ ¬ s.mantissa then none else some { s with start := false, sci := true, afterE := true }
  else none

/-- Take the characters of a number from the front of the input. -/
def takeNumber : NumState → List Char → List Char × List Char
  | _, [] => ([], [])
  | s, c :: cs =>
    match s.step c with
    | none => ([], c :: cs)
    | some s' => (c :: (takeNumber s' cs).1, (takeNumber s' cs).2)

/-- `std::ifstream`: the characters not read yet, and whether `good()` holds. -/
structure InStream where
  rest : List Char
  good : Bool

/-- `double val = 0; in >> val;` neuralnet.cpp:134-135, 144-145. When the end of the file is reached or the characters are not a number the stream is no
longer good, and `val` stays (or becomes) 0 from then on. -/
def InStream.read {R : Type} [Zero R] (io : TextIOOf R) (st : InStream) : R × InStream :=
  if st.good = false then (0, st)
  else
    let rest := st.rest.dropWhile isSpace
    if rest = [] then (0, ⟨[], false⟩)
    else
      let taken := takeNumber .init rest
      ((io.conv taken.1).1, ⟨taken.2, (io.conv taken.1).2 && !taken.2.isEmpty⟩)

/-- The loops of neuralnet.cpp:104-109 and 112-117: append the weights to the output. -/
def saveMat {R : Type} [Zero R] (io : TextIOOf R) (w : Mat R) (out : List Char) : Res (List Char) := do
  let out ← loop w.nr (fun i out => loop w.nc (fun j (out : List Char) => do
    let v ← w.at' i j
    .ok (out ++ io.fmt v ++ [' '])) out) out
  .ok (out ++ ['\n'])

/-- The loop of neuralnet.cpp:103-110 over the hidden layers. -/
def saveHidden (io : TextIO) (s : Store) : List Nat → List Char → Res (List Char)
  | [], out => .ok out
  | p :: ps, out => do
    let out ← saveMat io (s p).base.W out
    saveHidden io s ps out

/-- Everything `save` writes, in order. -/
def Net.saveText (io : TextIO) (s : Store) (n : Net) : Res (List Char) := do
  let out ← saveHidden io s n.hidden []
  saveMat io n.output.W out

/-- Files by name. -/
abbrev Files := String → Option (List Char)

/-- State of the files after the file `path` was written. -/
def Files.put (fs : Files) (path : String) (c : List Char) : Files := fun q => if q = path then some c else fs q

/-- `NeuralNet::save(path)`, neuralnet.cpp:99-121; `canOpen` tells whether the file could be opened for writing (otherwise nothing happens). -/
def Net.save (io : TextIO) (s : Store) (n : Net) (path : String) (canOpen : Bool) (fs : Files) : Res Files :=
  if canOpen then do
    let text ← n.saveText io s
    .ok (fs.put path text)
  else .ok fs

/-- The files when the program dies during `save` after `k` characters have reached the file: opening has emptied it and characters arrive in order. -/
def Net.saveCrash (io : TextIO) (s : Store) (n : Net) (path : String) (k : Nat) (fs : Files) : Res Files := do
  let text ← n.saveText io s
  .ok (fs.put path (text.take k))

/-- The loops of neuralnet.cpp:132-138 and 142-148: overwrite a copy of the weights with numbers from the input. -/
def loadMat {R : Type} [Zero R] (io : TextIOOf R) (w : Mat R) (st : InStream) : Res (Mat R × InStream) :=
  loop w.nr (fun i s => loop w.nc (fun j (s : Mat R × InStream) => do
    let w' ← s.1.setAt i j (s.2.read io).1
    .ok (w', (s.2.read io).2)) s) (w, st)

/-- The loop of neuralnet.cpp:130-140 over the hidden layers. -/
def loadHidden (io : TextIO) : List Nat → Store → InStream → Res (Store × InStream)
  | [], s, st => .ok (s, st)
  | p :: ps, s, st => do
    let (w, st) ← loadMat io (s p).base.W st
    loadHidden io ps (s.put p ((s p).setw w)) st

/-- `NeuralNet::load(path)`, neuralnet.cpp:126-152; nothing happens when the file does not exist. -/
def Net.load (io : TextIO) (s : Store) (n : Net) (path : String) (fs : Files) : Res (Store × Net) :=
  match fs path with
  | none => .ok (s, n)
  | some text => do
    let (s, st) ← loadHidden io n.hidden s ⟨text, true⟩
    let (w, _) ← loadMat io n.output.W st
    .ok (s, { n with output := { n.output with toLayer := n.output.toLayer.setw w } })

end
end Nnet.NN
