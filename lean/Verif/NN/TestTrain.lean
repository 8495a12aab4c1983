import Verif.NN.TestData
/-!
# Model of the training loop of `test/model_test.cpp`

`train` watches the clock: an iteration prints (and records) the cost and the accuracy if its number is divisible by ten or more than a second passed since the last printed one. What the clock says is
an arbitrary function of the iteration. The loop counter is a `uint32_t`: for 2^32 or more iterations the loop does not end; the model is for fewer. What is printed is a list.
-/
namespace Nnet.NN
noncomputable section

namespace TestData

/-- The body of the loop, model_test.cpp:206-218; `slow` is `pass > 1`. `nnet` is a reference to the network named `id`. -/
def trainRound (junk : Nat → Nat → ℝ) (id : Nat) (x y : Mat ℝ) (slow : Nat → Bool) (i : Nat) (st : List (Nat × ℝ × ℝ) × World × Trainer) : Res (List (Nat × ℝ × ℝ) × World × Trainer) :=
  if i % 10 = 0 ∨ slow i = true then do
    let (cost, w, t) ← st.2.2.feedcost junk st.2.1 x y true
    let (pred, s, n) ← (w.nets id).predict junk w.store x
    let a ← accuracy y pred
    .ok (st.1 ++ [(i, cost, a)], w.put id s n, t)
  else do
    let (_, w, t) ← st.2.2.feedcost junk st.2.1 x y false
    .ok (st.1, w, t)

/-- `train`, model_test.cpp:200-226: what is printed, and the program afterwards. The plotted data (lines 222-225, from `costdata`) are the costs printed. -/
def train (junk : Nat → Nat → ℝ) (id : Nat) (w : World) (t : Trainer) (x y : Mat ℝ) (maxiters : Nat) (slow : Nat → Bool) : Res (List (Nat × ℝ × ℝ) × World × Trainer) :=
  loop maxiters (trainRound junk id x y slow) ([], w, t)

/-- The network is set back after a trial, model_test.cpp:298-301: `nnet = raw`, then `randomize` twice per hidden layer; `rnd j` is what `rand()` returns in call `j`. In the current API `randomize` has
an argument, here `sd`. `id` and `raw` are the names of the two networks. -/
def restart (dist : Draws) (rnd : Nat → Nat) (sd : ℝ) (id raw : Nat) (w : World) : Res World := do
  let n := (w.nets id).assign (w.nets raw)
  let (s, n) ← loop (n.hidden.length * 2) (fun j (st : Store × Net) => st.2.randomize dist (rnd j) st.1 sd) (w.store, n)
  .ok (w.put id s n)

/-- One trial, model_test.cpp:281-302: the accuracies written to the file are collected. Files and drawing are not modelled. -/
def trial (junk : Nat → Nat → ℝ) (dist : Draws) (sd : ℝ) (id raw : Nat) (d : Split) (maxiters : Nat) (slow : Nat → Nat → Bool) (rnd : Nat → Nat → Nat) (i : Nat)
    (st : List (ℝ × ℝ) × World × Trainer) : Res (List (ℝ × ℝ) × World × Trainer) := do
  let (_, w, t) ← train junk id st.2.1 st.2.2 d.trainx d.trainy maxiters (slow i)
  let (accu, s, n) ← evaluate junk w.store (w.nets id) d
  let w ← restart dist (rnd i) sd id raw (w.put id s n)
  .ok (st.1 ++ [accu], w, t)

/-- The trials of `main`, model_test.cpp:275-302, after `raw` was built, the data loaded and the trainer `t` set up for the network `id`. -/
def trials (junk : Nat → Nat → ℝ) (dist : Draws) (sd : ℝ) (id raw : Nat) (d : Split) (maxiters : Nat) (slow : Nat → Nat → Bool) (rnd : Nat → Nat → Nat) (ntrail : Nat) (w : World) (t : Trainer) :
    Res (List (ℝ × ℝ) × World × Trainer) :=
  loop ntrail (trial junk dist sd id raw d maxiters slow rnd) ([], w.put id w.store ((w.nets id).assign (w.nets raw)), t)

end TestData
end
end Nnet.NN
