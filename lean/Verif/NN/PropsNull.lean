import Verif.NN.NullNet
import Verif.NN.PropsGrad
import Verif.NN.FileLemmas
import Verif.NN.WitnessNet
/-!
# C106: null pointers among the hidden layers
-/
namespace Nnet.NN
noncomputable section
open PNet

variable (junk : Nat → Nat → ℝ)

/-! ## Without null pointers the two models agree -/

theorem null_forward_some : ∀ (ps : List Nat) (os : List (Option Nat)) (s : Store) (x : Mat ℝ),
    PNet.hiddenForward junk (ps.map some ++ os) s x = (Net.hiddenForward junk ps s x >>= fun r => PNet.hiddenForward junk os r.2 r.1)
  | [], os, s, x => by simp [Net.hiddenForward]
  | p :: ps, os, s, x => by
    simp only [List.map_cons, List.cons_append, PNet.hiddenForward, Net.hiddenForward, deref, ok_bind]
    cases h : (s p).forwardprop junk x with
    | error e => rfl
    | ok r => simp only [ok_bind]; exact null_forward_some ps os _ _

theorem null_backward_some : ∀ (ps : List Nat) (os : List (Option Nat)) (s : Store) (x : Mat ℝ), (os = [] → PNet.hiddenBackward junk (ps.map some ++ os) s x = Net.hiddenBackward junk ps s x) ∧
    ((∃ os', os = none :: os') → PNet.hiddenBackward junk (ps.map some ++ os) s x = (Net.hiddenBackward junk ps s x >>= fun _ => .error (.ub .nullDeref)))
  | [], os, s, x => by
    constructor
    · rintro rfl; rfl
    · rintro ⟨os', rfl⟩; rfl
  | p :: ps, os, s, x => by
    simp only [List.map_cons, List.cons_append, PNet.hiddenBackward, Net.hiddenBackward, deref, ok_bind]
    cases h : (s p).backprop junk x with
    | error e => exact ⟨fun _ => rfl, fun _ => rfl⟩
    | ok r => simp only [ok_bind]; exact null_backward_some ps os _ _

theorem null_update_some : ∀ (ps : List Nat) (os : List (Option Nat)) (s : Store),
    PNet.hiddenUpdate (ps.map some ++ os) s = (Net.hiddenUpdate ps s >>= fun r => PNet.hiddenUpdate os r)
  | [], os, s => by simp [Net.hiddenUpdate]
  | p :: ps, os, s => by
    simp only [List.map_cons, List.cons_append, PNet.hiddenUpdate, Net.hiddenUpdate, deref, ok_bind]
    cases h : (s p).update with
    | error e => rfl
    | ok r => simp only [ok_bind]; exact null_update_some ps os _

theorem null_setlrate_some (r : ℝ) : ∀ (ps : List Nat) (os : List (Option Nat)) (s : Store),
    PNet.hiddenSetlrate r (ps.map some ++ os) s = PNet.hiddenSetlrate r os (ps.foldl (fun s p => s.put p ((s p).setlrate r)) s)
  | [], os, s => by simp
  | p :: ps, os, s => by
    simp only [List.map_cons, List.cons_append, PNet.hiddenSetlrate, deref, ok_bind, List.foldl_cons]
    exact null_setlrate_some r ps os _

theorem null_save_some (io : TextIO) (s : Store) : ∀ (ps : List Nat) (os : List (Option Nat)) (out : List Char),
    PNet.saveHidden io s (ps.map some ++ os) out = (Nnet.NN.saveHidden io s ps out >>= fun o => PNet.saveHidden io s os o)
  | [], os, out => by simp [Nnet.NN.saveHidden]
  | p :: ps, os, out => by
    simp only [List.map_cons, List.cons_append, PNet.saveHidden, Nnet.NN.saveHidden, deref, ok_bind]
    cases h : saveMat io (s p).base.W out with
    | error e => rfl
    | ok r => simp only [ok_bind]; exact null_save_some io s ps os _

theorem null_load_some (io : TextIO) : ∀ (ps : List Nat) (os : List (Option Nat)) (s : Store) (st : InStream),
    PNet.loadHidden io (ps.map some ++ os) s st = (Nnet.NN.loadHidden io ps s st >>= fun r => PNet.loadHidden io os r.1 r.2)
  | [], os, s, st => by simp [Nnet.NN.loadHidden]
  | p :: ps, os, s, st => by
    simp only [List.map_cons, List.cons_append, PNet.loadHidden, Nnet.NN.loadHidden, deref, ok_bind]
    cases h : loadMat io (s p).base.W st with
    | error e => rfl
    | ok r => simp only [ok_bind]; exact null_load_some io ps os _ _

/-- A list with a null pointer: what is before the first one, and the rest. -/
theorem null_split : ∀ {os : List (Option Nat)}, none ∈ os → ∃ (ps : List Nat) (rest : List (Option Nat)), os = ps.map some ++ none :: rest
  | none :: os, _ => ⟨[], os, rfl⟩
  | some p :: os, h => by
    obtain ⟨ps, rest, e⟩ := null_split (os := os) (by simpa using h)
    exact ⟨p :: ps, rest, by simp [e]⟩

/-- **C106** A network none of whose layer pointers is null behaves like a network of Net.lean: every function does the same and leaves the same objects behind. -/
theorem C106_no_null (dist : Draws) (io : TextIO) (s : Store) (n : Net) (x y : Mat ℝ) (r : ℝ) (i : Nat) (path : String) (c : Bool) (fs : Files) :
    (of n).forwardprop junk s x = (n.forwardprop junk s x >>= fun t => .ok (t.1, t.2.1, of t.2.2)) ∧
    (of n).backprop junk s y = (n.backprop junk s y >>= fun t => .ok (t.1, of t.2)) ∧
    (of n).update s = (n.update s >>= fun t => .ok (t.1, of t.2)) ∧
    (of n).trainOn junk s x y = (n.trainOn junk s x y >>= fun t => .ok (t.1, of t.2)) ∧
    (of n).predict junk s x = (n.predict junk s x >>= fun t => .ok (t.1, t.2.1, of t.2.2)) ∧
    (of n).setlrate s r = .ok ((n.setlrate s r).1, of (n.setlrate s r).2) ∧
    (of n).randomizeAt dist s i r = (n.randomizeAt dist s i r >>= fun t => .ok (t.1, of t.2)) ∧
    (of n).gethidden s i = n.gethidden s i ∧ (of n).sethiddenw s i x = n.sethiddenw s i x ∧
    (of n).save io s path c fs = n.save io s path c fs ∧
    (of n).load io s path fs = (n.load io s path fs >>= fun t => .ok (t.1, of t.2)) := by
  have hf : ∀ (s : Store) (n : Net) (x : Mat ℝ), (of n).forwardprop junk s x = (n.forwardprop junk s x >>= fun t => .ok (t.1, t.2.1, of t.2.2)) := by
    intro s n x
    unfold PNet.forwardprop Net.forwardprop of
    have := null_forward_some junk n.hidden [] s (InputLayer.forwardprop n.input x).1
    rw [List.append_nil] at this
    simp only [this]
    cases Net.hiddenForward junk n.hidden s (InputLayer.forwardprop n.input x).1 with
    | error e => rfl
    | ok t =>
      simp only [ok_bind, PNet.hiddenForward]
      cases n.output.forwardprop t.1 <;> rfl
  have hb : ∀ (s : Store) (n : Net) (y : Mat ℝ), (of n).backprop junk s y = (n.backprop junk s y >>= fun t => .ok (t.1, of t.2)) := by
    intro s n y
    unfold PNet.backprop Net.backprop of
    cases n.output.backprop y with
    | error e => rfl
    | ok t =>
      have := (null_backward_some junk n.hidden.reverse [] s t.1).1 rfl
      rw [List.append_nil] at this
      simp only [ok_bind, ← List.map_reverse, this]
      cases Net.hiddenBackward junk n.hidden.reverse s t.1 <;> rfl
  have hu : ∀ (s : Store) (n : Net), (of n).update s = (n.update s >>= fun t => .ok (t.1, of t.2)) := by
    intro s n
    unfold PNet.update Net.update of
    have := null_update_some n.hidden [] s
    rw [List.append_nil] at this
    simp only [this]
    cases n.output.toLayer.update with
    | error e => rfl
    | ok L =>
      simp only [ok_bind]
      cases Net.hiddenUpdate n.hidden s <;> rfl
  refine ⟨hf s n x, hb s n y, hu s n, ?_, ?_, ?_, ?_, ?_, ?_, ?_, ?_⟩
  · unfold PNet.trainOn Net.trainOn
    rw [hf]
    cases n.forwardprop junk s x with
    | error e => rfl
    | ok t =>
      simp only [ok_bind]
      rw [hb]
      cases t.2.2.backprop junk t.2.1 y with
      | error e => rfl
      | ok u => simp only [ok_bind]; rw [hu]
  · unfold PNet.predict Net.predict
    rw [hf]
    cases n.forwardprop junk s x with
    | error e => rfl
    | ok t =>
      simp only [ok_bind]
      show (t.2.2.output.argmax >>= _) = _
      cases t.2.2.output.argmax <;> rfl
  · unfold PNet.setlrate Net.setlrate of
    have := null_setlrate_some r n.hidden [] s
    rw [List.append_nil] at this
    simp only [this]
    rfl
  · unfold PNet.randomizeAt Net.randomizeAt of
    rw [List.getElem?_map]
    cases n.hidden[i]? with
    | none =>
      simp only [Option.map_none]
      cases n.output.toLayer.randominit dist r <;> rfl
    | some p =>
      simp only [Option.map_some, deref, ok_bind]
      cases (s p).randominit dist r <;> rfl
  · unfold PNet.gethidden Net.gethidden of vecAt
    simp only [Int.toNat_natCast, List.getElem?_map]
    cases n.hidden[i]? <;> simp [deref]
  · unfold PNet.sethiddenw Net.sethiddenw of vecAt
    simp only [Int.toNat_natCast, List.getElem?_map]
    cases n.hidden[i]? <;> simp [deref]
  · unfold PNet.save Net.save Net.saveText of
    have := null_save_some io s n.hidden [] []
    rw [List.append_nil] at this
    simp only [this]
    cases Nnet.NN.saveHidden io s n.hidden [] <;> rfl
  · unfold PNet.load Net.load of
    cases fs path with
    | none => rfl
    | some text =>
      have := null_load_some io n.hidden [] s ⟨text, true⟩
      rw [List.append_nil] at this
      simp only [this]
      cases Nnet.NN.loadHidden io n.hidden s ⟨text, true⟩ with
      | error e => rfl
      | ok t =>
        simp only [ok_bind, PNet.loadHidden]
        cases loadMat io n.output.W t.2 <;> rfl

/-- **C106** A network may be built with null layer pointers, and copied and assigned with them: nothing checks them. -/
theorem C106_accepted (dist : Draws) (input : Layer) (output : OutputLayer) (os : List (Option Nat)) (n : Net) (h : Net.new dist junk input output [] = .ok n) :
    PNet.new dist junk input output os = .ok ⟨n, os⟩ ∧ (∀ m, n.copyCtor dist junk = .ok m → PNet.copyCtor dist junk ⟨n, os⟩ = .ok ⟨m, os⟩) ∧
    ∀ self : PNet, (self.assign ⟨n, os⟩).hidden = os := by
  refine ⟨?_, ?_, fun _ => rfl⟩
  · unfold PNet.new
    rw [h]
    rfl
  · intro m hm
    unfold PNet.copyCtor
    rw [hm]
    rfl

/-- **C106** No forward pass, prediction, backward pass, update or training step of a network with a null layer pointer returns: when the layers before it (in the order of the pass) do not throw, it is dereferenced. -/
theorem C106_passes (s : Store) (n : PNet) (h : none ∈ n.hidden) (x y : Mat ℝ) :
    (∃ e, n.forwardprop junk s x = .error e) ∧ (∃ e, n.predict junk s x = .error e) ∧ (∃ e, n.trainOn junk s x y = .error e) ∧
    (∃ e, n.backprop junk s y = .error e) ∧ (∃ e, n.update s = .error e) ∧
    (∀ (ps : List Nat) (rest : List (Option Nat)) (t : Mat ℝ × Store × Net), n.hidden = ps.map some ++ none :: rest → { n.net with hidden := ps }.forwardprop junk s x = .ok t →
      n.forwardprop junk s x = .error (.ub .nullDeref) ∧ n.predict junk s x = .error (.ub .nullDeref) ∧ n.trainOn junk s x y = .error (.ub .nullDeref)) ∧
    (∀ (ps : List Nat) (rest : List (Option Nat)) (t : Store × Net), n.hidden = rest ++ none :: ps.map some → { n.net with hidden := ps }.backprop junk s y = .ok t →
      n.backprop junk s y = .error (.ub .nullDeref)) ∧
    (∀ (ps : List Nat) (rest : List (Option Nat)) (t : Store × Net), n.hidden = ps.map some ++ none :: rest → { n.net with hidden := ps }.update s = .ok t →
      n.update s = .error (.ub .nullDeref)) := by
  have hf1 : ∃ e, n.forwardprop junk s x = .error e := by
    obtain ⟨ps, rest, e⟩ := null_split h
    unfold PNet.forwardprop
    rw [e]
    simp only [null_forward_some]
    cases Net.hiddenForward junk ps s (InputLayer.forwardprop n.net.input x).1 with
    | error e => exact ⟨e, rfl⟩
    | ok t => exact ⟨_, rfl⟩
  have hf2 : ∀ (ps : List Nat) (rest : List (Option Nat)) (t : Mat ℝ × Store × Net), n.hidden = ps.map some ++ none :: rest → { n.net with hidden := ps }.forwardprop junk s x = .ok t →
      n.forwardprop junk s x = .error (.ub .nullDeref) := by
    intro ps rest t e ht
    obtain ⟨u, h1, _⟩ := bind_eq_ok ht
    unfold PNet.forwardprop
    rw [e]
    simp only [null_forward_some]
    rw [show Net.hiddenForward junk ps s (InputLayer.forwardprop n.net.input x).1 = .ok u from h1]
    rfl
  have lift : ∀ e, n.forwardprop junk s x = .error e → n.predict junk s x = .error e ∧ n.trainOn junk s x y = .error e := by
    intro e he
    constructor
    · unfold PNet.predict
      rw [he]; rfl
    · unfold PNet.trainOn
      rw [he]; rfl
  refine ⟨hf1, ?_, ?_, ?_, ?_, ?_, ?_, ?_⟩
  · obtain ⟨e, he⟩ := hf1; exact ⟨e, (lift e he).1⟩
  · obtain ⟨e, he⟩ := hf1; exact ⟨e, (lift e he).2⟩
  · obtain ⟨ps, rest, e⟩ := null_split (os := n.hidden.reverse) (by simpa using h)
    unfold PNet.backprop
    rw [e]
    cases n.net.output.backprop y with
    | error e => exact ⟨e, rfl⟩
    | ok t =>
      simp only [ok_bind]
      rw [(null_backward_some junk ps (none :: rest) s t.1).2 ⟨_, rfl⟩]
      cases Net.hiddenBackward junk ps s t.1 with
      | error e => exact ⟨e, rfl⟩
      | ok t => exact ⟨_, rfl⟩
  · obtain ⟨ps, rest, e⟩ := null_split h
    unfold PNet.update
    rw [e, null_update_some]
    cases n.net.output.toLayer.update with
    | error e => exact ⟨e, rfl⟩
    | ok t =>
      cases Net.hiddenUpdate ps s with
      | error e => exact ⟨e, rfl⟩
      | ok t => exact ⟨_, rfl⟩
  · intro ps rest t e ht
    exact ⟨hf2 ps rest t e ht, lift _ (hf2 ps rest t e ht)⟩
  · intro ps rest t e ht
    obtain ⟨u, h1, h2⟩ := bind_eq_ok ht
    obtain ⟨v, h3, _⟩ := bind_eq_ok h2
    unfold PNet.backprop
    rw [e, show n.net.output.backprop y = .ok u from h1]
    simp only [ok_bind, List.reverse_append, List.reverse_cons, List.append_assoc, List.singleton_append, ← List.map_reverse]
    rw [(null_backward_some junk ps.reverse (none :: rest.reverse) s u.1).2 ⟨_, rfl⟩, show Net.hiddenBackward junk ps.reverse s u.1 = .ok v from h3]
    rfl
  · intro ps rest t e ht
    obtain ⟨u, h1, h2⟩ := bind_eq_ok ht
    obtain ⟨v, h3, _⟩ := bind_eq_ok h2
    unfold PNet.update
    rw [e, null_update_some, show n.net.output.toLayer.update = .ok u from h1, show Net.hiddenUpdate ps s = .ok v from h3]
    rfl

/-- **C106** Setting the learning rate, saving to a file that can be opened and loading from a file that exists dereference a null layer pointer, whatever the network is like otherwise. -/
theorem C106_setlrate_files (io : TextIO) (s : Store) (n : PNet) (h : none ∈ n.hidden) (r : ℝ) (path : String) (fs : Files) :
    n.setlrate s r = .error (.ub .nullDeref) ∧ n.save io s path true fs = .error (.ub .nullDeref) ∧ n.save io s path false fs = .ok fs ∧
    (fs path ≠ none → n.load io s path fs = .error (.ub .nullDeref)) ∧ (fs path = none → n.load io s path fs = .ok (s, n)) := by
  obtain ⟨ps, rest, e⟩ := null_split h
  refine ⟨?_, ?_, rfl, ?_, ?_⟩
  · unfold PNet.setlrate
    rw [e, null_setlrate_some]
    rfl
  · unfold PNet.save
    rw [e, null_save_some, saveHidden_ok]
    rfl
  · intro hp
    unfold PNet.load
    cases hq : fs path with
    | none => exact absurd hq hp
    | some text =>
      simp only
      rw [e, null_load_some]
      have : ∀ (ps : List Nat) (s : Store) (st : InStream), ∃ t, Nnet.NN.loadHidden io ps s st = .ok t := by
        intro ps
        induction ps with
        | nil => exact fun s st => ⟨_, rfl⟩
        | cons p ps ih =>
          intro s st
          unfold Nnet.NN.loadHidden
          rw [loadMat_ok]
          exact ih _ _
      obtain ⟨t, ht⟩ := this ps s ⟨text, true⟩
      rw [ht]
      rfl
  · intro hp
    unfold PNet.load
    rw [hp]

/-- **C106** Drawing new weights for, reading and setting the weights of the hidden layer at an index is undefined exactly when the pointer there is null (or, for the last two, there is none); the other pointers do not matter. -/
theorem C106_index (dist : Draws) (s : Store) (n : PNet) (i : Nat) (r : ℝ) (w : Mat ℝ) :
    (n.hidden[i]? = some none → n.randomizeAt dist s i r = .error (.ub .nullDeref) ∧ n.gethidden s i = .error (.ub .nullDeref) ∧ n.sethiddenw s i w = .error (.ub .nullDeref)) ∧
    (∀ p, n.hidden[i]? = some (some p) → n.gethidden s i = .ok (s p).base.copy ∧ n.sethiddenw s i w = .ok (s.put p ((s p).setw w)) ∧
      n.randomizeAt dist s i r = ((s p).randominit dist r >>= fun h => .ok (s.put p h, n))) ∧
    (n.hidden[i]? = none → n.gethidden s i = .error (.ub .vectorIndex) ∧ n.sethiddenw s i w = .error (.ub .vectorIndex)) := by
  refine ⟨?_, ?_, ?_⟩
  · intro h
    refine ⟨?_, ?_, ?_⟩
    · unfold PNet.randomizeAt; rw [h]; rfl
    · simp [PNet.gethidden, vecAt, h, deref]
    · simp [PNet.sethiddenw, vecAt, h, deref]
  · intro p h
    refine ⟨?_, ?_, ?_⟩
    · simp [PNet.gethidden, vecAt, h, deref]
    · simp [PNet.sethiddenw, vecAt, h, deref]
    · unfold PNet.randomizeAt; rw [h]; rfl
  · intro h
    refine ⟨?_, ?_⟩
    · simp [PNet.gethidden, vecAt, h]
    · simp [PNet.sethiddenw, vecAt, h]

/-- A network with two hidden layers, the second one null: the first one computes, and then the null pointer is dereferenced. -/
example (junk : Nat → Nat → ℝ) : (⟨exNet, [some 7, none]⟩ : PNet).forwardprop junk exStore exX = .error (.ub .nullDeref) := by
  obtain ⟨s', n', h, _⟩ := C28_network (junk := junk) (x := exX) exNet_wf (by show 0 < 5; omega) rfl
  exact ((C106_passes junk exStore ⟨exNet, [some 7, none]⟩ (by simp) exX exX).2.2.2.2.2.1 [7] [] _ rfl h).1

example (io : TextIO) (fs : Files) := C106_setlrate_files io exStore ⟨exNet, [some 7, none]⟩ (by simp) (1 / 2) "net.txt" fs
example (dist : Draws) := (C106_index dist exStore ⟨exNet, [some 7, none]⟩ 1 (1 / 2) .empty).1 rfl
example (dist : Draws) := (C106_index dist exStore ⟨exNet, [some 7, none]⟩ 0 (1 / 2) .empty).2.1 7 rfl

end
end Nnet.NN
