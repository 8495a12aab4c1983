import Verif.NN.FileLemmas
/-!
# C35 saving and loading, C36 loading after a crash
-/
namespace Nnet.NN
open Finset
noncomputable section

/-- Two networks have the same architecture: equally many layers with weights of equal shapes. -/
def Spec.SameShapes (s : Store) (n : Net) (s' : Store) (n' : Net) : Prop :=
  (n'.layers s').map (fun L => (L.W.nr, L.W.nc)) = (n.layers s).map (fun L => (L.W.nr, L.W.nc))

/-- `(s', n')` is `(s, n)` except for the weights of the network's own layers, whose shapes are the same. -/
structure Spec.OnlyWeights (s : Store) (n : Net) (s' : Store) (n' : Net) : Prop where
  net : n' = { n with output := { n.output with toLayer := { n.output.toLayer with W := n'.output.W } } }
  own : ∀ p, s' p = ⟨{ (s p).base with W := (s' p).base.W }, (s p).kind⟩
  others : ∀ p, p ∉ n.hidden → s' p = s p
  shapes : Spec.SameShapes s n s' n'

theorem loadHidden_total (io : TextIO) : ∀ (ps : List Nat) (s : Store) (st : InStream), ∃ s' st', loadHidden io ps s st = .ok (s', st') ∧
    (∀ p, s' p = ⟨{ (s p).base with W := (s' p).base.W }, (s p).kind⟩) ∧ (∀ p, p ∉ ps → s' p = s p) ∧
    ∀ p, (s' p).base.W.nr = (s p).base.W.nr ∧ (s' p).base.W.nc = (s p).base.W.nc
  | [], s, st => ⟨s, st, rfl, fun _ => rfl, fun _ _ => rfl, fun _ => ⟨rfl, rfl⟩⟩
  | p :: ps, s, st => by
    obtain ⟨s', st', h1, h2, h3, h4⟩ := loadHidden_total io ps (s.put p ((s p).setw (loaded io st (s p).base.W))) (readSt io st (s p).base.W.size)
    refine ⟨s', st', ?_, ?_, ?_, ?_⟩
    · unfold loadHidden
      rw [loadMat_ok, ok_bind]
      exact h1
    · intro q
      by_cases hq : q = p
      · subst hq
        have := h2 q
        rw [put_same] at this
        exact this
      · have := h2 q
        rw [put_other hq] at this
        exact this
    · intro q hq
      rw [h3 q (fun h => hq (by simp [h])), put_other (fun h => hq (by simp [h]))]
    · intro q
      by_cases hq : q = p
      · subst hq
        have := h4 q
        rw [put_same] at this
        exact this
      · have := h4 q
        rw [put_other hq] at this
        exact this

/-- **C36, any file.** Whatever the file contains (binary, empty, a text for another network, cut anywhere), `load` finishes without an exception and changes
nothing but the weights, whose shapes stay. If the file does not exist nothing changes at all. -/
theorem C36_any_file (io : TextIO) (s : Store) (n : Net) (path : String) (fs : Files) :
    ∃ s' n', n.load io s path fs = .ok (s', n') ∧ Spec.OnlyWeights s n s' n' ∧ (fs path = none → s' = s ∧ n' = n) := by
  unfold Net.load
  cases hf : fs path with
  | none => exact ⟨s, n, rfl, ⟨rfl, fun _ => rfl, fun _ _ => rfl, rfl⟩, fun _ => ⟨rfl, rfl⟩⟩
  | some text =>
    obtain ⟨s', st', h1, h2, h3, h4⟩ := loadHidden_total io n.hidden s ⟨text, true⟩
    simp only
    rw [h1, ok_bind]
    simp only
    rw [loadMat_ok, ok_bind]
    refine ⟨s', _, rfl, ⟨rfl, h2, h3, ?_⟩, fun h => by cases h⟩
    unfold Spec.SameShapes Net.layers Net.hiddenLayers
    rw [List.map_append, List.map_append, List.map_map, List.map_map]
    congr 1
    apply List.map_congr_left
    intro p _
    show ((s' p).base.W.nr, (s' p).base.W.nc) = _
    rw [(h4 p).1, (h4 p).2]
    rfl

theorem sizes_of_shapes {s s' : Store} {n n' : Net} (h : Spec.SameShapes s n s' n') : (n'.weights s').map Mat.size = (n.weights s).map Mat.size := by
  have := congrArg (List.map fun d : Nat × Nat => d.1 * d.2) h
  unfold Net.weights
  rw [List.map_map, List.map_map] at this ⊢
  exact this

theorem load_values {io : TextIO} {s : Store} {n : Net} {path : String} {fs : Files} {text : List Char} (hnd : n.hidden.Nodup) (hf : fs path = some text) :
    ∃ s' n', n.load io s path fs = .ok (s', n') ∧ Spec.OnlyWeights s n s' n' ∧ ∀ l W, (n.weights s)[l]? = some W →
      (n'.weights s')[l]? = some (loaded io (readSt io ⟨text, true⟩ ((((n.weights s).take l).map Mat.size).sum)) W) := by
  obtain ⟨s', n', h, ho, _⟩ := C36_any_file io s n path fs
  refine ⟨s', n', h, ho, ?_⟩
  obtain ⟨s1, h1, h2, h3⟩ := loadHidden_ok io n.hidden s ⟨text, true⟩ hnd
  unfold Net.load at h
  rw [hf] at h
  simp only at h
  rw [h1, ok_bind] at h
  simp only at h
  rw [loadMat_ok, ok_bind] at h
  cases h
  have hlen : (n.hidden.map fun p => (s p).base.W).length = n.hidden.length := by simp
  have hws : n.weights s = n.hidden.map (fun p => (s p).base.W) ++ [n.output.W] := by
    unfold Net.weights Net.layers Net.hiddenLayers
    rw [List.map_append, List.map_map]
    rfl
  intro l W hl
  have hws' : Net.weights s' { n with output := { n.output with toLayer := n.output.toLayer.setw (Mat.of n.output.W.nr n.output.W.nc fun i j =>
      readV io (readSt io ⟨text, true⟩ ((n.hidden.map fun p => (s p).base.W.size).sum)) (i * n.output.W.nc + j)) } } =
      n.hidden.map (fun p => (s' p).base.W) ++ [loaded io (readSt io ⟨text, true⟩ ((n.hidden.map fun p => (s p).base.W.size).sum)) n.output.W] := by
    unfold Net.weights Net.layers Net.hiddenLayers
    rw [List.map_append, List.map_map]
    rfl
  rw [hws']
  rw [hws] at hl ⊢
  rcases Nat.lt_or_ge l n.hidden.length with hlt | hge
  · rw [List.getElem?_append_left (by rw [hlen]; exact hlt), List.getElem?_map] at hl
    rw [List.getElem?_append_left (by rw [List.length_map]; exact hlt), List.getElem?_map, List.getElem?_eq_getElem hlt]
    rw [List.getElem?_eq_getElem hlt] at hl
    have hp := h3 l _ (List.getElem?_eq_getElem hlt)
    simp only [Option.map_some, Option.some.injEq] at hl ⊢
    rw [hp, List.take_append_of_le_length (by rw [hlen]; omega), ← List.map_take, List.map_map, ← hl]
    rfl
  · rw [List.getElem?_append_right (by rw [hlen]; exact hge)] at hl
    rw [List.getElem?_append_right (by rw [List.length_map]; exact hge)]
    rw [List.length_map] at hl ⊢
    obtain ⟨hlt, -⟩ := List.getElem?_eq_some_iff.1 hl
    have e0 : l - n.hidden.length = 0 := by simpa using hlt
    rw [e0] at hl ⊢
    simp only [List.getElem?_cons_zero, Option.some.injEq] at hl ⊢
    rw [← hl, List.take_append, hlen, e0, List.take_zero, List.append_nil, List.take_of_length_le (by rw [hlen]; exact hge), List.map_map]
    rfl

/-- **C36.** The program died in `save` after `k` characters had reached the file; `load` of what is left into a network of the same architecture. For every
crash point: `load` finishes, changes nothing but weights, keeps the shapes; every weight whose text was completely written gets its (rounded) saved value, every
weight of whose text nothing was written becomes 0. (Only the one weight that was cut in the middle is left open.) -/
theorem C36_crash {io : TextIO} {round : ℝ → ℝ} (hc : Spec.Converts io round) {s s' : Store} {n n' : Net} (hsh : Spec.SameShapes s n s' n') (hnd : n'.hidden.Nodup)
    {path : String} {k : Nat} {fs fs' : Files} (hcrash : n.saveCrash io s path k fs = .ok fs') :
    ∃ s'' n'', n'.load io s' path fs' = .ok (s'', n'') ∧ Spec.OnlyWeights s' n' s'' n'' ∧
      ∀ l L, (n.layers s)[l]? = some L → ∃ L'', (n''.layers s'')[l]? = some L'' ∧ ∀ i j, i < L.W.nr → j < L.W.nc →
        (Spec.startOf io.fmt ((n.layers s).map (·.W)) l i j + (io.fmt (L.W.f i j)).length ≤ k → L''.W.f i j = round (L.W.f i j)) ∧
        (k ≤ Spec.startOf io.fmt ((n.layers s).map (·.W)) l i j → L''.W.f i j = 0) := by
  unfold Net.saveCrash at hcrash
  rw [saveText_ok, ok_bind] at hcrash
  cases hcrash
  obtain ⟨s'', n'', h, ho, hv⟩ := load_values (io := io) (s := s') (n := n') (path := path)
    (fs := fs.put path ((Spec.fileText io.fmt (n.weights s)).take k)) hnd (if_pos rfl)
  refine ⟨s'', n'', h, ho, ?_⟩
  intro l L hL
  have hW : (n.weights s)[l]? = some L.W := by unfold Net.weights; rw [List.getElem?_map, hL]; rfl
  have hsh' := congrArg (·[l]?) hsh
  simp only [List.getElem?_map, hL, Option.map_some] at hsh'
  obtain ⟨L', hL', hd⟩ := Option.map_eq_some_iff.1 hsh'
  have hW' : (n'.weights s')[l]? = some L'.W := by unfold Net.weights; rw [List.getElem?_map, hL']; rfl
  have h2 := hv l _ hW'
  unfold Net.weights at h2
  rw [List.getElem?_map] at h2
  obtain ⟨L'', hL'', hw⟩ := Option.map_eq_some_iff.1 h2
  refine ⟨L'', hL'', ?_⟩
  intro i j hi hj
  rw [Prod.mk.injEq] at hd
  have hval : L''.W.f i j = readV io ⟨(Spec.fileText io.fmt (n.weights s)).take k, true⟩ ((((n.weights s).take l).map Mat.size).sum + (i * L.W.nc + j)) := by
    rw [hw]
    unfold loaded
    rw [Mat.of_f' (by rw [hd.1]; exact hi) (by rw [hd.2]; exact hj), ← readV_add, hd.2]
    have hsz := sizes_of_shapes hsh
    unfold Net.weights at hsz
    rw [List.map_take, hsz, ← List.map_take]
    rfl
  have hat := pieces_at hW hi hj io.fmt
  have := read_trunc (round := round) (pieces (n.weights s)) k [] _ _ (by simp) hat.1 (fun _ u _ _ => ⟨hc.ne u, hc.number u, hc.conv u⟩)
  rw [hat.2, pieces_text, List.nil_append] at this
  rw [hval]
  exact this

/-- `Spec.startOf` is indeed where the text of a weight is in the file `save` writes. -/
theorem C36_startOf {io : TextIO} {s : Store} {n : Net} {path : String} {fs fs' : Files} (h : n.save io s path true fs = .ok fs') :
    ∃ text, fs' path = some text ∧ ∀ l L i j, (n.layers s)[l]? = some L → i < L.W.nr → j < L.W.nc →
      ∃ post, text.drop (Spec.startOf io.fmt ((n.layers s).map (·.W)) l i j) = io.fmt (L.W.f i j) ++ ' ' :: post := by
  unfold Net.save at h
  rw [if_pos rfl, saveText_ok, ok_bind] at h
  cases h
  refine ⟨_, if_pos rfl, ?_⟩
  intro l L i j hL hi hj
  have hW : (n.weights s)[l]? = some L.W := by unfold Net.weights; rw [List.getElem?_map, hL]; rfl
  obtain ⟨hlt, hW2⟩ := List.getElem?_eq_some_iff.1 hW
  have h1 : Spec.fileText io.fmt (n.weights s) = Spec.fileText io.fmt ((n.weights s).take l) ++ Spec.matText io.fmt L.W ++ Spec.fileText io.fmt ((n.weights s).drop (l + 1)) :=
    flatMap_take_drop _ _ _ _ hW
  have h2 := flatMap_take_drop (fun v => io.fmt v ++ [' ']) _ _ _ (flat_get hi hj)
  unfold Spec.startOf
  rw [show ((n.layers s).map (·.W)) = n.weights s from rfl]
  rw [show (n.weights s).getD l .empty = L.W by rw [List.getD_eq_getElem?_getD, hW]; rfl]
  rw [h1, List.append_assoc, List.drop_length_add_append]
  unfold Spec.matText
  rw [h2, List.append_assoc, List.append_assoc, List.append_assoc, List.drop_left, List.append_assoc]
  exact ⟨_, rfl⟩

/-- **C35.** Loading a file written by `save` into any network of the same architecture gives every layer exactly the saved weights, each rounded as text does,
and changes nothing else; and if rounding does not change the text, saving that network gives the identical file. If the file could not be
opened for writing `save` changes no file. -/
theorem C35_roundtrip {io : TextIO} {round : ℝ → ℝ} (hc : Spec.Converts io round) {s s' : Store} {n n' : Net} (hsh : Spec.SameShapes s n s' n')
    (hnd : n'.hidden.Nodup) (path : String) (fs : Files) :
    ∃ fs' s'' n'', n.save io s path true fs = .ok fs' ∧ (∀ q, q ≠ path → fs' q = fs q) ∧ n'.load io s' path fs' = .ok (s'', n'') ∧
      Spec.OnlyWeights s' n' s'' n'' ∧ (n''.layers s'').map (·.W) = (n.layers s).map (fun L => L.W.map round) ∧
      ((∀ v, io.fmt (round v) = io.fmt v) → ∀ path' gs, ∃ gs', n''.save io s'' path' true gs = .ok gs' ∧ gs' path' = fs' path) := by
  have hsave : n.save io s path true fs = .ok (fs.put path (Spec.fileText io.fmt (n.weights s))) := by
    unfold Net.save
    rw [if_pos rfl, saveText_ok, ok_bind]
  have hcr : n.saveCrash io s path (Spec.fileText io.fmt (n.weights s)).length fs = .ok (fs.put path (Spec.fileText io.fmt (n.weights s))) := by
    unfold Net.saveCrash
    rw [saveText_ok, ok_bind, List.take_length]
  obtain ⟨s'', n'', h, ho, hv⟩ := C36_crash hc hsh hnd hcr
  have hws : (n''.layers s'').map (·.W) = (n.layers s).map (fun L => L.W.map round) := by
    apply List.ext_getElem?
    intro l
    rw [List.getElem?_map, List.getElem?_map]
    have hshl := congrArg (·[l]?) (ho.shapes.trans hsh)
    simp only [List.getElem?_map] at hshl
    cases hL : (n.layers s)[l]? with
    | none =>
      rw [hL] at hshl
      rw [Option.map_eq_none_iff.1 hshl]
      rfl
    | some L =>
      obtain ⟨L'', hL'', hval⟩ := hv l L hL
      rw [hL, hL''] at hshl
      simp only [Option.map_some, Option.some.injEq, Prod.mk.injEq] at hshl
      rw [hL'']
      simp only [Option.map_some, Option.some.injEq]
      refine Mat.ext' hshl.1 hshl.2 fun i j hi hj => ?_
      rw [hshl.1] at hi
      rw [hshl.2] at hj
      rw [Mat.map_f' hi hj]
      refine (hval i j hi hj).1 ?_
      obtain ⟨text, ht, hpost⟩ := C36_startOf hsave
      rw [show (fs.put path (Spec.fileText io.fmt (n.weights s))) path = some (Spec.fileText io.fmt (n.weights s)) from if_pos rfl] at ht
      cases ht
      obtain ⟨post, hp⟩ := hpost l L i j hL hi hj
      have := congrArg List.length hp
      rw [List.length_drop, List.length_append, List.length_cons] at this
      omega
  refine ⟨_, s'', n'', hsave, fun q hq => if_neg hq, h, ho, hws, ?_⟩
  intro hid path' gs
  refine ⟨gs.put path' (Spec.fileText io.fmt (n''.weights s'')), ?_, ?_⟩
  · unfold Net.save
    rw [if_pos rfl, saveText_ok, ok_bind]
  · rw [show (gs.put path' (Spec.fileText io.fmt (n''.weights s''))) path' = some _ from if_pos rfl,
      show (fs.put path (Spec.fileText io.fmt (n.weights s))) path = some _ from if_pos rfl]
    congr 1
    have hw2 : n''.weights s'' = (n.weights s).map (Mat.map round) := by
      unfold Net.weights
      rw [hws, List.map_map]
      rfl
    rw [hw2]
    unfold Spec.fileText
    rw [List.flatMap_map]
    congr 1
    funext W
    unfold Spec.matText
    congr 1
    have hflat : Spec.flat (W.map round) = (Spec.flat W).map round := by
      unfold Spec.flat
      rw [List.map_flatMap]
      show (List.range W.nr).flatMap _ = _
      refine List.flatMap_congr fun i hi => ?_
      rw [List.map_map]
      show (List.range W.nc).map _ = _
      refine List.map_congr_left fun j hj => ?_
      exact Mat.map_f' (List.mem_range.1 hi) (List.mem_range.1 hj)
    rw [hflat, List.flatMap_map]
    simp only [hid]

theorem C35_cannot_open (io : TextIO) (s : Store) (n : Net) (path : String) (fs : Files) : n.save io s path false fs = .ok fs := rfl

end
end Nnet.NN
