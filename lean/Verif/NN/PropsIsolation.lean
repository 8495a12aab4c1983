import Verif.NN.PropsAssign
/-!
# C66: networks that share no layer do not influence each other
-/
namespace Nnet.NN
open Finset
noncomputable section

/-- A program with several networks: calls in any order, each to the network of the given number. The values returned, in order, with the number of the network; then the files, layers and networks
at the end, or which network's call failed, and how. -/
def Spec.program (e : Spec.Env) : Files → Store → (Nat → Net) → List (Nat × Spec.Method) → List (Nat × Spec.Returned) × Except (Nat × Stop) (Files × Store × (Nat → Net))
  | fs, s, ns, [] => ([], .ok (fs, s, ns))
  | fs, s, ns, (k, c) :: cs =>
    match c.call e fs s (ns k) with
    | .error st => ([], .error (k, st))
    | .ok (r, fs, s, n) =>
      let rest := Spec.program e fs s (fun j => if j = k then n else ns j) cs
      ((k, r) :: rest.1, rest.2)

/-- The file a call uses. -/
def Spec.Method.path? : Spec.Method → Option String
  | .save p _ => some p
  | .load p => some p
  | _ => none

/-- The networks have no layer object in common. -/
def Spec.DisjointLayers (ns : Nat → Net) (k : Nat) : Prop := ∀ j, j ≠ k → ∀ p ∈ (ns j).hidden, p ∉ (ns k).hidden

/-- Network `k` uses files of its own. -/
def Spec.OwnFiles (prog : List (Nat × Spec.Method)) (k : Nat) : Prop :=
  ∀ c ∈ prog, ∀ d ∈ prog, c.1 = k → d.1 ≠ k → ∀ p, c.2.path? = some p → d.2.path? ≠ some p

/-- The same layers under the given names. -/
def Agree (ps : List Nat) (s t : Store) : Prop := ∀ p ∈ ps, s p = t p

theorem Agree.put {ps : List Nat} {s t : Store} (h : Agree ps s t) (q : Nat) (v : HLayer) : Agree ps (s.put q v) (t.put q v) := by
  intro p hp
  unfold Store.put
  split
  · rfl
  · exact h p hp

theorem agree_forward {junk : Nat → Nat → ℝ} {qs : List Nat} : ∀ {ps : List Nat} {s t : Store} {x : Mat ℝ}, (∀ p ∈ ps, p ∈ qs) → Agree qs s t →
    RelRes (fun a b => a.1 = b.1 ∧ Agree qs a.2 b.2) (Net.hiddenForward junk ps s x) (Net.hiddenForward junk ps t x)
  | [], s, t, x, _, h => .ok ⟨rfl, h⟩
  | p :: ps, s, t, x, hq, h => by
    unfold Net.hiddenForward
    rw [h p (hq p (by simp))]
    exact RelRes.same _ fun a _ => agree_forward (fun q hm => hq q (by simp [hm])) (h.put p a.2)

theorem agree_backward {junk : Nat → Nat → ℝ} {qs : List Nat} : ∀ {ps : List Nat} {s t : Store} {x : Mat ℝ}, (∀ p ∈ ps, p ∈ qs) → Agree qs s t →
    RelRes (Agree qs) (Net.hiddenBackward junk ps s x) (Net.hiddenBackward junk ps t x)
  | [], s, t, x, _, h => .ok h
  | p :: ps, s, t, x, hq, h => by
    unfold Net.hiddenBackward
    rw [h p (hq p (by simp))]
    exact RelRes.same _ fun a _ => agree_backward (fun q hm => hq q (by simp [hm])) (h.put p a.2)

theorem agree_update {qs : List Nat} : ∀ {ps : List Nat} {s t : Store}, (∀ p ∈ ps, p ∈ qs) → Agree qs s t → RelRes (Agree qs) (Net.hiddenUpdate ps s) (Net.hiddenUpdate ps t)
  | [], s, t, _, h => .ok h
  | p :: ps, s, t, hq, h => by
    unfold Net.hiddenUpdate
    rw [h p (hq p (by simp))]
    exact RelRes.same _ fun a _ => agree_update (fun q hm => hq q (by simp [hm])) (h.put p a)

theorem agree_updateWith {qs : List Nat} : ∀ {ps : List Nat} {gs : List (Mat ℝ)} {s t : Store}, (∀ p ∈ ps, p ∈ qs) → Agree qs s t →
    RelRes (Agree qs) (Net.hiddenUpdateWith ps gs s) (Net.hiddenUpdateWith ps gs t)
  | [], _, s, t, _, h => .ok h
  | p :: ps, [], s, t, _, h => .err _
  | p :: ps, g :: gs, s, t, hq, h => by
    unfold Net.hiddenUpdateWith
    rw [h p (hq p (by simp))]
    exact RelRes.same _ fun a _ => agree_updateWith (fun q hm => hq q (by simp [hm])) (h.put p a)

theorem agree_rates (r : ℝ) {qs : List Nat} : ∀ {ps : List Nat} {s t : Store}, (∀ p ∈ ps, p ∈ qs) → Agree qs s t →
    Agree qs (ps.foldl (fun s p => s.put p ((s p).setlrate r)) s) (ps.foldl (fun s p => s.put p ((s p).setlrate r)) t)
  | [], _, _, _, h => h
  | p :: ps, s, t, hq, h => by
    simp only [List.foldl_cons]
    rw [h p (hq p (by simp))]
    exact agree_rates r (fun q hm => hq q (by simp [hm])) (h.put p _)

theorem agree_save {io : TextIO} : ∀ {ps : List Nat} {s t : Store} {out : List Char}, Agree ps s t → saveHidden io s ps out = saveHidden io t ps out
  | [], _, _, _, _ => rfl
  | p :: ps, s, t, out, h => by
    unfold saveHidden
    rw [h p (by simp)]
    congr 1
    funext o
    exact agree_save fun q hq => h q (by simp [hq])

theorem agree_load {io : TextIO} {qs : List Nat} : ∀ {ps : List Nat} {s t : Store} {st : InStream}, (∀ p ∈ ps, p ∈ qs) → Agree qs s t →
    RelRes (fun a b => Agree qs a.1 b.1 ∧ a.2 = b.2) (loadHidden io ps s st) (loadHidden io ps t st)
  | [], s, t, st, _, h => .ok ⟨h, rfl⟩
  | p :: ps, s, t, st, hq, h => by
    unfold loadHidden
    rw [h p (hq p (by simp))]
    exact RelRes.same _ fun a _ => agree_load (fun q hm => hq q (by simp [hm])) (h.put p _)

/-- A call depends only on the layers and the file it uses. -/
theorem call_local {e : Spec.Env} {fs gs : Files} {s t : Store} {n : Net} (F : String → Prop) (h : Agree n.hidden s t) (hF : ∀ p, F p → fs p = gs p) (c : Spec.Method)
    (hc : ∀ p, c.path? = some p → F p) :
    RelRes (fun a b => a.1 = b.1 ∧ (∀ p, F p → a.2.1 p = b.2.1 p) ∧ Agree n.hidden a.2.2.1 b.2.2.1 ∧ a.2.2.2 = b.2.2.2) (c.call e fs s n) (c.call e gs t n) := by
  have hfwd : ∀ x, RelRes (fun a b => a.1 = b.1 ∧ Agree n.hidden a.2.1 b.2.1 ∧ a.2.2 = b.2.2) (n.forwardprop e.junk s x) (n.forwardprop e.junk t x) := by
    intro x
    unfold Net.forwardprop
    simp only
    refine RelRes.bind (agree_forward (fun _ hp => hp) h) ?_
    rintro ⟨r1, s1⟩ ⟨r2, s2⟩ ⟨h1, h2⟩
    cases h1
    exact RelRes.same _ fun a _ => .ok ⟨rfl, h2, rfl⟩
  have two : ∀ {x y : Res (Store × Net)}, RelRes (fun a b => Agree n.hidden a.1 b.1 ∧ a.2 = b.2) x y →
      RelRes (fun a b => a.1 = b.1 ∧ (∀ p, F p → a.2.1 p = b.2.1 p) ∧ Agree n.hidden a.2.2.1 b.2.2.1 ∧ a.2.2.2 = b.2.2.2)
        (do let (s, n) ← x; .ok (Spec.Returned.nothing, fs, s, n)) (do let (s, n) ← y; .ok (Spec.Returned.nothing, gs, s, n)) := by
    intro x y hxy
    refine RelRes.bind hxy ?_
    rintro ⟨s1, m1⟩ ⟨s2, n1⟩ ⟨h1, h2⟩
    exact .ok ⟨rfl, hF, h1, h2⟩
  have hrand : ∀ i d, RelRes (fun a b => Agree n.hidden a.1 b.1 ∧ a.2 = b.2) (n.randomizeAt e.dist s i d) (n.randomizeAt e.dist t i d) := by
    intro i d
    unfold Net.randomizeAt
    split
    · rename_i p hp
      rw [h p (List.mem_of_getElem? hp)]
      exact RelRes.same _ fun a _ => .ok ⟨h.put p a, rfl⟩
    · exact RelRes.same _ fun a _ => .ok ⟨h, rfl⟩
  cases c with
  | forwardprop x =>
    refine RelRes.bind (hfwd x) ?_
    rintro ⟨r1, s1, m1⟩ ⟨r2, s2, n1⟩ ⟨h1, h2, h3⟩
    exact .ok ⟨congrArg Spec.Returned.matrix h1, hF, h2, h3⟩
  | predict x =>
    refine RelRes.bind (Q := fun a b => a.1 = b.1 ∧ Agree n.hidden a.2.1 b.2.1 ∧ a.2.2 = b.2.2) ?_ ?_
    · unfold Net.predict
      refine RelRes.bind (hfwd x) ?_
      rintro ⟨r1, s1, m1⟩ ⟨r2, s2, n1⟩ ⟨h1, h2, h3⟩
      dsimp only at h1 h2 h3 ⊢
      subst h1 h3
      exact RelRes.same _ fun a _ => .ok ⟨rfl, h2, rfl⟩
    · rintro ⟨r1, s1, m1⟩ ⟨r2, s2, n1⟩ ⟨h1, h2, h3⟩
      exact .ok ⟨congrArg Spec.Returned.matrix h1, hF, h2, h3⟩
  | backprop y =>
    refine two ?_
    unfold Net.backprop
    refine RelRes.same _ fun a _ => RelRes.bind (agree_backward (qs := n.hidden) (fun _ hp => List.mem_reverse.1 hp) h) fun s1 s2 h1 => .ok ⟨h1, rfl⟩
  | update =>
    refine two ?_
    unfold Net.update
    exact RelRes.same _ fun a _ => RelRes.bind (agree_update (fun _ hp => hp) h) fun s1 s2 h1 => .ok ⟨h1, rfl⟩
  | updateWith og hg =>
    refine two ?_
    unfold Net.updateWith
    exact RelRes.same _ fun a _ => RelRes.bind (agree_updateWith (fun _ hp => hp) h) fun s1 s2 h1 => .ok ⟨h1, rfl⟩
  | computecost p y => exact RelRes.same _ fun a _ => .ok ⟨rfl, hF, h, rfl⟩
  | randomize r d => exact two (hrand _ d)
  | randomizeAt i d => exact two (hrand i d)
  | save p b =>
    refine RelRes.bind (Q := fun a b => ∀ p, F p → a p = b p) ?_ fun a b hab => .ok ⟨rfl, hab, h, rfl⟩
    unfold Net.save
    split
    · unfold Net.saveText
      rw [agree_save h]
      refine RelRes.same _ fun a _ => .ok fun q hq => ?_
      unfold Files.put
      split
      · rfl
      · exact hF q hq
    · exact .ok hF
  | load p =>
    refine two ?_
    unfold Net.load
    rw [hF p (hc p rfl)]
    split
    · exact .ok ⟨h, rfl⟩
    · refine RelRes.bind (agree_load (fun _ hp => hp) h) ?_
      rintro ⟨s1, st1⟩ ⟨s2, st2⟩ ⟨h1, h2⟩
      dsimp only at h1 h2 ⊢
      subst h2
      exact RelRes.same _ fun a _ => .ok ⟨h1, rfl⟩
  | getresult => exact .ok ⟨rfl, hF, h, rfl⟩
  | getnumhidden => exact .ok ⟨rfl, hF, h, rfl⟩
  | gethidden i =>
    refine RelRes.bind (Q := fun a b => a = b) ?_ fun a b hab => .ok ⟨congrArg Spec.Returned.layer hab, hF, h, rfl⟩
    unfold Net.gethidden
    refine RelRes.same _ fun p hp => ?_
    rw [h p (vecAt_mem hp)]
    exact .ok rfl
  | getoutput => exact .ok ⟨rfl, hF, h, rfl⟩
  | setlrate r => exact .ok ⟨rfl, hF, agree_rates r (fun _ hp => hp) h, rfl⟩
  | sethiddenw i w =>
    refine RelRes.bind (Q := Agree n.hidden) ?_ fun a b hab => .ok ⟨rfl, hF, hab, rfl⟩
    unfold Net.sethiddenw
    refine RelRes.same _ fun p hp => ?_
    rw [h p (vecAt_mem hp)]
    exact .ok (h.put p _)
  | setoutputw w => exact .ok ⟨rfl, hF, h, rfl⟩

/-- A call changes only the network's own layers and the file it names, and never which layers the network has. -/
theorem call_frame {e : Spec.Env} {fs fs' : Files} {s s' : Store} {n n' : Net} {c : Spec.Method} {r : Spec.Returned} (h : c.call e fs s n = .ok (r, fs', s', n')) :
    n'.hidden = n.hidden ∧ Outside n.hidden s s' ∧ ∀ p, c.path? ≠ some p → fs' p = fs p := by
  have two : ∀ {op : Spec.NetOp}, (do let (s, n) ← op.run e s n; .ok (Spec.Returned.nothing, fs, s, n)) = .ok (r, fs', s', n') →
      n'.hidden = n.hidden ∧ Outside n.hidden s s' ∧ fs' = fs := by
    intro op h
    obtain ⟨⟨s1, n1⟩, e1, h⟩ := bind_eq_ok h
    cases h
    exact ⟨(run_outside e1).1, (run_outside e1).2, rfl⟩
  have fin : (n'.hidden = n.hidden ∧ Outside n.hidden s s' ∧ fs' = fs) → n'.hidden = n.hidden ∧ Outside n.hidden s s' ∧ ∀ p, c.path? ≠ some p → fs' p = fs p :=
    fun ⟨h1, h2, h3⟩ => ⟨h1, h2, fun p _ => by rw [h3]⟩
  cases c with
  | forwardprop x =>
    obtain ⟨⟨r1, s1, n1⟩, e1, h⟩ := bind_eq_ok h
    cases h
    have := run_outside (e := e) (op := .forwardprop x) (s := s) (n := n) (s' := s') (n' := n') (by
      show (do let (_, r) ← n.forwardprop e.junk s x; .ok r) = _
      rw [e1, ok_bind])
    exact fin ⟨this.1, this.2, rfl⟩
  | predict x =>
    obtain ⟨⟨r1, s1, n1⟩, e1, h⟩ := bind_eq_ok h
    cases h
    have := run_outside (e := e) (op := .predict x) (s := s) (n := n) (s' := s') (n' := n') (by
      show (do let (_, r) ← n.predict e.junk s x; .ok r) = _
      rw [e1, ok_bind])
    exact fin ⟨this.1, this.2, rfl⟩
  | backprop y => exact fin (two (op := .backprop y) h)
  | update => exact fin (two (op := .update) h)
  | updateWith og hg => exact fin (two (op := .updateWith og hg) h)
  | computecost p y =>
    obtain ⟨c, e1, h⟩ := bind_eq_ok h
    cases h
    exact fin ⟨rfl, .refl, rfl⟩
  | randomize k d => exact fin (two (op := .randomize (k % (n.hidden.length + 1)) d) h)
  | randomizeAt i d => exact fin (two (op := .randomize i d) h)
  | save p b =>
    obtain ⟨fs1, e1, h⟩ := bind_eq_ok h
    cases h
    refine ⟨rfl, .refl, fun q hq => ?_⟩
    unfold Net.save at e1
    split at e1
    · obtain ⟨t, e2, e1⟩ := bind_eq_ok e1
      cases e1
      unfold Files.put
      rw [if_neg]
      rintro rfl
      exact hq rfl
    · cases e1; rfl
  | load p => exact fin (two (op := .load p fs) h)
  | getresult => cases h; exact fin ⟨rfl, .refl, rfl⟩
  | getnumhidden => cases h; exact fin ⟨rfl, .refl, rfl⟩
  | gethidden i =>
    obtain ⟨c, e1, h⟩ := bind_eq_ok h
    cases h
    exact fin ⟨rfl, .refl, rfl⟩
  | getoutput => cases h; exact fin ⟨rfl, .refl, rfl⟩
  | setlrate k => exact fin (two (op := .setlrate k) h)
  | sethiddenw i w =>
    obtain ⟨s1, e1, h⟩ := bind_eq_ok h
    cases h
    have := run_outside (e := e) (op := .sethiddenw i w) (s := s) (n := n) (s' := s') (n' := n) (by
      show (do let s ← n.sethiddenw s i w; .ok (s, n)) = _
      rw [e1, ok_bind])
    exact fin ⟨this.1, this.2, rfl⟩
  | setoutputw w => exact fin (two (op := .setoutputw w) h)

/-- Isolation, from states that agree in what network `k` uses. -/
theorem program_isolated {e : Spec.Env} {k : Nat} (F : String → Prop) : ∀ {prog : List (Nat × Spec.Method)} {fs gs : Files} {s t : Store} {ns ms : Nat → Net},
    Spec.DisjointLayers ns k → (∀ c ∈ prog, c.1 = k → ∀ p, c.2.path? = some p → F p) → (∀ c ∈ prog, c.1 ≠ k → ∀ p, c.2.path? = some p → ¬ F p) →
    ns k = ms k → Agree (ns k).hidden s t → (∀ p, F p → fs p = gs p) →
    (∀ fs1 s1 ns1, (Spec.program e fs s ns prog).2 = .ok (fs1, s1, ns1) → ∃ fs2 s2 ns2,
        Spec.program e gs t ms (prog.filter (·.1 = k)) = ((Spec.program e fs s ns prog).1.filter (·.1 = k), .ok (fs2, s2, ns2)) ∧
        ns1 k = ns2 k ∧ Agree (ns1 k).hidden s1 s2 ∧ ∀ p, F p → fs1 p = fs2 p) ∧
    (∀ st, (Spec.program e fs s ns prog).2 = .error (k, st) →
        Spec.program e gs t ms (prog.filter (·.1 = k)) = ((Spec.program e fs s ns prog).1.filter (·.1 = k), .error (k, st))) ∧
    (∀ j st, (Spec.program e fs s ns prog).2 = .error (j, st) → (Spec.program e fs s ns prog).1.filter (·.1 = k) <+: (Spec.program e gs t ms (prog.filter (·.1 = k))).1)
  | [], fs, gs, s, t, ns, ms, _, _, _, hk, ha, hf => by
    refine ⟨fun fs1 s1 ns1 h => ?_, (fun st h => nomatch h), (fun j st h => nomatch h)⟩
    cases h
    exact ⟨gs, t, ms, rfl, hk, ha, hf⟩
  | (j, c) :: prog, fs, gs, s, t, ns, ms, hd, hF1, hF2, hk, ha, hf => by
    by_cases hj : j = k
    · subst hj
      have hl := call_local (e := e) F ha hf c (hF1 (j, c) (by simp) rfl)
      rw [List.filter_cons_of_pos (by simp)]
      unfold Spec.program
      rw [← hk]
      cases hx : c.call e fs s (ns j) with
      | error st =>
        rw [hx] at hl
        cases hy : c.call e gs t (ns j) with
        | ok b => rw [hy] at hl; cases hl
        | error st' =>
          rw [hy] at hl
          cases hl
          refine ⟨(fun _ _ _ h => nomatch h), fun st h => ?_, fun j st h => ?_⟩
          · cases h; rfl
          · exact List.prefix_refl _
      | ok a =>
        rw [hx] at hl
        cases hy : c.call e gs t (ns j) with
        | error st => rw [hy] at hl; cases hl
        | ok b =>
          rw [hy] at hl
          cases hl with
          | ok hab =>
            obtain ⟨r1, f1, s1, n1⟩ := a
            obtain ⟨r2, f2, s2, n2⟩ := b
            obtain ⟨h1, h2, h3, h4⟩ := hab
            dsimp only at h1 h2 h3 h4
            subst h1 h4
            obtain ⟨k1, k2, k3⟩ := call_frame hx
            have hd' : Spec.DisjointLayers (fun i => if i = j then n1 else ns i) j := by
              intro i hi p hp
              simp only [if_neg hi] at hp
              simp only [if_pos]
              rw [k1]
              exact hd i hi p hp
            obtain ⟨i1, i2, i3⟩ := program_isolated (e := e) (k := j) F (prog := prog) (fs := f1) (gs := f2) (s := s1) (t := s2) (ns := fun i => if i = j then n1 else ns i)
              (ms := fun i => if i = j then n1 else ms i) hd' (fun c hc => hF1 c (by simp [hc])) (fun c hc => hF2 c (by simp [hc])) (by simp) (by simp only [if_pos]; rw [k1]; exact h3) h2
            dsimp only
            refine ⟨fun fs1 s3 ns1 h => ?_, fun st h => ?_, fun i st h => ?_⟩
            · obtain ⟨a1, a2, a3, a4, a5⟩ := i1 fs1 s3 ns1 h
              refine ⟨a1, a2, a3, ?_, a5⟩
              rw [a4, List.filter_cons_of_pos (by simp)]
            · rw [i2 st h, List.filter_cons_of_pos (by simp)]
            · rw [List.filter_cons_of_pos (by simp)]
              exact List.cons_prefix_cons.2 ⟨rfl, i3 i st h⟩
    · rw [List.filter_cons_of_neg (by simpa using hj)]
      rw [show Spec.program e fs s ns ((j, c) :: prog) = (match c.call e fs s (ns j) with
        | .error st => ([], .error (j, st))
        | .ok (r, fs, s, n) => ((j, r) :: (Spec.program e fs s (fun i => if i = j then n else ns i) prog).1, (Spec.program e fs s (fun i => if i = j then n else ns i) prog).2)) from rfl]
      cases hx : c.call e fs s (ns j) with
      | error st =>
        refine ⟨(fun _ _ _ h => nomatch h), fun st h => ?_, fun i st h => ?_⟩
        · cases h; exact absurd rfl hj
        · exact List.nil_prefix
      | ok a =>
        obtain ⟨r1, f1, s1, n1⟩ := a
        obtain ⟨k1, k2, k3⟩ := call_frame hx
        have hd' : Spec.DisjointLayers (fun i => if i = j then n1 else ns i) k := by
          intro i hi p hp
          simp only [if_neg (Ne.symm hj)]
          by_cases hij : i = j
          · simp only [if_pos hij] at hp
            rw [k1] at hp
            exact hd j hj p hp
          · simp only [if_neg hij] at hp
            exact hd i hi p hp
        obtain ⟨i1, i2, i3⟩ := program_isolated (e := e) (k := k) F (prog := prog) (fs := f1) (gs := gs) (s := s1) (t := t) (ns := fun i => if i = j then n1 else ns i)
          (ms := ms) hd' (fun c hc => hF1 c (by simp [hc])) (fun c hc => hF2 c (by simp [hc])) (by simp only [if_neg (Ne.symm hj)]; exact hk)
          (by
            simp only [if_neg (Ne.symm hj)]
            intro p hp
            rw [k2 p (fun hm => hd j hj p hm hp)]
            exact ha p hp)
          (fun p hp => by rw [k3 p (fun hm => hF2 (j, c) (by simp) hj p hm hp)]; exact hf p hp)
        have hfil : ∀ l : List (Nat × Spec.Returned), List.filter (fun c => decide (c.1 = k)) ((j, r1) :: l) = List.filter (fun c => decide (c.1 = k)) l := fun l =>
          List.filter_cons_of_neg (by simpa using hj)
        dsimp only
        rw [hfil]
        exact ⟨i1, i2, i3⟩

/-- **C66.** Several networks, network `k` having no layer object and no file in common with the others. In every program, whatever the order of the calls: if no call fails, network `k`'s calls return
exactly what they return in the program with the calls to all other networks removed, and it ends with the same members and layers and the same files. If a call to network `k` fails, it fails in the
same way there after the same returned values; and if a call to another network fails, the values returned by network `k` until then are the same. -/
theorem C66_isolation (e : Spec.Env) (k : Nat) (prog : List (Nat × Spec.Method)) (fs : Files) (s : Store) (ns : Nat → Net) (hd : Spec.DisjointLayers ns k) (ho : Spec.OwnFiles prog k) :
    (∀ fs1 s1 ns1, (Spec.program e fs s ns prog).2 = .ok (fs1, s1, ns1) → ∃ fs2 s2 ns2,
        Spec.program e fs s ns (prog.filter (·.1 = k)) = ((Spec.program e fs s ns prog).1.filter (·.1 = k), .ok (fs2, s2, ns2)) ∧
        ns1 k = ns2 k ∧ (∀ p ∈ (ns1 k).hidden, s1 p = s2 p) ∧ ∀ c ∈ prog, c.1 = k → ∀ p, c.2.path? = some p → fs1 p = fs2 p) ∧
    (∀ st, (Spec.program e fs s ns prog).2 = .error (k, st) →
        Spec.program e fs s ns (prog.filter (·.1 = k)) = ((Spec.program e fs s ns prog).1.filter (·.1 = k), .error (k, st))) ∧
    (∀ j st, (Spec.program e fs s ns prog).2 = .error (j, st) →
        (Spec.program e fs s ns prog).1.filter (·.1 = k) <+: (Spec.program e fs s ns (prog.filter (·.1 = k))).1) := by
  obtain ⟨h1, h2, h3⟩ := program_isolated (e := e) (k := k) (fun p => ∃ c ∈ prog, c.1 = k ∧ c.2.path? = some p) (prog := prog) (fs := fs) (gs := fs) (s := s) (t := s) (ns := ns) (ms := ns) hd
    (fun c hc h1 p hp => ⟨c, hc, h1, hp⟩) (fun c hc h1 p hp ⟨d, hd, h2, h3⟩ => ho d hd c hc h2 h1 p h3 hp) rfl (fun _ _ => rfl) (fun _ _ => rfl)
  refine ⟨fun fs1 s1 ns1 h => ?_, h2, h3⟩
  obtain ⟨a1, a2, a3, a4, a5, a6, a7⟩ := h1 fs1 s1 ns1 h
  exact ⟨a1, a2, a3, a4, a5, a6, fun c hc e1 p hp => a7 p ⟨c, hc, e1, hp⟩⟩

/-! Networks with the layers 0, 1, 2, ...; network 0 is trained and saved to its own file while the others do the same. -/
example : Spec.DisjointLayers (fun k => { exNet with hidden := [k] }) 0 ∧
    Spec.OwnFiles [(0, .forwardprop exX), (1, .forwardprop exX), (1, .backprop exX), (0, .backprop exX), (1, .update), (0, .update), (1, .save "b" true), (0, .save "a" true), (2, .load "b")] 0 := by
  refine ⟨fun j hj p hp => ?_, ?_⟩
  · simp only [List.mem_singleton] at hp ⊢
    omega
  · intro c hc d hd h1 h2 p hp
    simp only [List.mem_cons, List.not_mem_nil, or_false] at hc hd
    rcases hc with rfl | rfl | rfl | rfl | rfl | rfl | rfl | rfl | rfl <;> simp [Spec.Method.path?] at h1 hp
    subst hp
    rcases hd with rfl | rfl | rfl | rfl | rfl | rfl | rfl | rfl | rfl <;> simp [Spec.Method.path?] at h2 ⊢

end
end Nnet.NN
