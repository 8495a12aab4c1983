import Verif.NN.Exn
import Verif.NN.PropsTrain
/-!
# The statement-by-statement model agrees with the other one
-/
namespace Nnet.NN
noncomputable section

namespace X
variable {σ τ α β : Type}

/-- When `m` returns, it has done what `f` does; when it throws with enough memory, so does `f`. -/
def Refines (m : X σ α) (f : σ → Res (α × σ)) : Prop := ∀ b s,
  (∀ a b' s', m b s = (.ok a, b', s') → f s = .ok (a, s') ∧ (b = none → b' = none)) ∧
  (∀ e b' s', m b s = (.error e, b', s') → b = none → f s = .error e)

/-- Whatever happens, the states before and after `m` are related by `R`. -/
def Keeps (R : σ → σ → Prop) (m : X σ α) : Prop := ∀ b s, R s (m b s).2.2

theorem bind_def (m : X σ α) (f : α → X σ β) (b : Option Fault) (s : σ) : (m >>= f) b s = match m b s with
  | (.ok a, b', s') => f a b' s'
  | (.error e, b', s') => (.error e, b', s') := rfl

theorem Refines.congr {m : X σ α} {f g : σ → Res (α × σ)} (h : Refines m f) (e : ∀ s, f s = g s) : Refines m g := by
  have : f = g := funext e
  rwa [← this]

theorem Refines.ret (a : α) : Refines (X.ret a : X σ α) (fun s => .ok (a, s)) := by
  intro b s
  refine ⟨?_, ?_⟩
  · intro a' b' s' h; cases h; exact ⟨rfl, id⟩
  · intro e b' s' h; cases h

theorem Refines.get (f : σ → α) : Refines (X.get f) (fun s => .ok (f s, s)) := by
  intro b s
  refine ⟨?_, ?_⟩
  · intro a' b' s' h; cases h; exact ⟨rfl, id⟩
  · intro e b' s' h; cases h

theorem Refines.modify (f : σ → σ) : Refines (X.modify f) (fun s => .ok ((), f s)) := by
  intro b s
  refine ⟨?_, ?_⟩
  · intro a' b' s' h; cases h; exact ⟨rfl, id⟩
  · intro e b' s' h; cases h

theorem Refines.bind {m : X σ α} {f : σ → Res (α × σ)} {g : α → X σ β} {h : α → σ → Res (β × σ)} (hm : Refines m f) (hg : ∀ a, Refines (g a) (h a)) :
    Refines (m >>= g) (fun s => f s >>= fun r => h r.1 r.2) := by
  intro b s
  rw [bind_def]
  rcases e : m b s with ⟨_ | a, b1, s1⟩
  · refine ⟨fun a b' s' h => (by cases h), fun e' b' s' h hb => ?_⟩
    cases h
    show f s >>= _ = _
    rw [(hm b s).2 _ _ _ e hb]; rfl
  · obtain ⟨h1, h2⟩ := (hm b s).1 _ _ _ e
    refine ⟨fun a' b' s' h' => ?_, fun e' b' s' h' hb => ?_⟩
    · obtain ⟨k1, k2⟩ := (hg a b1 s1).1 _ _ _ h'
      exact ⟨by show f s >>= _ = _; rw [h1]; exact k1, fun hb => k2 (h2 hb)⟩
    · have := (hg a b1 s1).2 _ _ _ h' (h2 hb)
      show f s >>= _ = _
      rw [h1]; exact this

theorem op_cases (r : σ → Res α) (done : α → σ → σ) (broken : σ → σ) (b : Option Fault) (s : σ) :
    X.op r done broken b s = X.step r done b s ∨ (b ≠ none ∧ ∃ c : Bool, X.op r done broken b s = (.error .throw, b, if c = true then broken s else s)) := by
  rcases b with _ | ⟨_ | k, c⟩
  · exact Or.inl rfl
  · exact Or.inr ⟨by simp, c, rfl⟩
  · exact Or.inl rfl

theorem Refines.op (r : σ → Res α) (done : α → σ → σ) (broken : σ → σ) : Refines (X.op r done broken) (fun s => r s >>= fun a => .ok (a, done a s)) := by
  intro b s
  rcases op_cases r done broken b s with h | ⟨hb, c, h⟩
  · rw [h]
    unfold X.step
    cases hr : r s with
    | ok a =>
      refine ⟨fun a b' s' h => ?_, fun e b' s' h => ?_⟩
      · cases h; exact ⟨by simp only [hr, ok_bind], fun h => by rw [h]; rfl⟩
      · cases h
    | error e =>
      refine ⟨fun a b' s' h => ?_, fun e b' s' h _ => ?_⟩
      · cases h
      · cases h; simp only [hr, error_bind]
  · rw [h]
    refine ⟨fun a b' s' h => ?_, fun e b' s' h hb' => absurd hb' hb⟩
    cases h

theorem Refines.assign (set : Mat ℝ → σ → σ) (e : σ → Res (Mat ℝ)) : Refines (X.assign set e) (fun s => e s >>= fun m => .ok ((), set m s)) :=
  ((Refines.op e set _).bind (fun _ => Refines.ret ())).congr (fun s => by rw [bind_assoc]; rfl)

theorem Refines.eval (e : σ → Res α) : Refines (X.eval e) (fun s => e s >>= fun a => .ok (a, s)) := Refines.op e _ _

theorem Refines.on {get : σ → τ} {put : τ → σ → σ} {m : X τ α} {f : τ → Res (α × τ)} (h : Refines m f) :
    Refines (X.on get put m) (fun s => f (get s) >>= fun r => .ok (r.1, put r.2 s)) := by
  intro b s
  refine ⟨fun a b' s' e => ?_, fun e b' s' h' hb => ?_⟩
  · simp only [X.on, Prod.mk.injEq] at e
    obtain ⟨e1, e2, e3⟩ := e
    obtain ⟨k1, k2⟩ := (h b (get s)).1 a b' (m b (get s)).2.2 (by rw [← e1, ← e2])
    exact ⟨by show f (get s) >>= _ = _; rw [k1, ← e3]; rfl, k2⟩
  · simp only [X.on, Prod.mk.injEq] at h'
    obtain ⟨e1, e2, e3⟩ := h'
    have := (h b (get s)).2 e b' (m b (get s)).2.2 (by rw [← e1, ← e2]) hb
    show f (get s) >>= _ = _
    rw [this]; rfl

theorem Refines.loop {body : Nat → X σ Unit} {f : Nat → σ → Res (Unit × σ)} (h : ∀ i, Refines (body i) (f i)) : ∀ n,
    Refines (X.loop n body) (fun s => do let s ← NN.loop n (fun i s => do let r ← f i s; .ok r.2) s; .ok ((), s))
  | 0 => Refines.ret ()
  | n + 1 => ((Refines.loop h n).bind (fun _ => h n)).congr (fun s => by
      simp only [NN.loop, bind_assoc, ok_bind]
      congr 1
      funext s'
      cases f n s' with
      | ok r => obtain ⟨⟨⟩, r⟩ := r; rfl
      | error e => rfl)

/-- With enough memory `m` does exactly what `f` does. -/
theorem Refines.exact {m : X σ α} {f : σ → Res (α × σ)} (h : Refines m f) (s : σ) :
    (∀ a s', f s = .ok (a, s') ↔ m none s = (.ok a, none, s')) ∧ (∀ e, f s = .error e ↔ (m none s).1 = .error e) := by
  rcases e : m none s with ⟨r | a, b1, s1⟩
  · have h1 := (h none s).2 _ _ _ e rfl
    refine ⟨fun a s' => ⟨fun h2 => (by rw [h1] at h2; cases h2), fun h2 => (by cases h2)⟩, fun e' => ⟨fun h2 => ?_, fun h2 => ?_⟩⟩
    · rw [h1] at h2; cases h2; rfl
    · simp only [Except.error.injEq] at h2
      rw [h1, h2]
  · obtain ⟨h1, h2⟩ := (h none s).1 _ _ _ e
    have h2 := h2 rfl
    subst h2
    refine ⟨fun a s' => ⟨fun h3 => ?_, fun h3 => ?_⟩, fun e' => ⟨fun h3 => (by rw [h1] at h3; cases h3), fun h3 => by cases h3⟩⟩
    · rw [h1] at h3; cases h3; rfl
    · cases h3; exact h1

/-! ## What is kept whatever happens -/

theorem Keeps.ret {R : σ → σ → Prop} (hr : ∀ s, R s s) (a : α) : Keeps R (X.ret a) := fun _ s => hr s
theorem Keeps.get {R : σ → σ → Prop} (hr : ∀ s, R s s) (f : σ → α) : Keeps R (X.get f) := fun _ s => hr s
theorem Keeps.modify {R : σ → σ → Prop} {f : σ → σ} (h : ∀ s, R s (f s)) : Keeps R (X.modify f) := fun _ s => h s

theorem Keeps.bind {R : σ → σ → Prop} (ht : ∀ a b c, R a b → R b c → R a c) {m : X σ α} {g : α → X σ β} (hm : Keeps R m) (hg : ∀ a, Keeps R (g a)) :
    Keeps R (m >>= g) := by
  intro b s
  rw [bind_def]
  have h1 := hm b s
  rcases e : m b s with ⟨_ | a, b1, s1⟩
  · rw [e] at h1; exact h1
  · rw [e] at h1; exact ht _ _ _ h1 (hg a b1 s1)

theorem Keeps.op {R : σ → σ → Prop} (hr : ∀ s, R s s) {r : σ → Res α} {done : α → σ → σ} {broken : σ → σ} (h1 : ∀ s a, r s = .ok a → R s (done a s))
    (h2 : ∀ s, R s (broken s)) : Keeps R (X.op r done broken) := by
  intro b s
  rcases op_cases r done broken b s with h | ⟨hb, c, h⟩
  · rw [h]
    unfold X.step
    cases e : r s with
    | ok a => exact h1 s a e
    | error e => exact hr s
  · rw [h]
    show R s (if c = true then broken s else s)
    split
    · exact h2 s
    · exact hr s

theorem Keeps.assign {R : σ → σ → Prop} (hr : ∀ s, R s s) (ht : ∀ a b c, R a b → R b c → R a c) {set : Mat ℝ → σ → σ} {e : σ → Res (Mat ℝ)} (h : ∀ m s, R s (set m s)) :
    Keeps R (X.assign set e) :=
  Keeps.bind ht (Keeps.op hr (fun s a _ => h a s) (fun s => h _ s)) (fun _ => Keeps.ret hr ())

theorem Keeps.eval {R : σ → σ → Prop} (hr : ∀ s, R s s) {e : σ → Res α} : Keeps R (X.eval e) := Keeps.op hr (fun s _ _ => hr s) hr

theorem Keeps.on {R : σ → σ → Prop} {Q : τ → τ → Prop} {get : σ → τ} {put : τ → σ → σ} {m : X τ α} (h : Keeps Q m) (hp : ∀ s t, Q (get s) t → R s (put t s)) :
    Keeps R (X.on get put m) := fun b s => hp s _ (h b (get s))

theorem Keeps.loop {R : σ → σ → Prop} (hr : ∀ s, R s s) (ht : ∀ a b c, R a b → R b c → R a c) {body : Nat → X σ Unit} (h : ∀ i, Keeps R (body i)) : ∀ n, Keeps R (X.loop n body)
  | 0 => Keeps.ret hr ()
  | n + 1 => Keeps.bind ht (Keeps.loop hr ht h n) (fun _ => h n)

/-- A loop that throws has completed a number of iterations and failed in the next. -/
theorem loop_stopped {body : Nat → X σ Unit} {b b' : Option Fault} {s s' : σ} {e : Stop} : ∀ {n : Nat}, X.loop n body b s = (.error e, b', s') →
    ∃ k b1 s1, k < n ∧ X.loop k body b s = (.ok (), b1, s1) ∧ body k b1 s1 = (.error e, b', s')
  | 0, h => by cases h
  | n + 1, h => by
    have h' : (X.loop n body >>= fun _ => body n) b s = (.error e, b', s') := h
    rw [bind_def] at h'
    rcases e1 : X.loop n body b s with ⟨_ | a, b1, s1⟩
    · rw [e1] at h'
      obtain ⟨k, b2, s2, h1, h2, h3⟩ := loop_stopped (n := n) (e1.trans h')
      exact ⟨k, b2, s2, by omega, h2, h3⟩
    · rw [e1] at h'
      exact ⟨n, b1, s1, by omega, e1, h'⟩

/-- A sequence that throws: in its first part or, after that has ended normally, in the second. -/
theorem bind_stopped {m : X σ α} {g : α → X σ β} {b b' : Option Fault} {s s' : σ} {e : Stop} (h : (m >>= g) b s = (.error e, b', s')) :
    m b s = (.error e, b', s') ∨ ∃ a b1 s1, m b s = (.ok a, b1, s1) ∧ g a b1 s1 = (.error e, b', s') := by
  rw [bind_def] at h
  rcases e1 : m b s with ⟨_ | a, b1, s1⟩
  · rw [e1] at h; cases h; exact Or.inl rfl
  · rw [e1] at h; exact Or.inr ⟨a, b1, s1, rfl, h⟩

theorem bind_done {m : X σ α} {g : α → X σ β} {b b' : Option Fault} {s s' : σ} {r : β} (h : (m >>= g) b s = (.ok r, b', s')) :
    ∃ a b1 s1, m b s = (.ok a, b1, s1) ∧ g a b1 s1 = (.ok r, b', s') := by
  rw [bind_def] at h
  rcases e1 : m b s with ⟨_ | a, b1, s1⟩
  · rw [e1] at h; cases h
  · rw [e1] at h; exact ⟨a, b1, s1, rfl, h⟩

theorem on_eq {get : σ → τ} {put : τ → σ → σ} {m : X τ α} {b b' : Option Fault} {s s' : σ} {r : Res α} (h : X.on get put m b s = (r, b', s')) :
    ∃ t, m b (get s) = (r, b', t) ∧ s' = put t s := by
  simp only [X.on, Prod.mk.injEq] at h
  obtain ⟨h1, h2, h3⟩ := h
  exact ⟨_, by rw [← h1, ← h2], h3.symm⟩

end X

open X

/-! ## Agreement, function by function -/

theorem Layer.forwardpropX_refines (pa : Mat ℝ) : Refines (Layer.forwardpropX pa) (fun L => L.forwardprop pa) := by
  unfold Layer.forwardpropX
  refine Refines.congr ((Refines.assign _ _).bind fun _ => (Refines.assign _ _).bind fun _ => (Refines.assign _ _).bind fun _ => Refines.eval _) ?_
  intro L
  simp only [bind_assoc, ok_bind]
  rfl

theorem Layer.backpropX_refines (d : Mat ℝ) : Refines (Layer.backpropX d) (fun L => L.backprop d) := by
  unfold Layer.backpropX
  refine Refines.congr ((Refines.assign _ _).bind fun _ => (Refines.assign _ _).bind fun _ => (Refines.assign _ _).bind fun _ =>
    (Refines.eval _).bind fun p => Refines.eval _) ?_
  intro L
  simp only [bind_assoc, ok_bind]
  rfl

theorem Layer.updateX_refines : Refines Layer.updateX (fun L => do let L ← L.update; .ok ((), L)) := by
  unfold Layer.updateX
  refine Refines.congr ((Refines.op _ _ _).bind fun _ => Refines.ret ()) ?_
  intro L
  simp only [bind_assoc, ok_bind, Layer.update]

theorem Layer.updateWithX_refines (g : Mat ℝ) : Refines (Layer.updateWithX g) (fun L => do let L ← L.updateWith g; .ok ((), L)) := by
  unfold Layer.updateWithX
  refine Refines.congr ((Refines.eval _).bind fun g => (Refines.op _ _ _).bind fun _ => Refines.ret ()) ?_
  intro L
  simp only [bind_assoc, ok_bind, Layer.updateWith]

theorem InputLayer.forwardpropX_refines (x : Mat ℝ) : Refines (InputLayer.forwardpropX x) (fun L => .ok (InputLayer.forwardprop L x)) := by
  unfold InputLayer.forwardpropX
  refine Refines.congr ((Refines.assign _ _).bind fun _ => (Refines.assign _ _).bind fun _ => Refines.eval _) ?_
  intro L
  rfl

theorem OutputLayer.forwardpropX_refines (pa : Mat ℝ) : Refines (OutputLayer.base (Layer.forwardpropX pa)) (fun o => o.forwardprop pa) :=
  (Layer.forwardpropX_refines pa).on

theorem OutputLayer.backpropX_refines (y : Mat ℝ) : Refines (OutputLayer.backpropX y) (fun o => o.backprop y) := by
  unfold OutputLayer.backpropX
  refine Refines.congr ((Refines.assign _ _).bind fun _ => (Refines.assign _ _).bind fun _ => (Refines.assign _ _).bind fun _ => (Refines.assign _ _).bind fun _ =>
    (Refines.eval _).bind fun p => Refines.eval _) ?_
  intro o
  simp only [bind_assoc, ok_bind]
  rfl

theorem HLayer.other_refines {α : Type} (f : HLayer → Res (α × HLayer)) : Refines (HLayer.other f) f := by
  unfold HLayer.other
  refine Refines.congr ((Refines.op _ _ _).bind fun r => Refines.ret r.1) ?_
  intro h
  cases f h <;> rfl

theorem HLayer.forwardpropX_refines (junk : Nat → Nat → ℝ) (pa : Mat ℝ) : Refines (HLayer.forwardpropX junk pa) (fun h => h.forwardprop junk pa) := by
  intro b h
  have h0 : HLayer.forwardpropX junk pa b h = (match h.kind with
    | .dense => HLayer.dense (Layer.forwardpropX pa)
    | _ => HLayer.other (fun h => h.forwardprop junk pa)) b h := rfl
  rw [h0]
  obtain ⟨L, k⟩ := h
  cases k with
  | dense =>
    refine (Refines.congr (Layer.forwardpropX_refines pa).on ?_ : Refines (HLayer.dense (Layer.forwardpropX pa)) (fun h => do let (r, L) ← h.base.forwardprop pa; .ok (r, ⟨L, h.kind⟩))) b _
    intro h; rfl
  | _ => exact HLayer.other_refines _ b _

theorem HLayer.backpropX_refines (junk : Nat → Nat → ℝ) (d : Mat ℝ) : Refines (HLayer.backpropX junk d) (fun h => h.backprop junk d) := by
  intro b h
  have h0 : HLayer.backpropX junk d b h = (match h.kind with
    | .dense => HLayer.dense (Layer.backpropX d)
    | _ => HLayer.other (fun h => h.backprop junk d)) b h := rfl
  rw [h0]
  obtain ⟨L, k⟩ := h
  cases k with
  | dense =>
    refine (Refines.congr (Layer.backpropX_refines d).on ?_ : Refines (HLayer.dense (Layer.backpropX d)) (fun h => do let (r, L) ← h.base.backprop d; .ok (r, ⟨L, h.kind⟩))) b _
    intro h; rfl
  | _ => exact HLayer.other_refines _ b _

theorem HLayer.updateX_refines : Refines HLayer.updateX (fun h => do let h ← h.update; .ok ((), h)) := by
  intro b h
  have h0 : HLayer.updateX b h = (match h.kind with
    | .dense => HLayer.dense Layer.updateX
    | _ => HLayer.other (fun h => do let h ← h.update; .ok ((), h))) b h := rfl
  rw [h0]
  obtain ⟨L, k⟩ := h
  cases k with
  | dense =>
    have := (Refines.congr Layer.updateX_refines.on ?_ : Refines (HLayer.dense Layer.updateX) (fun h => do let L ← h.base.update; .ok ((), (⟨L, h.kind⟩ : HLayer)))) b ⟨L, .dense⟩
    · simpa [HLayer.update, bind_assoc] using this
    · intro h; simp only [bind_assoc, ok_bind]
  | _ => exact HLayer.other_refines (fun h => do let h ← h.update; .ok ((), h)) b _

theorem HLayer.updateWithX_refines (g : Mat ℝ) : Refines (HLayer.updateWithX g) (fun h => do let h ← h.updateWith g; .ok ((), h)) := by
  intro b h
  have h0 : HLayer.updateWithX g b h = (match h.kind with
    | .dense => HLayer.dense (Layer.updateWithX g)
    | _ => HLayer.other (fun h => do let h ← h.updateWith g; .ok ((), h))) b h := rfl
  rw [h0]
  obtain ⟨L, k⟩ := h
  cases k with
  | dense =>
    have := (Refines.congr (Layer.updateWithX_refines g).on ?_ : Refines (HLayer.dense (Layer.updateWithX g)) (fun h => do let L ← h.base.updateWith g; .ok ((), (⟨L, h.kind⟩ : HLayer)))) b ⟨L, .dense⟩
    · simpa [HLayer.updateWith, bind_assoc] using this
    · intro h; simp only [bind_assoc, ok_bind]
  | _ => exact HLayer.other_refines (fun h => do let h ← h.updateWith g; .ok ((), h)) b _

namespace Net

theorem hiddenForwardX_refines (junk : Nat → Nat → ℝ) : ∀ (ps : List Nat) (c : Mat ℝ),
    Refines (hiddenForwardX junk ps c) (fun st => do let r ← hiddenForward junk ps st.1 c; .ok (r.1, (r.2, st.2)))
  | [], c => Refines.ret c
  | p :: ps, c => by
    unfold hiddenForwardX
    refine Refines.congr ((HLayer.forwardpropX_refines junk c).on.bind fun n => (Refines.eval _).bind fun n => hiddenForwardX_refines junk ps n) ?_
    intro st
    simp only [bind_assoc, ok_bind, hiddenForward]

theorem forwardpropX_refines (junk : Nat → Nat → ℝ) (x : Mat ℝ) :
    Refines (forwardpropX junk x) (fun st => do let r ← st.2.forwardprop junk st.1 x; .ok (r.1, (r.2.1, r.2.2))) := by
  unfold forwardpropX
  refine Refines.congr ((InputLayer.forwardpropX_refines x).on.bind fun c => (Refines.get _).bind fun hid => (hiddenForwardX_refines junk hid c).bind fun c =>
    (OutputLayer.forwardpropX_refines c).on.bind fun r => (Refines.assign _ _).bind fun _ => Refines.eval _) ?_
  intro st
  simp only [bind_assoc, ok_bind, forwardprop, InputLayer.forwardprop]

theorem hiddenBackwardX_refines (junk : Nat → Nat → ℝ) : ∀ (ps : List Nat) (d : Mat ℝ),
    Refines (hiddenBackwardX junk ps d) (fun st => do let r ← hiddenBackward junk ps st.1 d; .ok ((), (r, st.2)))
  | [], c => Refines.ret ()
  | p :: ps, c => by
    unfold hiddenBackwardX
    refine Refines.congr ((HLayer.backpropX_refines junk c).on.bind fun n => (Refines.eval _).bind fun n => hiddenBackwardX_refines junk ps n) ?_
    intro st
    simp only [bind_assoc, ok_bind, hiddenBackward]

theorem backpropX_refines (junk : Nat → Nat → ℝ) (y : Mat ℝ) : Refines (backpropX junk y) (fun st => do let r ← st.2.backprop junk st.1 y; .ok ((), r)) := by
  unfold backpropX
  refine Refines.congr ((OutputLayer.backpropX_refines y).on.bind fun d => (Refines.get _).bind fun hid => hiddenBackwardX_refines junk _ d) ?_
  intro st
  simp only [bind_assoc, ok_bind, backprop]

theorem hiddenUpdateX_refines : ∀ (ps : List Nat), Refines (hiddenUpdateX ps) (fun st => do let r ← hiddenUpdate ps st.1; .ok ((), (r, st.2)))
  | [] => Refines.ret ()
  | p :: ps => by
    unfold hiddenUpdateX
    refine Refines.congr (HLayer.updateX_refines.on.bind fun _ => hiddenUpdateX_refines ps) ?_
    intro st
    simp only [bind_assoc, ok_bind, hiddenUpdate]

theorem updateX_refines : Refines updateX (fun st => do let r ← st.2.update st.1; .ok ((), r)) := by
  unfold updateX
  refine Refines.congr (Layer.updateX_refines.on.on.bind fun _ => (Refines.get _).bind fun hid => hiddenUpdateX_refines hid) ?_
  intro st
  simp only [bind_assoc, ok_bind, update]

theorem hiddenUpdateWithX_refines : ∀ (ps : List Nat) (gs : List (Mat ℝ)),
    Refines (hiddenUpdateWithX ps gs) (fun st => do let r ← hiddenUpdateWith ps gs st.1; .ok ((), (r, st.2)))
  | [], _ => Refines.ret ()
  | _ :: _, [] => (Refines.eval _).congr (fun st => rfl)
  | p :: ps, g :: gs => by
    unfold hiddenUpdateWithX
    refine Refines.congr ((HLayer.updateWithX_refines g).on.bind fun _ => hiddenUpdateWithX_refines ps gs) ?_
    intro st
    simp only [bind_assoc, ok_bind, hiddenUpdateWith]

theorem updateWithX_refines (og : Mat ℝ) (hg : List (Mat ℝ)) : Refines (updateWithX og hg) (fun st => do let r ← st.2.updateWith st.1 og hg; .ok ((), r)) := by
  unfold updateWithX
  refine Refines.congr ((Layer.updateWithX_refines og).on.on.bind fun _ => (Refines.get _).bind fun hid => hiddenUpdateWithX_refines hid hg) ?_
  intro st
  simp only [bind_assoc, ok_bind, updateWith]

theorem predictX_refines (junk : Nat → Nat → ℝ) (x : Mat ℝ) :
    Refines (predictX junk x) (fun st => do let r ← st.2.predict junk st.1 x; .ok (r.1, (r.2.1, r.2.2))) := by
  unfold predictX
  refine Refines.congr ((forwardpropX_refines junk x).bind fun r => (Refines.assign _ _).bind fun _ => Refines.eval _) ?_
  intro st
  simp only [bind_assoc, ok_bind, predict]

theorem trainOnX_refines (junk : Nat → Nat → ℝ) (x y : Mat ℝ) : Refines (trainOnX junk x y) (fun st => do let r ← st.2.trainOn junk st.1 x y; .ok ((), r)) := by
  unfold trainOnX
  refine Refines.congr ((forwardpropX_refines junk x).bind fun _ => (backpropX_refines junk y).bind fun _ => updateX_refines) ?_
  intro st
  simp only [bind_assoc, ok_bind, trainOn]

end Net

theorem Trainer.feeddataX_refines (junk : Nat → Nat → ℝ) (x y : Mat ℝ) : Refines (Trainer.feeddataX junk x y) (fun st => do let r ← st.2.feeddata junk st.1 x y; .ok ((), r)) := by
  unfold Trainer.feeddataX
  refine Refines.congr ((Refines.modify _).bind fun _ => (Refines.modify _).bind fun _ => (Net.trainOnX_refines junk x y).on) ?_
  intro st
  simp only [bind_assoc, ok_bind, Trainer.feeddata, put_nets, put_put]
  rfl

theorem SGD.feeddataX_refines (junk : Nat → Nat → ℝ) (x y : Mat ℝ) : Refines (SGD.feeddataX junk x y) (fun st => do let r ← SGD.feeddata junk st.1 st.2 x y; .ok ((), r)) := by
  unfold SGD.feeddataX
  refine Refines.congr ((Refines.modify _).bind fun _ => (Refines.modify _).bind fun _ => (Refines.loop (fun i => (Refines.eval _).bind fun xi => (Net.forwardpropX_refines junk xi).bind fun _ =>
    (Refines.eval _).bind fun yi => (Net.backpropX_refines junk yi).bind fun _ => Net.updateX_refines) _).on) ?_
  intro st
  have hu : ∀ (r : Res (Store × Net)), (r >>= fun r => Except.ok r) = r := fun r => by cases r <;> rfl
  simp only [bind_assoc, ok_bind, SGD.feeddata, SGD.trainRows, put_nets, put_put, hu]
  rfl

/-! ## Batch trainer -/

/-- One iteration of the loop of `BatchTrainer::feeddata` on the whole state. -/
def batchStep (junk : Nat → Nat → ℝ) (tx ty : Mat ℝ) (b : Nat) (t : Nat) (st : World × BatchTrainer) : Res (World × BatchTrainer) := do
  let xi ← tx.rows ((t * b : Nat) : Int) (((t * b : Nat) : Int) + b - 1)
  let r ← (st.1.nets st.2.nnet).forwardprop junk st.1.store xi
  let yi ← ty.rows ((t * b : Nat) : Int) (((t * b : Nat) : Int) + b - 1)
  let r ← r.2.2.backprop junk r.2.1 yi
  let r ← r.2.update r.1
  .ok (st.1.put st.2.nnet r.1 r.2, { st.2 with toTrainer := st.2.toTrainer.count })

theorem batchStep_loop (junk : Nat → Nat → ℝ) (tx ty : Mat ℝ) (b : Nat) (w : World) (t : BatchTrainer) : ∀ n,
    loop n (batchStep junk tx ty b) (w, t) = (do
      let r ← loop n (fun t (st : Nat × Store × Net) => do
        let start : Int := (t * b : Nat)
        let xi ← tx.rows start (start + b - 1)
        let (_, s, n) ← st.2.2.forwardprop junk st.2.1 xi
        let yi ← ty.rows start (start + b - 1)
        let (s, n) ← n.backprop junk s yi
        let (s, n) ← n.update s
        .ok ((st.1 + 1) % 2 ^ 64, s, n)) (t.iters, w.store, w.nets t.nnet)
      .ok (w.put t.nnet r.2.1 r.2.2, { t with iters := r.1 }))
  | 0 => by
    show Except.ok (w, t) = Except.ok (w.put t.nnet w.store (w.nets t.nnet), t)
    rw [put_self]
  | n + 1 => by
    unfold loop
    rw [batchStep_loop junk tx ty b w t n]
    simp only [bind_assoc, ok_bind, batchStep, put_nets, put_put]
    rfl

theorem BatchTrainer.feeddataX_refines (junk : Nat → Nat → ℝ) (x y : Mat ℝ) : Refines (BatchTrainer.feeddataX junk x y) (fun st => do let r ← st.2.feeddata junk st.1 x y; .ok ((), r)) := by
  unfold BatchTrainer.feeddataX
  refine Refines.congr ((Refines.assign _ _).bind fun _ => (Refines.assign _ _).bind fun _ => (Refines.get _).bind fun bs => (Refines.eval _).bind fun tx => (Refines.eval _).bind fun ty =>
    (Refines.loop (f := fun i st => do let r ← batchStep junk tx ty bs.toNat i st; .ok ((), r)) (fun i => Refines.congr ((Refines.eval _).bind fun xi => (Net.forwardpropX_refines junk xi).on.bind fun _ =>
      (Refines.eval _).bind fun yi => (Net.backpropX_refines junk yi).on.bind fun _ => Net.updateX_refines.on.bind fun _ => Refines.modify _) ?_) _).bind fun _ => Refines.modify _) ?_
  · intro st
    simp only [bind_assoc, ok_bind, batchStep, put_nets, put_put]
    rfl
  · intro st
    have hu : ∀ (r : Res (World × BatchTrainer)), (r >>= fun r => Except.ok r) = r := fun r => by cases r <;> rfl
    simp only [bind_assoc, ok_bind, BatchTrainer.feeddata, BatchTrainer.trainBatches, hu, batchStep_loop, put_nets, put_put]
    rfl

/-! ## Momentum trainer -/

/-- The loop over `hgrads` on the whole state. -/
def mixGo : (i n : Nat) → World × MomentumTrainer → Res (World × MomentumTrainer)
  | _, 0, st => .ok st
  | i, n + 1, st => do
    let h ← (st.1.nets st.2.nnet).gethidden st.1.store i
    let old ← vecAt st.2.hgrads i
    let m ← MomentumTrainer.mix st.2.momentum st.2.iters old h.grad
    mixGo (i + 1) n (st.1, { st.2 with hgrads := st.2.hgrads.set i m })

theorem mixAllX_refines : ∀ i n : Nat, Refines (MomentumTrainer.mixAllX i n) (fun st => do let r ← mixGo i n st; .ok ((), r))
  | _, 0 => Refines.ret ()
  | i, n + 1 => by
    unfold MomentumTrainer.mixAllX
    refine Refines.congr ((Refines.eval _).bind fun h => (Refines.eval _).bind fun old => (Refines.assign _ _).bind fun _ => mixAllX_refines (i + 1) n) ?_
    intro st
    simp only [bind_assoc, ok_bind, mixGo]

theorem mixGo_eq (w : World) : ∀ (gs ds : List (Mat ℝ)) (t : MomentumTrainer), t.hgrads = ds ++ gs →
    mixGo ds.length gs.length (w, t) = (do
      let hs ← MomentumTrainer.mixAll t.momentum t.iters w.store (w.nets t.nnet) ds.length gs
      .ok (w, { t with hgrads := ds ++ hs }))
  | [], ds, t, h => by
    show Except.ok (w, t) = Except.ok (w, { t with hgrads := ds ++ [] })
    rw [← h]
  | g :: gs, ds, t, h => by
    have hg : vecAt t.hgrads (ds.length : Int) = .ok g := by
      refine vecAt_some ?_
      rw [h, List.getElem?_append_right (by omega)]
      simp
    show (do
      let h ← (w.nets t.nnet).gethidden w.store ds.length
      let old ← vecAt t.hgrads (ds.length : Int)
      let m ← MomentumTrainer.mix t.momentum t.iters old h.grad
      mixGo (ds.length + 1) gs.length (w, { t with hgrads := t.hgrads.set ds.length m })) = _
    unfold MomentumTrainer.mixAll
    simp only [hg, bind_assoc, ok_bind]
    congr 1
    funext hl
    congr 1
    funext m
    have := mixGo_eq w gs (ds ++ [m]) { t with hgrads := t.hgrads.set ds.length m } (by simp [h])
    rw [List.length_append] at this
    simp only [List.length_cons, List.length_nil, Nat.zero_add] at this
    rw [this]
    simp only [List.append_assoc, List.singleton_append]

theorem MomentumTrainer.feeddataX_refines (junk : Nat → Nat → ℝ) (x y : Mat ℝ) :
    Refines (MomentumTrainer.feeddataX junk x y) (fun st => do let r ← st.2.feeddata junk st.1 x y; .ok ((), r)) := by
  unfold MomentumTrainer.feeddataX
  refine Refines.congr ((Refines.modify _).bind fun _ => (Refines.modify _).bind fun _ => (Net.forwardpropX_refines junk x).on.bind fun _ => (Net.backpropX_refines junk y).on.bind fun _ =>
    (Refines.assign _ _).bind fun _ => (Refines.get _).bind fun n => (mixAllX_refines 0 n).bind fun _ => (Refines.get _).bind fun og => (Refines.get _).bind fun hg =>
    (Net.updateWithX_refines og hg).on) ?_
  intro st
  have key : ∀ (w : World) (t : MomentumTrainer), mixGo 0 t.hgrads.length (w, t) = (do
      let hs ← MomentumTrainer.mixAll t.momentum t.iters w.store (w.nets t.nnet) 0 t.hgrads
      .ok (w, { t with hgrads := hs })) := fun w t => mixGo_eq w t.hgrads [] t rfl
  simp only [bind_assoc, ok_bind, MomentumTrainer.feeddata, put_nets, put_put, key]
  rfl

end
end Nnet.NN
