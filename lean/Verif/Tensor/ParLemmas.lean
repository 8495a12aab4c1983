import Verif.Tensor.Spec
import Verif.CoreLemmas
import Mathlib.Data.List.Perm.Basic
import Mathlib.Data.List.Perm.Lattice
/-!
# Parallel loops: determinism and absence of data races
-/
namespace Nnet.Tensor
variable {R : Type}

/-! ## Heap access -/

theorem access_some {h : Heap R} {p : Ptr} {i : Int} {q k : Nat} (ha : h.access p i = .ok (q, k)) :
    p = some q ∧ i = (k : Int) ∧ ∃ b, h.blocks[q]? = some b ∧ b.live = true ∧ k < b.cells.length := by
  unfold Heap.access at ha
  cases p with
  | none => cases ha
  | some p =>
    simp only at ha
    cases hb : h.blocks[p]? with
    | none => simp [hb] at ha
    | some b =>
      simp only [hb] at ha
      split at ha
      · rename_i hl
        split at ha
        · rename_i hk
          simp only [Except.ok.injEq, Prod.mk.injEq] at ha
          obtain ⟨rfl, rfl⟩ := ha
          exact ⟨rfl, by omega, b, hb, hl, hk.2⟩
        · cases ha
      · cases ha

theorem access_ok {h : Heap R} {q k : Nat} {b : Block R} (hb : h.blocks[q]? = some b) (hl : b.live = true)
    (hk : k < b.cells.length) : h.access (some q) (k : Int) = .ok (q, k) := by
  simp [Heap.access, hb, hl, hk]

theorem access_cases (h : Heap R) (p : Ptr) (i : Int) :
    (∃ q k, h.access p i = .ok (q, k)) ∨ ∃ e, h.access p i = .error e := by
  cases h.access p i with
  | ok x => exact .inl ⟨x.1, x.2, rfl⟩
  | error e => exact .inr ⟨e, rfl⟩

theorem access_poke (h : Heap R) (q k : Nat) (v : R) (p : Ptr) (i : Int) : (h.poke q k v).access p i = h.access p i := by
  unfold Heap.access Heap.poke
  cases p with
  | none => rfl
  | some p =>
    simp only [List.getElem?_modify]
    cases hb : h.blocks[p]? with
    | none => simp
    | some b =>
      by_cases hq : q = p
      · simp [hq]
      · simp [hq]

theorem cell_poke_ne (h : Heap R) {q k : Nat} (v : R) {q' k' : Nat} (hne : ¬(q = q' ∧ k = k')) :
    (h.poke q k v).cell q' k' = h.cell q' k' := by
  unfold Heap.cell Heap.poke
  simp only [List.getElem?_modify]
  cases hb : h.blocks[q']? with
  | none => simp
  | some b =>
    by_cases hq : q = q'
    · have : k ≠ k' := fun h => hne ⟨hq, h⟩
      simp [hq, List.getElem?_set_ne this]
    · simp [hq]

theorem poke_comm (h : Heap R) {q k : Nat} {v : R} {q' k' : Nat} {v' : R} (hne : ¬(q = q' ∧ k = k')) :
    (h.poke q k v).poke q' k' v' = (h.poke q' k' v').poke q k v := by
  unfold Heap.poke
  congr 1
  apply List.ext_getElem?
  intro j
  simp only [List.getElem?_modify]
  cases hb : h.blocks[j]? with
  | none => simp
  | some b =>
    by_cases h1 : q = j <;> by_cases h2 : q' = j
    · have : k ≠ k' := fun h => hne ⟨h1.trans h2.symm, h⟩
      simp [h1, h2, List.set_comm _ _ this]
    · simp [h1, h2]
    · simp [h1, h2]
    · simp [h1, h2]

/-! ## Outcome of an iteration run on a fixed heap -/

/-- The values read by an iteration. -/
def readAll (h : Heap R) (cs : List Cell) : Res (List R) := cs.mapM (fun c => h.read c.ptr c.idx)

/-- What an iteration in progress will store, if it runs alone from heap `h` on. -/
def Thread.outcome (h : Heap R) (th : Thread R) : Res (Option (Nat × Nat × R)) := do
  let vs ← readAll h th.pend
  match th.it.write (th.got ++ vs) with
  | none => .ok none
  | some v => do
    let (q, k) ← h.access th.it.target.ptr th.it.target.idx
    .ok (some (q, k, v))

/-- Performs a store. -/
def applyOut (h : Heap R) (o : Option (Nat × Nat × R)) : Heap R :=
  match o with
  | none => h
  | some (q, k, v) => h.poke q k v

/-- Total version of `outcome`, for iterations that succeed. -/
def Thread.out (h : Heap R) (th : Thread R) : Option (Nat × Nat × R) :=
  match th.outcome h with
  | .ok o => o
  | .error _ => none

/-- Two iterations do not interfere. -/
def NI (a b : Iter R) : Prop := a.target ≠ b.target ∧ a.target ∉ b.reads ∧ b.target ∉ a.reads

theorem NI.symm {a b : Iter R} (h : NI a b) : NI b a := ⟨h.1.symm, h.2.2, h.2.1⟩

/-- No iteration writes an element that another iteration reads or writes. -/
def RaceFree (its : List (Iter R)) : Prop := its.Pairwise NI

theorem read_poke_ne {h : Heap R} {q k : Nat} {v : R} {c : Cell} (hne : c ≠ ⟨some q, (k : Int)⟩) :
    (h.poke q k v).read c.ptr c.idx = h.read c.ptr c.idx := by
  unfold Heap.read
  rw [access_poke]
  cases ha : h.access c.ptr c.idx with
  | error e => simp
  | ok x =>
    obtain ⟨q', k'⟩ := x
    obtain ⟨h1, h2, -⟩ := access_some ha
    have : ¬(q = q' ∧ k = k') := by
      rintro ⟨rfl, rfl⟩; apply hne; cases c; simp_all
    simp [cell_poke_ne h v this]

theorem readAll_poke_ne {h : Heap R} {q k : Nat} {v : R} {cs : List Cell} (hne : (⟨some q, (k : Int)⟩ : Cell) ∉ cs) :
    readAll (h.poke q k v) cs = readAll h cs := by
  unfold readAll
  induction cs with
  | nil => rfl
  | cons c cs ih =>
    simp only [List.mem_cons, not_or] at hne
    rw [mapM_cons', mapM_cons', ih hne.2, read_poke_ne (Ne.symm hne.1)]

theorem outcome_poke_ne {h : Heap R} {q k : Nat} {v : R} {th : Thread R} (hne : (⟨some q, (k : Int)⟩ : Cell) ∉ th.pend) :
    th.outcome (h.poke q k v) = th.outcome h := by
  unfold Thread.outcome
  rw [readAll_poke_ne hne, access_poke]

theorem readAll_cons (h : Heap R) (c : Cell) (cs : List Cell) :
    readAll h (c :: cs) = (h.read c.ptr c.idx >>= fun v => readAll h cs >>= fun vs => .ok (v :: vs)) :=
  mapM_cons' _ _ _

/-- Reading one element does not change what the iteration will do. -/
theorem outcome_read {h : Heap R} {th : Thread R} {c : Cell} {cs : List Cell} {v : R} (hp : th.pend = c :: cs)
    (hv : h.read c.ptr c.idx = .ok v) :
    (⟨th.id, th.it, cs, th.got ++ [v]⟩ : Thread R).outcome h = th.outcome h := by
  unfold Thread.outcome
  rw [hp, readAll_cons, hv, ok_bind]
  cases hr : readAll h cs with
  | error e => simp
  | ok vs => simp [List.append_assoc]

theorem out_target {h : Heap R} {th : Thread R} {q k : Nat} {v : R} (ho : th.out h = some (q, k, v)) :
    th.it.target = ⟨some q, (k : Int)⟩ := by
  unfold Thread.out Thread.outcome at ho
  cases hr : readAll h th.pend with
  | error e => simp [hr] at ho
  | ok vs =>
    simp only [hr, ok_bind] at ho
    cases hw : th.it.write (th.got ++ vs) with
    | none => simp [hw] at ho
    | some v =>
      simp only [hw] at ho
      cases ha : h.access th.it.target.ptr th.it.target.idx with
      | error e => simp [ha] at ho
      | ok x =>
        obtain ⟨q', k'⟩ := x
        obtain ⟨h1, h2, -⟩ := access_some ha
        simp [ha] at ho
        obtain ⟨rfl, rfl, rfl⟩ := ho
        generalize th.it.target = t at *; cases t; simp_all

theorem applyOut_comm {h0 : Heap R} {a b : Thread R} (hn : NI a.it b.it) (h : Heap R) :
    applyOut (applyOut h (a.out h0)) (b.out h0) = applyOut (applyOut h (b.out h0)) (a.out h0) := by
  cases ha : a.out h0 with
  | none => simp [applyOut]
  | some x =>
    cases hb : b.out h0 with
    | none => simp [applyOut]
    | some y =>
      obtain ⟨q, k, v⟩ := x
      obtain ⟨q', k', v'⟩ := y
      have h1 := out_target ha
      have h2 := out_target hb
      simp only [applyOut]
      apply poke_comm
      rintro ⟨rfl, rfl⟩
      exact hn.1 (h1.trans h2.symm)

/-- Effect of all iterations. -/
def applyAll (h0 : Heap R) (ths : List (Thread R)) : Heap R := (ths.map (Thread.out h0)).foldl applyOut h0

theorem foldl_out_perm {h0 : Heap R} {l l' : List (Thread R)} (hp : l.Perm l')
    (hn : l.Pairwise (fun a b => NI a.it b.it)) (h : Heap R) :
    (l.map (Thread.out h0)).foldl applyOut h = (l'.map (Thread.out h0)).foldl applyOut h := by
  induction hp generalizing h with
  | nil => rfl
  | cons x _ ih =>
    rw [List.pairwise_cons] at hn
    simp only [List.map_cons, List.foldl_cons]
    exact ih hn.2 _
  | swap x y l =>
    simp only [List.map_cons, List.foldl_cons]
    rw [List.pairwise_cons] at hn
    rw [applyOut_comm (hn.1 x (by simp))]
  | trans h1 h2 ih1 ih2 =>
    have hn' := (h1.pairwise_iff (fun {a b} (h : NI a.it b.it) => h.symm)).1 hn
    rw [ih1 hn, ih2 hn']

/-! ## The executor -/

/-- No access in the log can conflict with a future access of these threads. -/
def LogOK (log : List Acc) (ths : List (Thread R)) : Prop :=
  ∀ a ∈ log, ∀ th ∈ ths, a.id = th.id ∨
    ((⟨some a.blk, (a.off : Int)⟩ : Cell) ≠ th.it.target ∧ (a.wr = true → (⟨some a.blk, (a.off : Int)⟩ : Cell) ∉ th.it.reads))

/-- Steps left. -/
def work (ths : List (Thread R)) : Nat := (ths.map (fun t => t.pend.length + 1)).sum

theorem work_perm {l l' : List (Thread R)} (h : l.Perm l') : work l = work l' := (h.map _).sum_eq

theorem set_perm' {α : Type _} (l : List α) (k : Nat) (hk : k < l.length) (a : α) :
    (l.set k a).Perm (a :: l.eraseIdx k) := by
  rw [List.set_eq_take_cons_drop _ hk, List.eraseIdx_eq_take_drop_succ]
  exact List.perm_middle

/-- Condition on a running loop. -/
structure LoopInv (log : List Acc) (ths : List (Thread R)) : Prop where
  ni : ths.Pairwise (fun a b => NI a.it b.it)
  sub : ∀ th ∈ ths, ∀ c ∈ th.pend, c ∈ th.it.reads
  log : LogOK log ths

theorem noConflict {log : List Acc} {th : Thread R} {a : Acc}
    (hl : ∀ b ∈ log, b.id = th.id ∨
      ((⟨some b.blk, (b.off : Int)⟩ : Cell) ≠ th.it.target ∧ (b.wr = true → (⟨some b.blk, (b.off : Int)⟩ : Cell) ∉ th.it.reads)))
    (hid : a.id = th.id)
    (ha : (a.wr = false ∧ (⟨some a.blk, (a.off : Int)⟩ : Cell) ∈ th.it.reads) ∨
      (⟨some a.blk, (a.off : Int)⟩ : Cell) = th.it.target) :
    log.any (fun b => a.conflict b) = false := by
  rw [List.any_eq_false]
  intro b hb
  simp only [Acc.conflict, Bool.and_eq_true, decide_eq_true_eq, Bool.or_eq_true, not_and, not_or, and_imp, Bool.not_eq_true]
  intro h1 h2 h3
  rcases hl b hb with h | ⟨h4, h5⟩
  · exact absurd (hid.trans h.symm) h1
  · rw [← h2, ← h3] at h4 h5
    rcases ha with ⟨h6, h7⟩ | h6
    · refine ⟨h6, ?_⟩
      cases hw : b.wr with
      | false => rfl
      | true => exact absurd h7 (h5 hw)
    · exact absurd h6 h4

/-- Every schedule of non-interfering iterations that can all complete completes, with the combined effect of the stores. -/
theorem runThreads_ok (σ : Sched) (fuel : Nat) : ∀ (s : Nat) (h : Heap R) (log : List Acc) (ths : List (Thread R)),
    work ths ≤ fuel → LoopInv log ths → (∀ th ∈ ths, ∃ o, th.outcome h = .ok o) →
    runThreads σ fuel s h log ths = .ok (applyAll h ths) := by
  induction fuel with
  | zero =>
    intro s h log ths hw _ _
    cases ths with
    | nil => simp [runThreads, applyAll]
    | cons th ths => simp [work] at hw
  | succ fuel ih =>
    intro s h log ths hw hinv hok
    cases ths with
    | nil => simp [runThreads, applyAll]
    | cons th0 ths0 =>
      generalize hall : th0 :: ths0 = all at *
      have hlen : 0 < all.length := by rw [← hall]; simp
      unfold runThreads
      subst hall
      simp only
      generalize hk : σ s % (th0 :: ths0).length = k
      have hklt : k < (th0 :: ths0).length := hk ▸ Nat.mod_lt _ hlen
      generalize th0 :: ths0 = all at *
      rw [List.getElem?_eq_getElem hklt]
      simp only
      generalize ht : all[k] = t
      have htm : t ∈ all := ht ▸ List.getElem_mem _
      have hperm : (t :: all.eraseIdx k).Perm all := by rw [← ht]; exact List.getElem_cons_eraseIdx_perm hklt
      have hsymm : ∀ {a b : Thread R}, NI a.it b.it → NI b.it a.it := fun h => h.symm
      have hni := (hperm.pairwise_iff hsymm).2 hinv.ni
      have hni' := List.pairwise_cons.1 hni
      have hwork : t.pend.length + 1 + work (all.eraseIdx k) ≤ fuel + 1 := by
        rw [← work_perm hperm] at hw; simpa [work] using hw
      have hmemE : ∀ th ∈ all.eraseIdx k, th ∈ all := fun th h => hperm.subset (List.mem_cons_of_mem _ h)
      obtain ⟨o, ho⟩ := hok t htm
      have hlogt := fun b hb => hinv.log b hb t htm
      cases hp : t.pend with
      | cons c cs =>
        -- a read
        have hrd : ∃ v, h.read c.ptr c.idx = .ok v := by
          unfold Thread.outcome at ho
          rw [hp, readAll_cons] at ho
          cases hv : h.read c.ptr c.idx with
          | ok v => exact ⟨v, rfl⟩
          | error e => simp [hv] at ho
        obtain ⟨v, hv⟩ := hrd
        have hac : ∃ q k', h.access c.ptr c.idx = .ok (q, k') := by
          rcases access_cases h c.ptr c.idx with h1 | ⟨e, h1⟩
          · exact h1
          · simp [Heap.read, h1] at hv
        obtain ⟨q, k', hac⟩ := hac
        have hcell : (⟨some q, (k' : Int)⟩ : Cell) = c := by
          obtain ⟨h1, h2, -⟩ := access_some hac; cases c; simp_all
        have hstep : t.step h = .ok (h, some ⟨t.id, q, k', false⟩, some ⟨t.id, t.it, cs, t.got ++ [v]⟩) := by
          unfold Thread.step; simp [hp, hac, hv]
        have hcr : c ∈ t.it.reads := hinv.sub t htm c (by simp [hp])
        have hnc := noConflict (a := ⟨t.id, q, k', false⟩) hlogt rfl (.inl ⟨rfl, by rw [hcell]; exact hcr⟩)
        simp only [hstep, ok_bind, Option.toList, List.any_cons, hnc, List.any_nil, Bool.or_false, Bool.false_eq_true, if_false]
        set t' : Thread R := ⟨t.id, t.it, cs, t.got ++ [v]⟩ with ht'
        have hperm' := set_perm' all k hklt t'
        have hni2 : (t' :: all.eraseIdx k).Pairwise (fun a b => NI a.it b.it) := by
          rw [List.pairwise_cons]; exact hni'
        rw [ih]
        · -- effects agree
          congr 1
          unfold applyAll
          have e1 : (t'.out h) = t.out h := by unfold Thread.out; rw [outcome_read hp hv]
          rw [foldl_out_perm hperm' ((hperm'.pairwise_iff hsymm).2 hni2), ← foldl_out_perm hperm hni]
          simp [e1]
        · rw [work_perm hperm']
          have : work (t' :: all.eraseIdx k) = cs.length + 1 + work (all.eraseIdx k) := by simp [work, ht']
          rw [this]; simp [hp] at hwork; omega
        · refine ⟨(hperm'.pairwise_iff hsymm).2 hni2, ?_, ?_⟩
          · intro th hth
            rcases List.mem_cons.1 (hperm'.subset hth) with rfl | hth
            · intro d hd; exact hinv.sub t htm d (by simp [hp]; right; exact hd)
            · exact hinv.sub th (hmemE th hth)
          · intro a ha th hth
            rcases List.mem_cons.1 (hperm'.subset hth) with rfl | hth
            · rcases List.mem_append.1 ha with ha | ha
              · left; simp at ha; rw [ha]
              · exact hlogt a ha
            · rcases List.mem_append.1 ha with ha | ha
              · simp at ha; subst ha
                right
                refine ⟨?_, by simp⟩
                simp only; rw [hcell]
                intro he; exact (hni'.1 th hth).2.2 (he ▸ hcr)
              · exact hinv.log a ha th (hmemE th hth)
        · intro th hth
          rcases List.mem_cons.1 (hperm'.subset hth) with rfl | hth
          · rw [outcome_read hp hv]; exact ⟨o, ho⟩
          · exact hok th (hmemE th hth)
      | nil =>
        have hinvE : ∀ log', (∀ a ∈ log', a ∈ log ∨ ∀ th ∈ all.eraseIdx k, a.id = th.id ∨
            ((⟨some a.blk, (a.off : Int)⟩ : Cell) ≠ th.it.target ∧
              (a.wr = true → (⟨some a.blk, (a.off : Int)⟩ : Cell) ∉ th.it.reads))) → LoopInv log' (all.eraseIdx k) := by
          intro log' hl
          refine ⟨hni'.2, fun th hth => hinv.sub th (hmemE th hth), fun a ha th hth => ?_⟩
          rcases hl a ha with h1 | h1
          · exact hinv.log a h1 th (hmemE th hth)
          · exact h1 th hth
        have hwE : work (all.eraseIdx k) ≤ fuel := by simp [hp] at hwork; omega
        cases hwv : t.it.write t.got with
        | none =>
          have hstep : t.step h = .ok (h, none, none) := by unfold Thread.step; simp [hp, hwv]
          simp only [hstep, ok_bind, Option.toList, List.any_nil, Bool.false_eq_true, if_false, List.nil_append]
          rw [ih _ _ _ _ hwE (hinvE log (fun a ha => .inl ha)) (fun th hth => hok th (hmemE th hth))]
          congr 1
          unfold applyAll
          rw [← foldl_out_perm hperm hni]
          have : t.out h = none := by unfold Thread.out Thread.outcome; simp [hp, readAll, hwv]
          simp [this, applyOut]
        | some v =>
          have hac : ∃ q k', h.access t.it.target.ptr t.it.target.idx = .ok (q, k') := by
            rcases access_cases h t.it.target.ptr t.it.target.idx with h1 | ⟨e, h1⟩
            · exact h1
            · unfold Thread.outcome at ho; simp [hp, readAll, hwv, h1] at ho
          obtain ⟨q, k', hac⟩ := hac
          have hout : t.out h = some (q, k', v) := by
            unfold Thread.out Thread.outcome; simp [hp, readAll, hwv, hac]
          have htgt := out_target hout
          have hstep : t.step h = .ok (h.poke q k' v, some ⟨t.id, q, k', true⟩, none) := by
            unfold Thread.step; simp [hp, hwv, hac, Heap.write]
          have hnc := noConflict (a := ⟨t.id, q, k', true⟩) hlogt rfl (.inr htgt.symm)
          simp only [hstep, ok_bind, Option.toList, List.any_cons, hnc, List.any_nil, Bool.or_false, Bool.false_eq_true, if_false]
          have hkeep : ∀ th ∈ all.eraseIdx k, th.outcome (h.poke q k' v) = th.outcome h := by
            intro th hth
            apply outcome_poke_ne
            intro hc
            apply (hni'.1 th hth).2.1
            rw [htgt]; exact hinv.sub th (hmemE th hth) _ hc
          rw [ih _ _ _ _ hwE]
          · congr 1
            unfold applyAll
            rw [← foldl_out_perm hperm hni]
            simp only [List.map_cons, List.foldl_cons, hout, applyOut]
            congr 1
            apply List.map_congr_left
            intro th hth
            unfold Thread.out; rw [hkeep th hth]
          · apply hinvE
            intro a ha
            rcases List.mem_append.1 ha with ha | ha
            · right
              intro th hth
              simp at ha; subst ha
              right
              simp only; rw [← htgt]
              exact ⟨(hni'.1 th hth).1, fun _ => (hni'.1 th hth).2.1⟩
            · exact .inl ha
          · intro th hth
            obtain ⟨o, ho⟩ := hok th (hmemE th hth)
            exact ⟨o, by rw [hkeep th hth, ho]⟩

/-- Conversely, if some schedule completes, then every iteration can complete from the initial heap. -/
theorem runThreads_imp (σ : Sched) (fuel : Nat) : ∀ (s : Nat) (h h' : Heap R) (log : List Acc) (ths : List (Thread R)),
    ths.Pairwise (fun a b => NI a.it b.it) → (∀ th ∈ ths, ∀ c ∈ th.pend, c ∈ th.it.reads) →
    runThreads σ fuel s h log ths = .ok h' → ∀ th ∈ ths, ∃ o, th.outcome h = .ok o := by
  induction fuel with
  | zero =>
    intro s h h' log ths _ _ hr
    cases ths with
    | nil => simp
    | cons th ths => simp [runThreads] at hr
  | succ fuel ih =>
    intro s h h' log ths hni hsub hr
    cases ths with
    | nil => simp
    | cons th0 ths0 =>
      have hlen : 0 < (th0 :: ths0).length := by simp
      unfold runThreads at hr
      simp only at hr
      generalize hk : σ s % (th0 :: ths0).length = k at hr
      have hklt : k < (th0 :: ths0).length := hk ▸ Nat.mod_lt _ hlen
      generalize th0 :: ths0 = all at *
      rw [List.getElem?_eq_getElem hklt] at hr
      simp only at hr
      generalize ht : all[k] = t at hr
      have htm : t ∈ all := ht ▸ List.getElem_mem _
      have hperm : (t :: all.eraseIdx k).Perm all := by rw [← ht]; exact List.getElem_cons_eraseIdx_perm hklt
      have hsymm : ∀ {a b : Thread R}, NI a.it b.it → NI b.it a.it := fun h => h.symm
      have hni1 := (hperm.pairwise_iff hsymm).2 hni
      have hni' := List.pairwise_cons.1 hni1
      have hmemE : ∀ th ∈ all.eraseIdx k, th ∈ all := fun th h => hperm.subset (List.mem_cons_of_mem _ h)
      have key : (∃ o, t.outcome h = .ok o) ∧ ∀ th ∈ all.eraseIdx k, ∃ o, th.outcome h = .ok o := by
        cases hstep : t.step h with
        | error e => simp [hstep] at hr
        | ok x =>
          obtain ⟨h1, a, r⟩ := x
          simp only [hstep, ok_bind] at hr
          split at hr
          · cases hr
          cases hp : t.pend with
          | cons c cs =>
            unfold Thread.step at hstep
            rw [hp] at hstep
            simp only at hstep
            cases hac : h.access c.ptr c.idx with
            | error e => simp [hac] at hstep
            | ok y =>
              cases hv : h.read c.ptr c.idx with
              | error e => simp [hac, hv] at hstep
              | ok v =>
                simp only [hac, hv, ok_bind, pure_eq_ok, Except.ok.injEq, Prod.mk.injEq] at hstep
                obtain ⟨rfl, rfl, rfl⟩ := hstep
                simp only at hr
                set t' : Thread R := ⟨t.id, t.it, cs, t.got ++ [v]⟩ with ht'
                have hperm' := set_perm' all k hklt t'
                have hni2 : (t' :: all.eraseIdx k).Pairwise (fun a b => NI a.it b.it) := by
                  rw [List.pairwise_cons]; exact hni'
                have := ih _ _ _ _ _ ((hperm'.pairwise_iff hsymm).2 hni2) (by
                  intro th hth
                  rcases List.mem_cons.1 (hperm'.subset hth) with rfl | hth
                  · intro d hd; exact hsub t htm d (by simp [hp]; right; exact hd)
                  · exact hsub th (hmemE th hth)) hr
                refine ⟨?_, fun th hth => this th (hperm'.symm.subset (List.mem_cons_of_mem _ hth))⟩
                obtain ⟨o, ho⟩ := this t' (hperm'.symm.subset (List.mem_cons_self))
                rw [outcome_read hp hv] at ho
                exact ⟨o, ho⟩
          | nil =>
            unfold Thread.step at hstep
            rw [hp] at hstep
            simp only at hstep
            cases hwv : t.it.write t.got with
            | none =>
              simp only [hwv, pure_eq_ok, Except.ok.injEq, Prod.mk.injEq] at hstep
              obtain ⟨rfl, rfl, rfl⟩ := hstep
              refine ⟨⟨none, by unfold Thread.outcome; simp [hp, readAll, hwv]⟩, ?_⟩
              exact ih _ _ _ _ _ hni'.2 (fun th hth => hsub th (hmemE th hth)) hr
            | some v =>
              simp only [hwv] at hstep
              cases hac : h.access t.it.target.ptr t.it.target.idx with
              | error e => simp [hac] at hstep
              | ok y =>
                obtain ⟨q, k'⟩ := y
                simp only [hac, ok_bind, Heap.write, pure_eq_ok, Except.ok.injEq, Prod.mk.injEq] at hstep
                obtain ⟨rfl, rfl, rfl⟩ := hstep
                have ho : t.outcome h = .ok (some (q, k', v)) := by
                  unfold Thread.outcome; simp [hp, readAll, hwv, hac]
                have hout : t.out h = some (q, k', v) := by simp [Thread.out, ho]
                have htgt := out_target hout
                refine ⟨⟨_, ho⟩, fun th hth => ?_⟩
                obtain ⟨o, ho⟩ := ih _ _ _ _ _ hni'.2 (fun th hth => hsub th (hmemE th hth)) hr th hth
                refine ⟨o, ?_⟩
                rw [← ho]
                symm
                apply outcome_poke_ne
                intro hc
                apply (hni'.1 th hth).2.1
                rw [htgt]; exact hsub th (hmemE th hth) _ hc
      intro th hth
      rcases List.mem_cons.1 (hperm.symm.subset hth) with rfl | hth
      · exact key.1
      · exact key.2 th hth

/-! ## Whole loops -/

/-- The threads of a loop. -/
def startAll (its : List (Iter R)) : List (Thread R) := its.mapIdx (fun i it => Thread.start it i)

theorem startAll_mem {its : List (Iter R)} {th : Thread R} (h : th ∈ startAll its) :
    ∃ i it, it ∈ its ∧ th = Thread.start it i := by
  unfold startAll at h
  rw [List.mem_mapIdx] at h
  obtain ⟨i, hi, rfl⟩ := h
  exact ⟨i, its[i], List.getElem_mem _, rfl⟩

theorem startAll_map_it (its : List (Iter R)) : (startAll its).map Thread.it = its := by
  unfold startAll
  apply List.ext_getElem <;> simp [Thread.start]

theorem startAll_pairwise {its : List (Iter R)} (h : RaceFree its) :
    (startAll its).Pairwise (fun a b => NI a.it b.it) := by
  have : ((startAll its).map Thread.it).Pairwise NI := by rw [startAll_map_it]; exact h
  rw [List.pairwise_map] at this; exact this

theorem work_startAll (its : List (Iter R)) : work (startAll its) = loopSteps its := by
  unfold work loopSteps startAll
  congr 1
  apply List.ext_getElem <;> simp [Thread.start]

theorem loopInv_start {its : List (Iter R)} (h : RaceFree its) : LoopInv [] (startAll its) := by
  refine ⟨startAll_pairwise h, ?_, by intro a ha; simp at ha⟩
  intro th hth c hc
  obtain ⟨i, it, _, rfl⟩ := startAll_mem hth
  exact hc

/-- Result of one iteration on a fixed heap. -/
def Iter.outcome (h : Heap R) (it : Iter R) : Res (Option (Nat × Nat × R)) := (Thread.start it 0).outcome h

/-- Total version. -/
def Iter.out (h : Heap R) (it : Iter R) : Option (Nat × Nat × R) := (Thread.start it 0).out h

theorem runPar_ok (σ : Sched) {h : Heap R} {its : List (Iter R)} (hrf : RaceFree its)
    (hok : ∀ it ∈ its, ∃ o, it.outcome h = .ok o) :
    runPar σ h its = .ok ((its.map (Iter.out h)).foldl applyOut h) := by
  unfold runPar
  rw [show its.mapIdx (fun i it => Thread.start it i) = startAll its from rfl]
  rw [runThreads_ok σ _ _ _ _ _ (work_startAll its).le (loopInv_start hrf)]
  · congr 1
    unfold applyAll
    congr 1
    unfold startAll
    apply List.ext_getElem <;> simp [Iter.out, Thread.start, Thread.out, Thread.outcome]
  · intro th hth
    obtain ⟨i, it, hit, rfl⟩ := startAll_mem hth
    exact hok it hit

theorem runPar_imp {σ : Sched} {h h' : Heap R} {its : List (Iter R)} (hrf : RaceFree its)
    (hr : runPar σ h its = .ok h') : ∀ it ∈ its, ∃ o, it.outcome h = .ok o := by
  intro it hit
  have := runThreads_imp σ _ _ _ _ _ _ (startAll_pairwise hrf) (loopInv_start hrf).sub hr
  obtain ⟨i, hi, rfl⟩ := List.getElem_of_mem hit
  exact this (Thread.start its[i] i) (by unfold startAll; rw [List.mem_mapIdx]; exact ⟨i, hi, rfl⟩)

theorem runPar_sched {σ : Sched} {h h' : Heap R} {its : List (Iter R)} (hrf : RaceFree its)
    (hr : runPar σ h its = .ok h') (σ' : Sched) : runPar σ' h its = .ok h' := by
  have h1 := runPar_ok σ hrf (runPar_imp hrf hr)
  rw [runPar_ok σ' hrf (runPar_imp hrf hr), ← hr, h1]

/-! ## Loops that fill part of one block -/

/-- Storing `vals i` at offset `lo + i` for `i < n`. -/
theorem foldl_poke_range {h : Heap R} {q : Nat} {b : Block R} (hb : h.blocks[q]? = some b) (lo : Nat) (f : Nat → Option R)
    (n : Nat) (hn : lo + n ≤ b.cells.length) :
    ((List.range n).map (fun i => (f i).map (fun v => (q, lo + i, v)))).foldl applyOut h =
      ⟨h.blocks.set q { b with cells := b.cells.mapIdx (fun j c =>
        if lo ≤ j ∧ j < lo + n then (match f (j - lo) with | some v => some v | none => c) else c) }⟩ := by
  induction n with
  | zero =>
    have hid : b.cells.mapIdx (fun j c => if lo ≤ j ∧ j < lo + 0 then
        (match f (j - lo) with | some v => some v | none => c) else c) = b.cells := by
      apply List.ext_getElem
      · simp
      · intro j h1 h2
        simp only [List.getElem_mapIdx]
        rw [if_neg]; omega
    rw [hid]
    have hq : q < h.blocks.length := by
      rw [List.getElem?_eq_some_iff] at hb; exact hb.1
    have : h.blocks.set q b = h.blocks := by
      apply List.ext_getElem?
      intro j
      rw [List.getElem?_set]
      by_cases hj : q = j
      · subst hj; rw [if_pos rfl, if_pos hq, hb]
      · simp [hj]
    cases h; simp_all
  | succ n ih =>
    rw [List.range_succ, List.map_append, List.foldl_append, ih (by omega)]
    have hq : q < h.blocks.length := by
      rw [List.getElem?_eq_some_iff] at hb; exact hb.1
    cases hf : f n with
    | none =>
      simp only [List.map_cons, List.map_nil, hf, Option.map_none, List.foldl_cons, List.foldl_nil, applyOut]
      congr 3
      apply List.ext_getElem
      · simp
      · intro j h1 h2
        simp only [List.getElem_mapIdx]
        by_cases hj : j = lo + n
        · subst hj; simp [hf]
        · by_cases h3 : lo ≤ j ∧ j < lo + n
          · rw [if_pos h3, if_pos (by omega)]
          · rw [if_neg h3, if_neg (by omega)]
    | some v =>
      simp only [List.map_cons, List.map_nil, hf, Option.map_some, List.foldl_cons, List.foldl_nil, applyOut, Heap.poke]
      congr 1
      apply List.ext_getElem?
      intro j
      simp only [List.getElem?_modify, List.getElem?_set]
      by_cases hj : q = j
      · subst hj
        simp only [hq, if_true, Option.map_eq_map, Option.map_some]
        congr 2
        apply List.ext_getElem
        · simp
        · intro j h1 h2
          simp only [List.getElem_set, List.getElem_mapIdx]
          by_cases hj : lo + n = j
          · subst hj; simp [hf]
          · rw [if_neg hj]
            by_cases h3 : lo ≤ j ∧ j < lo + n
            · rw [if_pos h3, if_pos (by omega)]
            · rw [if_neg h3, if_neg (by omega)]
      · simp [hj]

theorem iter_outcome_of {h : Heap R} {it : Iter R} {vs : List R} {q k : Nat} (hr : readAll h it.reads = .ok vs)
    (ht : h.access it.target.ptr it.target.idx = .ok (q, k)) :
    it.outcome h = .ok ((it.write vs).map (fun v => (q, k, v))) := by
  unfold Iter.outcome Thread.outcome Thread.start
  simp only [hr, ok_bind, List.nil_append]
  cases it.write vs with
  | none => rfl
  | some v => simp [ht]

/-- A loop of the library: iteration `i` reads elements of blocks other than `q` and stores at offset `lo + i` of block `q`. -/
theorem parFor_block (σ : Sched) {h : Heap R} {q : Nat} {b : Block R} (hb : h.blocks[q]? = some b) (hl : b.live = true)
    (n lo : Nat) (hn : lo + n ≤ b.cells.length) (body : Int → Res (Iter R)) (it : Nat → Iter R) (vals : Nat → List R)
    (hbody : ∀ i < n, body i = .ok (it i))
    (htgt : ∀ i < n, (it i).target = ⟨some q, ((lo + i : Nat) : Int)⟩)
    (hrd : ∀ i < n, ∀ c ∈ (it i).reads, c.ptr ≠ some q)
    (hvals : ∀ i < n, readAll h (it i).reads = .ok (vals i)) :
    parFor σ h n body = .ok ⟨h.blocks.set q { b with cells := b.cells.mapIdx (fun j c =>
        if lo ≤ j ∧ j < lo + n then (match (it (j - lo)).write (vals (j - lo)) with | some v => some v | none => c) else c) }⟩ := by
  unfold parFor
  rw [show ((n : Int)).toNat = n by simp]
  rw [mapM_ok (fun i => it i) (by intro i hi; exact hbody i (List.mem_range.1 hi)), ok_bind]
  have hout : ∀ i < n, (it i).outcome h = .ok (((it i).write (vals i)).map (fun v => (q, lo + i, v))) := by
    intro i hi
    apply iter_outcome_of (hvals i hi)
    rw [htgt i hi]
    exact access_ok hb hl (by omega)
  have hrf : RaceFree ((List.range n).map it) := by
    unfold RaceFree
    rw [List.pairwise_map]
    have := List.nodup_range (n := n)
    apply List.Pairwise.imp_of_mem _ this
    intro a b' ha hb' hne
    have ha := List.mem_range.1 ha
    have hb' := List.mem_range.1 hb'
    refine ⟨?_, ?_, ?_⟩
    · rw [htgt a ha, htgt b' hb']
      intro he; simp at he; omega
    · intro hc; exact hrd b' hb' _ hc (by rw [htgt a ha])
    · intro hc; exact hrd a ha _ hc (by rw [htgt b' hb'])
  rw [runPar_ok σ hrf]
  · rw [← foldl_poke_range hb lo (fun i => (it i).write (vals i)) n hn]
    congr 2
    rw [List.map_map]
    apply List.map_congr_left
    intro i hi
    have hi := List.mem_range.1 hi
    have := hout i hi
    simp only [Function.comp, Iter.out, Thread.out]
    unfold Iter.outcome at this
    rw [this]
  · intro x hx
    obtain ⟨i, hi, rfl⟩ := List.mem_map.1 hx
    exact ⟨_, hout i (List.mem_range.1 hi)⟩

end Nnet.Tensor
