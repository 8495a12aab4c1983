import Verif.Tensor.ParLemmas
/-!
# Race freedom, termination and sequential equivalence of parallel loops
-/
namespace Nnet.Tensor
variable {R : Type}

/-- The errors of a memory access. -/
def IsAccessError (e : Stop) : Prop :=
  e = .ub .nullDeref ∨ e = .ub .outOfBounds ∨ e = .ub .useAfterFree ∨ e = .ub .uninitRead

theorem access_err {h : Heap R} {p : Ptr} {i : Int} {e : Stop} (he : h.access p i = .error e) : IsAccessError e := by
  unfold Heap.access at he
  split at he
  · cases he; simp [IsAccessError]
  · split at he
    · cases he; simp [IsAccessError]
    · split at he
      · split at he
        · cases he
        · cases he; simp [IsAccessError]
      · cases he; simp [IsAccessError]

theorem read_err {h : Heap R} {p : Ptr} {i : Int} {e : Stop} (he : h.read p i = .error e) : IsAccessError e := by
  unfold Heap.read at he
  cases ha : h.access p i with
  | error e' => rw [ha, error_bind] at he; cases he; exact access_err ha
  | ok x =>
    obtain ⟨q, k⟩ := x
    rw [ha, ok_bind] at he
    simp only at he
    split at he
    · cases he
    · cases he; simp [IsAccessError]

/-- A loop of non-interfering iterations fails only by a faulty memory access: no data race is ever reported and the fuel suffices. -/
theorem runThreads_err (σ : Sched) (fuel : Nat) : ∀ (s : Nat) (h : Heap R) (log : List Acc) (ths : List (Thread R)) (e : Stop),
    work ths ≤ fuel → LoopInv log ths → runThreads σ fuel s h log ths = .error e → IsAccessError e := by
  induction fuel with
  | zero =>
    intro s h log ths e hw _ hr
    cases ths with
    | nil => simp [runThreads] at hr
    | cons th ths => simp [work] at hw
  | succ fuel ih =>
    intro s h log ths e hw hinv hr
    cases ths with
    | nil => simp [runThreads] at hr
    | cons th0 ths0 =>
      have hlen : 0 < (th0 :: ths0).length := by simp
      unfold runThreads at hr
      simp only at hr
      generalize hk : σ s % (th0 :: ths0).length = k at hr
      have hklt : k < (th0 :: ths0).length := hk ▸ Nat.mod_lt _ hlen
      generalize th0 :: ths0 = all at *
      rw [List.getElem?_eq_getElem hklt] at hr
      simp only at hr
      generalize ht : all[k] = t at hr
      have htm : t ∈ all := ht ▸ List.getElem_mem _
      have hperm : (t :: all.eraseIdx k).Perm all := by rw [← ht]; exact List.getElem_cons_eraseIdx_perm hklt
      have hsymm : ∀ {a b : Thread R}, NI a.it b.it → NI b.it a.it := fun h => h.symm
      have hni1 := (hperm.pairwise_iff hsymm).2 hinv.ni
      have hni' := List.pairwise_cons.1 hni1
      have hmemE : ∀ th ∈ all.eraseIdx k, th ∈ all := fun th h => hperm.subset (List.mem_cons_of_mem _ h)
      have hwork : t.pend.length + 1 + work (all.eraseIdx k) ≤ fuel + 1 := by
        rw [← work_perm hperm] at hw; simpa [work] using hw
      have hlogt := fun b hb => hinv.log b hb t htm
      have hsubE : ∀ th ∈ all.eraseIdx k, ∀ c ∈ th.pend, c ∈ th.it.reads := fun th hth => hinv.sub th (hmemE th hth)
      cases hp : t.pend with
      | cons c cs =>
        unfold Thread.step at hr
        rw [hp] at hr
        simp only at hr
        cases hac : h.access c.ptr c.idx with
        | error e' => simp [hac] at hr; subst hr; exact access_err hac
        | ok y =>
          obtain ⟨q, k'⟩ := y
          cases hv : h.read c.ptr c.idx with
          | error e' => simp [hac, hv] at hr; subst hr; exact read_err hv
          | ok v =>
            obtain ⟨hq, hk', -⟩ := access_some hac
            have hceq : (⟨some q, (k' : Int)⟩ : Cell) = c := by cases c; simp_all
            have hcr : c ∈ t.it.reads := hinv.sub t htm c (by simp [hp])
            have hnc : ¬ ((some (⟨t.id, q, k', false⟩ : Acc)).toList.any (fun a => log.any (fun b => a.conflict b)) = true) := by
              simp only [Option.toList, List.any_cons, List.any_nil, Bool.or_false]
              rw [noConflict hlogt rfl (.inl ⟨rfl, by rw [hceq]; exact hcr⟩)]; simp
            simp only [hac, hv, ok_bind, pure_eq_ok] at hr
            rw [if_neg hnc] at hr
            have hperm' := set_perm' all k hklt (⟨t.id, t.it, cs, t.got ++ [v]⟩ : Thread R)
            apply ih _ _ _ _ _ _ _ hr
            · rw [work_perm hperm']; simp [work] at hwork ⊢; rw [hp] at hwork; simp at hwork; omega
            · refine ⟨(hperm'.pairwise_iff hsymm).2 (List.pairwise_cons.2 hni'), ?_, ?_⟩
              · intro th hth
                rcases List.mem_cons.1 (hperm'.subset hth) with rfl | hth
                · intro d hd; exact hinv.sub t htm d (by simp [hp]; right; exact hd)
                · exact hsubE th hth
              · intro a ha th hth
                simp only [Option.toList, List.cons_append, List.nil_append, List.mem_cons] at ha
                rcases List.mem_cons.1 (hperm'.subset hth) with rfl | hth
                · rcases ha with rfl | ha
                  · exact .inl rfl
                  · exact hinv.log a ha t htm
                · rcases ha with rfl | ha
                  · right
                    simp only [hceq]
                    refine ⟨fun hc => ?_, fun hf => by cases hf⟩
                    exact (hni'.1 th hth).2.2 (hc ▸ hcr)
                  · exact hinv.log a ha th (hmemE th hth)
      | nil =>
        unfold Thread.step at hr
        rw [hp] at hr
        simp only at hr
        cases hwv : t.it.write t.got with
        | none =>
          simp only [hwv, pure_eq_ok, ok_bind] at hr
          rw [if_neg (by simp [Option.toList])] at hr
          apply ih _ _ _ _ _ _ _ hr
          · rw [hp] at hwork; simp at hwork; omega
          · exact ⟨hni'.2, hsubE, fun a ha th hth => hinv.log a (by simpa using ha) th (hmemE th hth)⟩
        | some v =>
          simp only [hwv] at hr
          cases hac : h.access t.it.target.ptr t.it.target.idx with
          | error e' => simp [hac] at hr; subst hr; exact access_err hac
          | ok y =>
            obtain ⟨q, k'⟩ := y
            obtain ⟨hq, hk', -⟩ := access_some hac
            have hceq : (⟨some q, (k' : Int)⟩ : Cell) = t.it.target := by
              generalize t.it.target = c at *; cases c; simp_all
            have hnc : ¬ ((some (⟨t.id, q, k', true⟩ : Acc)).toList.any (fun a => log.any (fun b => a.conflict b)) = true) := by
              simp only [Option.toList, List.any_cons, List.any_nil, Bool.or_false]
              rw [noConflict hlogt rfl (.inr hceq)]; simp
            simp only [hac, ok_bind, Heap.write, pure_eq_ok] at hr
            rw [if_neg hnc] at hr
            apply ih _ _ _ _ _ _ _ hr
            · rw [hp] at hwork; simp at hwork; omega
            · refine ⟨hni'.2, hsubE, ?_⟩
              intro a ha th hth
              simp only [Option.toList, List.cons_append, List.nil_append, List.mem_cons] at ha
              rcases ha with rfl | ha
              · right
                simp only [hceq]
                exact ⟨(hni'.1 th hth).1, fun _ => (hni'.1 th hth).2.1⟩
              · exact hinv.log a ha th (hmemE th hth)

theorem runPar_err {σ : Sched} {h : Heap R} {its : List (Iter R)} {e : Stop} (hrf : RaceFree its)
    (hr : runPar σ h its = .error e) : IsAccessError e :=
  runThreads_err σ _ _ _ _ _ _ (work_startAll its).le (loopInv_start hrf) hr

/-! ## Sequential execution -/

/-- One iteration executed alone: all reads, then the store. -/
def Iter.run (h : Heap R) (it : Iter R) : Res (Heap R) := do
  let vs ← it.reads.mapM (fun c => h.read c.ptr c.idx)
  match it.write vs with
  | none => .ok h
  | some v => h.write it.target.ptr it.target.idx v

/-- The loop without OpenMP: one iteration after the other. -/
def runSeq : Heap R → List (Iter R) → Res (Heap R)
  | h, [] => .ok h
  | h, it :: its => do
    let h' ← it.run h
    runSeq h' its

theorem iter_run_eq (h : Heap R) (it : Iter R) : it.run h = (it.outcome h >>= fun o => .ok (applyOut h o)) := by
  unfold Iter.run Iter.outcome Thread.outcome Thread.start readAll
  simp only [List.nil_append]
  cases hr : it.reads.mapM (fun c => h.read c.ptr c.idx) with
  | error e => rfl
  | ok vs =>
    simp only [ok_bind]
    cases hw : it.write vs with
    | none => rfl
    | some v =>
      simp only [Heap.write]
      cases ha : h.access it.target.ptr it.target.idx with
      | error e => rfl
      | ok x => rfl

theorem outcome_applyOut {h : Heap R} {a b : Iter R} (hn : NI a b) :
    b.outcome (applyOut h (a.out h)) = b.outcome h := by
  unfold Iter.outcome
  cases ho : a.out h with
  | none => rfl
  | some x =>
    obtain ⟨q, k, v⟩ := x
    apply outcome_poke_ne
    have := out_target (th := Thread.start a 0) ho
    simp only [Thread.start] at this ⊢
    rw [← this]; exact hn.2.1

theorem iter_out_eq {h : Heap R} {it : Iter R} {o} (ho : it.outcome h = .ok o) : it.out h = o := by
  unfold Iter.outcome at ho
  unfold Iter.out Thread.out
  rw [ho]

theorem runSeq_iff {its : List (Iter R)} (hrf : RaceFree its) : ∀ (h h' : Heap R),
    runSeq h its = .ok h' ↔ (∀ it ∈ its, ∃ o, it.outcome h = .ok o) ∧ h' = (its.map (Iter.out h)).foldl applyOut h := by
  induction its with
  | nil => intro h h'; simp [runSeq, eq_comm]
  | cons a its ih =>
    intro h h'
    rw [RaceFree, List.pairwise_cons] at hrf
    unfold runSeq
    rw [iter_run_eq]
    cases ho : a.outcome h with
    | error e => simp [ho]
    | ok o =>
      have ha := iter_out_eq ho
      simp only [ok_bind]
      rw [← ha, ih hrf.2]
      have hk : ∀ it ∈ its, it.outcome (applyOut h (a.out h)) = it.outcome h := fun it hit => outcome_applyOut (hrf.1 it hit)
      have hk' : its.map (Iter.out (applyOut h (a.out h))) = its.map (Iter.out h) := by
        apply List.map_congr_left
        intro it hit
        have := hk it hit
        obtain ⟨o', ho'⟩ | ⟨e', he'⟩ : (∃ o', it.outcome h = .ok o') ∨ ∃ e', it.outcome h = .error e' := by
          cases it.outcome h <;> simp
        · rw [iter_out_eq ho', iter_out_eq (this.trans ho')]
        · have e1 : it.out h = none := by
            unfold Iter.outcome at he'; unfold Iter.out Thread.out; rw [he']
          have e2 : it.out (applyOut h (a.out h)) = none := by
            have := this.trans he'
            generalize applyOut h (a.out h) = hh at *
            unfold Iter.outcome at this; unfold Iter.out Thread.out; rw [this]
          rw [e1, e2]
      rw [hk', List.map_cons, List.foldl_cons]
      constructor
      · rintro ⟨h1, h2⟩
        refine ⟨?_, h2⟩
        intro it hit
        rcases List.mem_cons.1 hit with rfl | hit
        · exact ⟨_, ho⟩
        · rw [← hk it hit]; exact h1 it hit
      · rintro ⟨h1, h2⟩
        exact ⟨fun it hit => by rw [hk it hit]; exact h1 it (List.mem_cons_of_mem _ hit), h2⟩

theorem runPar_iff {σ : Sched} {its : List (Iter R)} (hrf : RaceFree its) (h h' : Heap R) :
    runPar σ h its = .ok h' ↔ runSeq h its = .ok h' := by
  rw [runSeq_iff hrf]
  constructor
  · intro hr
    have := runPar_imp hrf hr
    refine ⟨this, ?_⟩
    rw [runPar_ok σ hrf this] at hr
    cases hr; rfl
  · rintro ⟨h1, rfl⟩
    exact runPar_ok σ hrf h1

end Nnet.Tensor
