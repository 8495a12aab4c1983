import Verif.NN.PropsPar
import Verif.NN.PropsConv
/-!
# C58, refuted for max pooling: the parallel loop has a data race
-/
namespace Nnet.NN
noncomputable section

/-- A store to `l` is still to be made by two iterations, or by one after another one has made one. -/
def Racing (l : Loc) (log : List Access) (ths : List Th) : Prop :=
  (∃ t ∈ ths, ∃ u ∈ ths, t.id ≠ u.id ∧ (∃ v, MAct.set l v ∈ t.acts) ∧ ∃ v, MAct.set l v ∈ u.acts) ∨
    ∃ t ∈ ths, (∃ v, MAct.set l v ∈ t.acts) ∧ ∃ e ∈ log, e.id ≠ t.id ∧ e.loc = l ∧ e.wr = true

/-- After an access a store to `l` is still to be made, or it was that store. -/
theorem step_set (m : Mem) {t : Th} {l : Loc} {v : ℝ} (h : MAct.set l v ∈ t.acts) :
    (MAct.set l v ∈ (t.step m).2.2.acts) ∨ (t.step m).2.1 = some ⟨t.id, l, true⟩ := by
  obtain ⟨id, acts, reg⟩ := t
  cases acts with
  | nil => simp at h
  | cons a as =>
    rcases List.mem_cons.1 h with h' | h'
    · subst h'; right; cases reg <;> rfl
    · left
      cases a with
      | set q w => cases reg <;> exact h'
      | add q w =>
        cases reg with
        | none => exact List.mem_cons_of_mem _ h'
        | some r => exact h'

theorem runTh_race (σ : Nat → Nat) (l : Loc) : ∀ (fuel s : Nat) (m : Mem) (log : List Access) (ths : List Th), (ths.map Th.id).Nodup → (ths.map Th.work).sum ≤ fuel →
    Racing l log ths → runTh σ fuel s m log ths = .error (.ub .dataRace) := by
  intro fuel
  induction fuel with
  | zero =>
    intro s m log ths hn hf hr
    exfalso
    have hz : ∀ t ∈ ths, t.acts = [] := by
      intro t ht
      have : t.work = 0 := by
        have := List.single_le_sum (by simp) _ (List.mem_map_of_mem (f := Th.work) ht)
        omega
      by_contra hne
      obtain ⟨l0, wr, h1, h2, h3, h4, h5, -⟩ := step_spec m hne
      omega
    rcases hr with ⟨t, ht, u, hu, _, ⟨v, hv⟩, _⟩ | ⟨t, ht, ⟨v, hv⟩, _⟩ <;> · rw [hz t ht] at hv; simp at hv
  | succ fuel ih =>
    intro s m log ths hn hf hr
    unfold runTh
    have hW := work_filter ths
    have hn' : ((ths.filter (fun t => !t.acts.isEmpty)).map Th.id).Nodup := hn.sublist ((List.filter_sublist).map _)
    have hne : ∀ t ∈ ths.filter (fun t => !t.acts.isEmpty), t.acts ≠ [] := by
      intro t ht; have := (List.mem_filter.1 ht).2; simpa using this
    have hkeep : ∀ t ∈ ths, ∀ v, MAct.set l v ∈ t.acts → t ∈ ths.filter (fun t => !t.acts.isEmpty) := by
      intro t ht v hv
      refine List.mem_filter.2 ⟨ht, ?_⟩
      cases h : t.acts with
      | nil => rw [h] at hv; simp at hv
      | cons => rfl
    have hr' : Racing l log (ths.filter (fun t => !t.acts.isEmpty)) := by
      rcases hr with ⟨t, ht, u, hu, h1, ⟨v, hv⟩, ⟨w, hw⟩⟩ | ⟨t, ht, ⟨v, hv⟩, h2⟩
      · exact .inl ⟨t, hkeep t ht v hv, u, hkeep u hu w hw, h1, ⟨v, hv⟩, ⟨w, hw⟩⟩
      · exact .inr ⟨t, hkeep t ht v hv, ⟨v, hv⟩, h2⟩
    generalize ths.filter (fun t => !t.acts.isEmpty) = L at hW hn' hne hr'
    cases L with
    | nil => rcases hr' with ⟨t, ht, _⟩ | ⟨t, ht, _⟩ <;> simp at ht
    | cons t0 ts =>
      simp only
      have hk : σ s % (ts.length + 1) < (t0 :: ts).length := Nat.mod_lt _ (Nat.succ_pos _)
      generalize σ s % (ts.length + 1) = k at hk
      generalize t0 :: ts = L at hW hn' hne hr' hk
      rw [List.getElem?_eq_getElem hk]
      simp only
      have htm : L[k] ∈ L := List.getElem_mem hk
      obtain ⟨l0, wr, h1, -, h3, h4, h5, -⟩ := step_spec m (hne _ htm)
      split
      · rfl
      · rename_i hc
        have hset : L.set k (L[k].step m).2.2 = L.take k ++ (L[k].step m).2.2 :: L.drop (k + 1) := List.set_eq_take_append_cons_drop .. |>.trans (if_pos hk)
        have hL : L = L.take k ++ L[k] :: L.drop (k + 1) := by simp
        have hids := hn'
        rw [hL, List.map_append, List.map_cons] at hids
        have huniq : ∀ t ∈ L, t.id = L[k].id → t = L[k] := by
          intro t ht he
          rw [hL] at ht
          rcases List.mem_append.1 ht with ht | ht
          · exact absurd he ((List.nodup_append.1 hids).2.2 t.id (List.mem_map_of_mem ht) _ List.mem_cons_self)
          · rcases List.mem_cons.1 ht with ht | ht
            · exact ht
            · exact absurd (he ▸ List.mem_map_of_mem ht) (List.nodup_cons.1 (List.nodup_append.1 hids).2.1).1
        have hstay : ∀ t ∈ L, t.id ≠ L[k].id → t ∈ L.set k (L[k].step m).2.2 := by
          intro t ht he
          rw [hset]
          rw [hL] at ht
          rcases List.mem_append.1 ht with ht | ht
          · exact List.mem_append_left _ ht
          · rcases List.mem_cons.1 ht with ht | ht
            · exact absurd (by rw [ht]) he
            · exact List.mem_append_right _ (List.mem_cons_of_mem _ ht)
        have hnew : (L[k].step m).2.2 ∈ L.set k (L[k].step m).2.2 := by rw [hset]; simp
        rw [ih]
        · rw [hset, List.map_append, List.map_cons, h3]; exact hids
        · rw [hset, List.map_append, List.map_cons, List.sum_append, List.sum_cons]
          have : (L.map Th.work).sum = ((L.take k).map Th.work).sum + (L[k].work + ((L.drop (k + 1)).map Th.work).sum) := by
            conv_lhs => rw [hL]
            rw [List.map_append, List.map_cons, List.sum_append, List.sum_cons]
          omega
        · -- the state stays racing
          have two : ∀ t ∈ L, ∀ u ∈ L, t.id ≠ u.id → t.id = L[k].id → (∃ v, MAct.set l v ∈ t.acts) → (∃ v, MAct.set l v ∈ u.acts) →
              Racing l ((L[k].step m).2.1.toList ++ log) (L.set k (L[k].step m).2.2) := by
            intro t ht u hu htu hid ⟨v, hv⟩ hw
            have hu' := hstay u hu (fun h => htu (hid.trans h.symm))
            have := huniq t ht hid
            subst this
            rcases step_set m hv with h | h
            · exact .inl ⟨_, hnew, u, hu', by rw [h3]; exact htu, ⟨v, h⟩, hw⟩
            · exact .inr ⟨u, hu', hw, ⟨L[k].id, l, true⟩, by rw [h]; simp, htu, rfl, rfl⟩
          rcases hr' with ⟨t, ht, u, hu, htu, hv, hw⟩ | ⟨t, ht, ⟨v, hv⟩, e, he, h6, h7, h8⟩
          · by_cases c1 : t.id = L[k].id
            · exact two t ht u hu htu c1 hv hw
            · by_cases c2 : u.id = L[k].id
              · exact two u hu t ht (Ne.symm htu) c2 hw hv
              · exact .inl ⟨t, hstay t ht c1, u, hstay u hu c2, htu, hv, hw⟩
          · by_cases c1 : t.id = L[k].id
            · have := huniq t ht c1
              subst this
              rcases step_set m hv with h | h
              · exact .inr ⟨_, hnew, ⟨v, h⟩, e, List.mem_append_right _ he, by rw [h3]; exact h6, h7, h8⟩
              · exfalso
                apply hc
                rw [h]
                simp only [Option.toList_some, List.any_cons, List.any_nil, Bool.or_false, List.any_eq_true]
                exact ⟨e, he, by unfold Access.conflict; simp [Ne.symm h6, h7]⟩
            · exact .inr ⟨t, hstay t ht c1, ⟨v, hv⟩, e, List.mem_append_right _ he, h6, h7, h8⟩

/-- A loop in which two iterations store the same element has a data race, whatever the schedule. -/
theorem parLoop_race (σ : Nat → Nat) {n : Nat} {M : Mat ℝ × Mat ℝ} {body : Nat → Res (List MAct)} (acts : Nat → List MAct) (hb : ∀ k, k < n → body k = .ok (acts k))
    {k k' : Nat} (hk : k < n) (hk' : k' < n) (hne : k ≠ k') {l : Loc} (h1 : ∃ v, MAct.set l v ∈ acts k) (h2 : ∃ v, MAct.set l v ∈ acts k') :
    parLoop σ n M body = .error (.ub .dataRace) := by
  unfold parLoop
  rw [mapM_ok acts (fun k hk => hb k (List.mem_range.1 hk)), ok_bind]
  have hths : ((List.range n).map acts).mapIdx (fun k a => (⟨k, a, none⟩ : Th)) = (List.range n).map (fun k => (⟨k, acts k, none⟩ : Th)) := by
    apply List.ext_getElem
    · simp
    · intro i h1 h2; simp
  rw [hths, runTh_race σ l]
  · rfl
  · rw [List.map_map]
    have : (Th.id ∘ fun k => (⟨k, acts k, none⟩ : Th)) = id := rfl
    rw [this, List.map_id]
    exact List.nodup_range
  · rw [List.map_map, List.map_map]
    exact le_of_eq rfl
  · exact .inl ⟨_, List.mem_map.2 ⟨k, List.mem_range.2 hk, rfl⟩, _, List.mem_map.2 ⟨k', List.mem_range.2 hk', rfl⟩, hne, h1, h2⟩

theorem loop_error_first {α : Type _} {f : Nat → α → Res α} {e : Stop} {a : α} (h : f 0 a = .error e) : ∀ {n : Nat}, 0 < n → loop n f a = .error e
  | 1, _ => by unfold loop loop; exact h
  | n + 2, _ => by
    unfold loop
    rw [loop_error_first h (Nat.succ_pos n)]
    rfl

theorem loop_ok_first {α : Type _} {f : Nat → α → Res α} {a r : α} : ∀ {n : Nat}, 0 < n → loop n f a = .ok r → ∃ b, f 0 a = .ok b
  | 1, _, h => ⟨r, h⟩
  | n + 2, _, h => by
    obtain ⟨b, h1, -⟩ := bind_eq_ok h
    exact loop_ok_first (Nat.succ_pos n) h1

theorem loop_ok_each {α : Type _} {f : Nat → α → Res α} (Inv : α → Prop) : ∀ {n : Nat} {a r : α}, Inv a → (∀ k S S', k < n → Inv S → f k S = .ok S' → Inv S') → loop n f a = .ok r →
    Inv r ∧ ∀ k, k < n → ∃ S S', Inv S ∧ f k S = .ok S'
  | 0, a, r, ha, _, h => by cases h; exact ⟨ha, fun k hk => by omega⟩
  | n + 1, a, r, ha, hi, h => by
    obtain ⟨b, h1, h2⟩ := bind_eq_ok h
    obtain ⟨i1, i2⟩ := loop_ok_each Inv ha (fun k S S' hk => hi k S S' (by omega)) h1
    refine ⟨hi n b r (by omega) i1 h2, fun k hk => ?_⟩
    by_cases hkn : k = n
    · subst hkn; exact ⟨b, r, i1, h2⟩
    · exact i2 k (by omega)

/-- The first element of a block is stored. -/
theorem block_first {m v : Mat ℝ} {r1 c1 r2 c2 : Int} {var : Nat} {as : List MAct} (h : blockActs .set var m r1 c1 r2 c2 v = .ok as) :
    ∃ x, MAct.set ⟨var, r1.toNat, c1.toNat⟩ x ∈ as := by
  unfold blockActs at h
  split at h
  · rename_i hv
    unfold Mat.InView at hv
    split at h
    · rename_i hs
      cases h
      refine ⟨v.f 0 0, List.mem_flatMap.2 ⟨0, List.mem_range.2 (by omega), List.mem_map.2 ⟨0, List.mem_range.2 (by omega), ?_⟩⟩⟩
      rw [Nat.zero_add, Nat.zero_add]
    · cases h
  · cases h

/-- **C58** is false of max pooling: for a batch that the sequential loop handles, with 16 or more channels and at least one row, every schedule of the parallel loop
is a data race: all iterations store the same row of `indexes`. -/
theorem C58_maxpool_race (σ : Nat → Nat → Nat → Nat) {junk : Nat → Nat → ℝ} {L : Layer} {c : Conv} {pa : Mat ℝ} {r : Mat ℝ × Layer × Conv × Mat ℝ}
    (h : MaxPool.forwardprop junk L c pa = .ok r) (h16 : 16 ≤ c.nfilter) (hpn : 1 ≤ c.pnfilter) (hnr : 1 ≤ pa.nr) :
    MaxPool.forwardpropPar σ junk L c pa = .error (.ub .dataRace) := by
  unfold MaxPool.forwardprop at h
  obtain ⟨indexes, e0, h⟩ := bind_eq_ok h
  obtain ⟨r', h, -⟩ := bind_eq_ok h
  unfold Conv.channelLoops at h
  obtain ⟨a, e1, h⟩ := bind_eq_ok h
  obtain ⟨images0, e2, h⟩ := bind_eq_ok h
  obtain ⟨s0, h⟩ := loop_ok_first (by omega) h
  obtain ⟨sample, e3, h⟩ := bind_eq_ok h
  obtain ⟨s1, h⟩ := loop_ok_first (by omega) h
  obtain ⟨img, e4, h⟩ := bind_eq_ok h
  obtain ⟨padded, e5, h⟩ := bind_eq_ok h
  obtain ⟨images, e6, h⟩ := bind_eq_ok h
  obtain ⟨-, hall⟩ := loop_ok_each (fun (S : Mat ℝ × List (Mat ℝ) × Mat ℝ) => S.1.nr = a.nr ∧ S.1.nc = a.nc ∧ S.2.1 = images ∧ S.2.2.nr = indexes.nr ∧ S.2.2.nc = indexes.nc)
    ⟨rfl, rfl, rfl, rfl, rfl⟩ (by
      rintro k ⟨A, I, X⟩ S' hk ⟨i1, i2, i3, i4, i5⟩ hs
      obtain ⟨image, -, hs⟩ := bind_eq_ok hs
      obtain ⟨⟨po, e⟩, hs1, hs⟩ := bind_eq_ok hs
      obtain ⟨⟨o, index⟩, -, hs1⟩ := bind_eq_ok hs1
      obtain ⟨X', hx, hs1⟩ := bind_eq_ok hs1
      cases hs1
      obtain ⟨A', ha, hs⟩ := bind_eq_ok hs
      cases hs
      obtain ⟨d1, d2, -⟩ := updSubmat_acts (op := .set) set_loc set_eff hx 1
      obtain ⟨d3, d4, -⟩ := updSubmat_acts (op := .add) add_loc add_eff ha 0
      exact ⟨d3.trans i1, d4.trans i2, i3, d1.trans i4, d2.trans i5⟩) h
  have hbody : ∀ k : Nat, k < c.nfilter.toNat → ∃ as is : List MAct, (do
      let image ← Conv.getSlice images 0
      let (o, index) ← MaxPool.maxpool c.spatial c.stride image
      let as ← blockActs .add 0 a ((0 : Nat) : Int) (k * c.outputsize) ((0 : Nat) : Int) (((k : Int) + 1) * c.outputsize - 1) o
      let is ← blockActs .set 1 indexes ((0 : Nat) : Int) 0 ((0 : Nat) : Int) (c.outputsize * 2 - 1) index
      .ok (as ++ is) : Res (List MAct)) = .ok (as ++ is) ∧ ∃ x, MAct.set ⟨1, 0, 0⟩ x ∈ is := by
    intro k hk
    obtain ⟨⟨A, I, X⟩, S', ⟨i1, i2, i3, i4, i5⟩, hs⟩ := hall k hk
    obtain ⟨image, q1, hs⟩ := bind_eq_ok hs
    obtain ⟨⟨po, e⟩, hs1, hs⟩ := bind_eq_ok hs
    obtain ⟨⟨o, index⟩, q2, hs1⟩ := bind_eq_ok hs1
    obtain ⟨X', hx, hs1⟩ := bind_eq_ok hs1
    cases hs1
    obtain ⟨A', ha, hs⟩ := bind_eq_ok hs
    obtain ⟨-, -, is, w1, -⟩ := updSubmat_acts (op := .set) set_loc set_eff hx 1
    obtain ⟨-, -, as, w2, -⟩ := updSubmat_acts (op := .add) add_loc add_eff ha 0
    dsimp only at i1 i2 i3 i4 i5 q1
    have w1' := w1 indexes i4.symm i5.symm
    refine ⟨as, is, ?_, block_first w1'⟩
    rw [i3] at q1
    rw [q1, ok_bind, q2, ok_bind]
    dsimp only
    rw [w2 a i1.symm i2.symm, ok_bind, w1', ok_bind]
  have hex : ∀ k : Nat, ∃ as : List MAct, k < c.nfilter.toNat → ((do
      let image ← Conv.getSlice images 0
      let (o, index) ← MaxPool.maxpool c.spatial c.stride image
      let as ← blockActs .add 0 a ((0 : Nat) : Int) (k * c.outputsize) ((0 : Nat) : Int) (((k : Int) + 1) * c.outputsize - 1) o
      let is ← blockActs .set 1 indexes ((0 : Nat) : Int) 0 ((0 : Nat) : Int) (c.outputsize * 2 - 1) index
      .ok (as ++ is) : Res (List MAct)) = .ok as ∧ ∃ x, MAct.set ⟨1, 0, 0⟩ x ∈ as) := by
    intro k
    by_cases hk : k < c.nfilter.toNat
    · obtain ⟨as, is, h1, x, hx⟩ := hbody k hk
      exact ⟨as ++ is, fun _ => ⟨h1, x, List.mem_append_right _ hx⟩⟩
    · exact ⟨[], fun h => absurd h hk⟩
  choose acts hacts using hex
  have hrace := fun σ' => parLoop_race σ' (M := (a, indexes)) acts (fun k hk => (hacts k hk).1) (k := 0) (k' := 1) (l := ⟨1, 0, 0⟩) (by omega) (by omega) (by omega)
    (hacts 0 (by omega)).2 (hacts 1 (by omega)).2
  unfold MaxPool.forwardpropPar
  rw [e0, ok_bind]
  unfold Conv.channelLoopsPar
  rw [e1, ok_bind, e2, ok_bind, loop_error_first (e := .ub .dataRace) ?_ (by omega)]
  · rfl
  · rw [e3, ok_bind]
    refine loop_error_first ?_ (by omega)
    rw [e4, ok_bind, e5, ok_bind, e6, ok_bind]
    dsimp only
    rw [if_pos h16, hrace (σ 0 0)]
    rfl

/-- **C58** (max pooling, refuted). A max pooling layer constructed with 16 or more channels has a data race on every non-empty batch of the right width. -/
theorem C58_maxpool_refuted (dist : Draws) (junk : Nat → Nat → ℝ) {h w nf sp st : Nat} (h16 : 16 ≤ nf) (hsp : 0 < sp) (hst : 0 < st) (fh : sp ≤ h) (fw : sp ≤ w)
    (bh : h < 2 ^ 31) (bw : w < 2 ^ 31) :
    ∃ L c, MaxPool.new dist junk w h nf sp st = .ok (L, c) ∧
      ∀ (σ : Nat → Nat → Nat → Nat) (x : Mat ℝ), 0 < x.nr → x.nc = nf * (w * h) → MaxPool.forwardpropPar σ junk L c x = .error (.ub .dataRace) := by
  obtain ⟨L, c, h1, G, -⟩ := C47_constructor dist junk (h := h) (w := w) (pn := nf) (nf := nf) (sp := sp) (st := st) (pd := 0) 0 Act.identity (by omega) (by omega) (by omega) (by omega)
    hsp hst (by omega) (by omega) (by omega) (by omega)
  refine ⟨L, c, h1, fun σ x hx hc => ?_⟩
  obtain ⟨A, idx, -, hf⟩ := MaxPool.forward_ok (L := L) junk G hx (by omega) rfl rfl rfl
  exact C58_maxpool_race σ hf (by rw [G.enf]; omega) (by rw [G.epn]; omega) hx

example (dist : Draws) (junk : Nat → Nat → ℝ) : ∃ L c, MaxPool.new dist junk 4 4 ((16 : Nat) : Int) ((2 : Nat) : Int) ((2 : Nat) : Int) = .ok (L, c) ∧
    ∀ σ, MaxPool.forwardpropPar σ junk L c (Mat.of 1 256 (fun _ j => (j : ℝ))) = .error (.ub .dataRace) := by
  obtain ⟨L, c, h1, h2⟩ := C58_maxpool_refuted dist junk (h := 4) (w := 4) (nf := 16) (sp := 2) (st := 2) (by norm_num) (by norm_num) (by norm_num) (by norm_num) (by norm_num)
    (by norm_num) (by norm_num)
  exact ⟨L, c, h1, fun σ => h2 σ _ (show 0 < 1 by omega) (show 256 = _ by norm_num)⟩

/-- **C58** (max pooling with fewer than 16 channels): the loop is not parallel. -/
theorem C58_maxpool_few (σ : Nat → Nat → Nat → Nat) (junk : Nat → Nat → ℝ) (L : Layer) {c : Conv} (pa : Mat ℝ) (h : c.nfilter < 16) :
    MaxPool.forwardpropPar σ junk L c pa = MaxPool.forwardprop junk L c pa := by
  unfold MaxPool.forwardpropPar MaxPool.forwardprop
  refine RelRes.eq (RelRes.same _ (fun indexes _ => RelRes.bind (Q := (· = ·)) ?_ (fun s t hst => by rw [hst]; exact RelRes.ok rfl)))
  unfold Conv.channelLoopsPar Conv.channelLoops
  refine RelRes.same _ (fun a _ => RelRes.same _ (fun images _ => ?_))
  refine RelRes.loop rfl (fun i s t _ hst => ?_)
  subst hst
  refine RelRes.same _ (fun _ _ => RelRes.loop rfl (fun j s t _ hst => ?_))
  subst hst
  refine RelRes.same _ (fun img _ => RelRes.same _ (fun padded _ => RelRes.same _ (fun images _ => ?_)))
  dsimp only
  rw [if_neg (by omega), ← bind_pure (loop c.nfilter.toNat _ (s.1, images, s.2.2))]
  refine RelRes.bind (Q := fun M t => M.1 = t.1 ∧ t.2.1 = images ∧ M.2 = t.2.2) (RelRes.loop ⟨rfl, rfl, rfl⟩ (fun k M t _ hq => ?_))
    (fun M t hq => by obtain ⟨q1, q2, q3⟩ := hq; rw [q1, ← q2, q3]; exact RelRes.ok rfl)
  obtain ⟨q1, q2, q3⟩ := hq
  rw [q2]
  refine RelRes.same _ (fun image _ => ?_)
  rw [bind_assoc]
  refine RelRes.same _ (fun o _ => ?_)
  obtain ⟨o, index⟩ := o
  dsimp only
  rw [bind_assoc, q3]
  refine RelRes.same _ (fun X _ => ?_)
  rw [ok_bind, q1]
  exact RelRes.same _ (fun A _ => RelRes.ok ⟨rfl, rfl, rfl⟩)

/-- A convolution of 2 channels to 16 whose parallel loop really runs: with every schedule it ends normally with a 1×64 output. -/
example (dist : Draws) (junk : Nat → Nat → ℝ) (σ : Nat → Nat → Nat → Nat) : ∃ L c y L' c', Conv.new dist junk ((3 : Nat) : Int) ((3 : Nat) : Int) ((2 : Nat) : Int) ((16 : Nat) : Int) ((2 : Nat) : Int) ((1 : Nat) : Int) ((0 : Nat) : Int) 1 Act.identity = .ok (L, c) ∧
    c.nfilter = 16 ∧ Conv.forwardpropPar σ junk L c (Mat.of 1 18 (fun _ j => (j : ℝ))) = .ok (y, L', c') ∧ y.nr = 1 ∧ y.nc = 64 := by
  obtain ⟨L, c, h1, G, h3, h4, -⟩ := C47_constructor dist junk (h := 3) (w := 3) (pn := 2) (nf := 16) (sp := 2) (st := 1) (pd := 0) 1 Act.identity (by norm_num) (by norm_num) (by norm_num) (by norm_num)
    (by norm_num) (by norm_num) (by norm_num) (by norm_num) (by norm_num) (by norm_num)
  obtain ⟨y, L', c', e, e1, e2, -⟩ := C47_exact junk (L := L) G (x := Mat.of 1 18 (fun _ j => (j : ℝ))) (show 0 < 1 by omega) (show 2 * (3 * 3) ≤ 18 by norm_num) h3 h4 rfl rfl
  refine ⟨L, c, y, L', c', h1, G.enf, by rw [C58_conv_forward]; exact e, e1, e2.trans ?_⟩
  unfold Spec.outLen; norm_num

end
end Nnet.NN
