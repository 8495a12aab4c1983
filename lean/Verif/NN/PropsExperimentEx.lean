import Verif.NN.PropsExperiment
/-! # C113: refutations and examples -/
namespace Nnet.NN
namespace Experiment
open Classical TestData Spec Finset

/-- A `float` for texts of one digit, perhaps followed by the end of the line. -/
noncomputable def digitFloat (s : List Char) : Option ℝ :=
  match s with
  | [c] => if c.isDigit then some ((c.toNat - 48 : Nat) : ℝ) else none
  | [c, '\n'] => if c.isDigit then some ((c.toNat - 48 : Nat) : ℝ) else none
  | _ => none

/-- Two samples of the classes 0 and 2. -/
def gapFile : List (List Char) := ["@data\n".toList, "1,0\n".toList, "2, 2\n".toList]

theorem gapFile_content : content gapFile = [[['1'], ['0', '\n']], [['2'], ['2', '\n']]] := by decide

theorem readable_gap : Readable digitFloat (content gapFile) 2 := by
  rw [gapFile_content]
  refine ⟨⟨_, _, rfl, rfl⟩, fun r hr => ?_, fun i hi _ s hs => ?_⟩
  · simp only [List.mem_cons, List.not_mem_nil, or_false] at hr
    rcases hr with rfl | rfl <;> exact le_refl _
  · have hi' : i = 0 ∨ i = 1 := by omega
    rcases hi' with rfl | rfl <;> simp [colOf] at hs <;> rcases hs with rfl | rfl <;> rfl

/-- Two samples of the same class; the file ends without a line end. -/
def openFile : List (List Char) := ["@data\n".toList, "1,a\n".toList, "2,a".toList]

theorem openFile_content : content openFile = [[['1'], ['a', '\n']], [['2'], ['a']]] := by decide

theorem not_numberLike_a : ¬ NumberLike ['a'] := by
  rw [← isnum_iff]
  decide

theorem not_numberLike_a' : ¬ NumberLike ['a', '\n'] := by
  rw [← isnum_iff]
  decide

theorem readable_open : Readable digitFloat (content openFile) 2 := by
  rw [openFile_content]
  refine ⟨⟨_, _, rfl, rfl⟩, fun r hr => ?_, fun i hi hn s hs => ?_⟩
  · simp only [List.mem_cons, List.not_mem_nil, or_false] at hr
    rcases hr with rfl | rfl <;> exact le_refl _
  · have hi' : i = 0 ∨ i = 1 := by omega
    rcases hi' with rfl | rfl
    · simp [colOf] at hs
      rcases hs with rfl | rfl <;> rfl
    · exact absurd (hn ['a'] (by simp [colOf])) not_numberLike_a

/-- Full statement refuted: different classes keep different labels, for every readable file. The classes 0 and 2 become one. -/
theorem C113_distinct_refuted : ¬ ∀ (float : List Char → Option ℝ) (lines : List (List Char)) (cols : Nat) (P : Prepared), Readable float (content lines) cols → process float lines = .ok P →
    ∀ a < P.m, ∀ b < P.m, P.data a P.n = P.data b P.n → classText lines cols a = classText lines cols b := by
  intro h
  have hl : (content gapFile).length = 2 := by rw [gapFile_content]; rfl
  have t0 : classText gapFile 2 0 = ['0', '\n'] := by unfold classText; rw [gapFile_content]; rfl
  have t1 : classText gapFile 2 1 = ['2', '\n'] := by unfold classText; rw [gapFile_content]; rfl
  obtain ⟨P, e, h0, h1, -, -⟩ := C113_merged (a := 0) (b := 1) (M := 2) (v := fun a => 2 * a) readable_gap (by
      unfold classTexts
      rw [gapFile_content]
      intro s hs
      rw [← isnum_iff]
      simp [colOf] at hs
      rcases hs with rfl | rfl <;> decide) (by
      intro a ha
      rw [hl] at ha
      have : a = 0 ∨ a = 1 := by omega
      rcases this with rfl | rfl
      · rw [t0]; simp [digitFloat]
      · rw [t1]; simp [digitFloat]) (by rw [hl]; norm_num) rfl (by rw [hl]; norm_num) rfl (fun c hc => by rw [hl] at hc; show 2 * c ≤ 2; omega) (by
      rw [hl]
      decide)
  obtain ⟨P', e', hn, hm, -⟩ := C113_features readable_gap
  have : P' = P := by rw [e'] at e; injection e
  subst this
  rw [hl] at hm
  have := h digitFloat gapFile 2 P' readable_gap e 0 (by omega) 1 (by omega) (h0.trans h1.symm)
  rw [t0, t1] at this
  exact absurd this (by decide)

/-- Full statement refuted: a class is the same at the end of the file. Without an end of line, the class of the last sample counts as another one. -/
theorem C113_last_line_refuted : ¬ ∀ (float : List Char → Option ℝ) (lines : List (List Char)) (cols : Nat) (P : Prepared), Readable float (content lines) cols → process float lines = .ok P →
    ∀ a < P.m, ∀ b < P.m, (classText lines cols a).filter (· ≠ '\n') = (classText lines cols b).filter (· ≠ '\n') → P.data a P.n = P.data b P.n := by
  intro h
  have hl : (content openFile).length = 2 := by rw [openFile_content]; rfl
  have t0 : classText openFile 2 0 = ['a', '\n'] := by unfold classText; rw [openFile_content]; rfl
  have t1 : classText openFile 2 1 = ['a'] := by unfold classText; rw [openFile_content]; rfl
  obtain ⟨P, e, hn, hm, ho, c, h1, -, h3⟩ := C113_named readable_open ⟨['a'], by unfold classTexts; rw [openFile_content]; simp [colOf], not_numberLike_a⟩
  rw [hl] at hm
  have hd := h digitFloat openFile 2 P readable_open e 0 (by omega) 1 (by omega) (by rw [t0, t1]; decide)
  rw [(h1 0 (by omega)).1, (h1 1 (by omega)).1] at hd
  have := (h3 0 (by omega) 1 (by omega)).1 (by exact_mod_cast hd)
  rw [t0, t1] at this
  exact absurd this (by decide)

/-- The hypotheses of `C113_sent` can be met: the samples of the file above are sent with two classes, and the program accepts them. -/
example : ∃ P d, process digitFloat openFile = .ok P ∧ send (fun _ _ => 0) (fun i => i) P = .ok d ∧ P.o = 2 ∧ d.trainx.nr = 1 ∧ d.testx.nr = 1 := by
  have hl : (content openFile).length = 2 := by rw [openFile_content]; rfl
  have hx : ∃ s ∈ classTexts openFile 2, ¬ NumberLike s := ⟨['a'], by unfold classTexts; rw [openFile_content]; simp [colOf], not_numberLike_a⟩
  obtain ⟨P, π, d, c, e, e1, -, -, ho, -, a1, -, a3, -⟩ := C113_sent (junk := fun _ _ => 0) (rnd := fun i => i) (v := fun _ => 0) (k := 0) readable_open hl (le_refl _) (le_refl _) (Or.inl hx)
  refine ⟨P, d, e, e1, ?_, a1.1, a3.1⟩
  rw [ho, if_pos hx]
  unfold classTexts
  rw [openFile_content]
  decide

/-- Classes 1 and 2: class 2 is sent as 0. -/
def shiftFile : List (List Char) := ["1,1\n".toList, "2,2\n".toList]

theorem shiftFile_content : content shiftFile = [[['1'], ['1', '\n']], [['2'], ['2', '\n']]] := by decide

example : ∃ P, process digitFloat shiftFile = .ok P ∧ P.o = 2 ∧ P.data 0 P.n = 1 ∧ P.data 1 P.n = 0 := by
  have hl : (content shiftFile).length = 2 := by rw [shiftFile_content]; rfl
  have t0 : classText shiftFile 2 0 = ['1', '\n'] := by unfold classText; rw [shiftFile_content]; rfl
  have t1 : classText shiftFile 2 1 = ['2', '\n'] := by unfold classText; rw [shiftFile_content]; rfl
  have hr : Readable digitFloat (content shiftFile) 2 := by
    rw [shiftFile_content]
    refine ⟨⟨_, _, rfl, rfl⟩, fun r hr => ?_, fun i hi _ s hs => ?_⟩
    · simp only [List.mem_cons, List.not_mem_nil, or_false] at hr
      rcases hr with rfl | rfl <;> exact le_refl _
    · have hi' : i = 0 ∨ i = 1 := by omega
      rcases hi' with rfl | rfl <;> simp [colOf] at hs <;> rcases hs with rfl | rfl <;> rfl
  obtain ⟨P, e, hn, hm, ho, h1⟩ := C113_numbered_partial (k := 2) (v := fun a => a + 1) hr (by
      unfold classTexts
      rw [shiftFile_content]
      intro s hs
      rw [← isnum_iff]
      simp [colOf] at hs
      rcases hs with rfl | rfl <;> decide) (by
      intro a ha
      rw [hl] at ha
      have : a = 0 ∨ a = 1 := by omega
      rcases this with rfl | rfl
      · rw [t0]; simp [digitFloat]
      · rw [t1]; simp [digitFloat]) (Or.inr (by rw [hl]; decide))
  rw [hl] at hm
  refine ⟨P, e, ho, ?_, ?_⟩
  · rw [h1 0 (by omega)]; norm_num
  · rw [h1 1 (by omega)]; norm_num

/-- Classes 0 and 9: the program stops. -/
def farFile : List (List Char) := ["1,0\n".toList, "2,9\n".toList]

theorem farFile_content : content farFile = [[['1'], ['0', '\n']], [['2'], ['9', '\n']]] := by decide

example : ∃ P, process digitFloat farFile = .ok P ∧ send (fun _ _ => 0) (fun i => i) P = .error .throw := by
  have hl : (content farFile).length = 2 := by rw [farFile_content]; rfl
  have t0 : classText farFile 2 0 = ['0', '\n'] := by unfold classText; rw [farFile_content]; rfl
  have t1 : classText farFile 2 1 = ['9', '\n'] := by unfold classText; rw [farFile_content]; rfl
  have hr : Readable digitFloat (content farFile) 2 := by
    rw [farFile_content]
    refine ⟨⟨_, _, rfl, rfl⟩, fun r hr => ?_, fun i hi _ s hs => ?_⟩
    · simp only [List.mem_cons, List.not_mem_nil, or_false] at hr
      rcases hr with rfl | rfl <;> exact le_refl _
    · have hi' : i = 0 ∨ i = 1 := by omega
      rcases hi' with rfl | rfl <;> simp [colOf] at hs <;> rcases hs with rfl | rfl <;> rfl
  exact C113_gap (b := 1) (v := fun a => 9 * a) hr (by
      unfold classTexts
      rw [farFile_content]
      intro s hs
      rw [← isnum_iff]
      simp [colOf] at hs
      rcases hs with rfl | rfl <;> decide) (by
      intro a ha
      rw [hl] at ha
      have : a = 0 ∨ a = 1 := by omega
      rcases this with rfl | rfl
      · rw [t0]; simp [digitFloat]
      · rw [t1]; simp [digitFloat]) (by rw [hl]; norm_num) (by rw [hl]; decide)

end Experiment
end Nnet.NN
