import Verif.NN.PropsOmp
import Verif.NN.WitnessLayers
/-!
# The hypotheses of C108 are met
-/
namespace Nnet.NN
noncomputable section
namespace Witness

/-- A same-size layer whose last input had three rows. -/
theorem geoImg : ({ geoConv 5 4 3 2 3 1 1 with images := (List.range 3).map (fun _ => wide 7 6) } : Conv).Geo 5 4 3 2 3 1 1 :=
  ⟨rfl, rfl, rfl, rfl, rfl, rfl, rfl, rfl, rfl, rfl, rfl, by norm_num, by norm_num, by norm_num, by norm_num, by norm_num, by norm_num, by norm_num, by norm_num, by norm_num, by norm_num⟩

example (junk : Nat → Nat → ℝ) := (C108_forward junk (L := kernels) geoA (by show 9 ≤ 9; omega) (by show 6 ≤ 6; omega) (x := wide 3 60) (by show 0 < 3; omega)).1 (by show 60 ≤ 60; omega)
example (junk : Nat → Nat → ℝ) := (C108_forward junk (L := kernels) geoA (by show 9 ≤ 9; omega) (by show 6 ≤ 6; omega) (x := wide 3 59) (by show 0 < 3; omega)).2 (by show 59 < 60; omega)
example (junk : Nat → Nat → ℝ) := (C108_pooling junk (L := exLayer Act.identity .empty) geoP (x := wide 3 72) (by show 0 < 3; omega)).1.1 (by show 72 ≤ 72; omega)
example (junk : Nat → Nat → ℝ) := (C108_pooling junk (L := exLayer Act.identity .empty) geoP (x := wide 3 71) (by show 0 < 3; omega)).2.2 (by show 71 < 72; omega)
/-- Kernels for 2 x 2 windows in a layer with 3 x 3 windows. -/
example (junk : Nat → Nat → ℝ) := C108_weights_refuted junk (L := kernels2) geoA (Or.inl (by show 6 < 9; omega)) (x := wide 3 60) (by show 0 < 3; omega) (by show 60 ≤ 60; omega)
example (junk : Nat → Nat → ℝ) := (C108_backward junk (L := kernels) geoImg rfl rfl rfl rfl rfl (by intro m hm; obtain ⟨_, _, rfl⟩ := List.mem_map.1 hm; exact ⟨rfl, rfl⟩) (del := wide 3 40) (by show 0 < 3; omega)
  (by show 3 ≤ 3; omega)).1 (by show 40 ≤ 40; omega)
example (junk : Nat → Nat → ℝ) := (C108_backward junk (L := kernels) geoImg rfl rfl rfl rfl rfl (by intro m hm; obtain ⟨_, _, rfl⟩ := List.mem_map.1 hm; exact ⟨rfl, rfl⟩) (del := wide 2 39) (by show 0 < 2; omega)
  (by show 2 ≤ 3; omega)).2 (by show 39 < 40; omega)
example (junk : Nat → Nat → ℝ) := C108_rows_refuted junk (L := kernels) geoImg rfl rfl rfl rfl rfl (by intro m hm; obtain ⟨_, _, rfl⟩ := List.mem_map.1 hm; exact ⟨rfl, rfl⟩) (del := wide 4 40)
  (by show 3 < 4; omega) (by show 40 ≤ 40; omega)
example (junk : Nat → Nat → ℝ) := C108_geometry_refuted junk (L := kernel22) (c := { geoConv 4 4 1 1 2 1 0 with images := (List.range 3).map (fun _ => wide 4 4) }) (pd := 0)
  ⟨rfl, rfl, rfl, rfl, rfl, rfl, rfl, rfl, rfl, rfl, rfl, by norm_num, by norm_num, by norm_num, by norm_num, by norm_num, by norm_num, by norm_num, by norm_num, by norm_num, by norm_num⟩
  (by norm_num) ⟨by norm_num, by norm_num⟩ ⟨by norm_num, by norm_num⟩ (del := wide 3 9) (by show 0 < 3; omega) (I := fun _ => wide 4 4) (fun _ _ => ⟨rfl, rfl⟩) rfl rfl rfl rfl rfl
  (by show 1 * (Spec.outLen 4 2 1 0 * Spec.outLen 4 2 1 0) ≤ 9; decide)

end Witness
end
end Nnet.NN
