import Verif.Model.Build
import Verif.Props.Reported
import Mathlib.Data.Nat.Size

/-! # Properties C70, C74, C75, C76: wires, builds, tooth patterns -/

namespace Verif

open Real

/-! ## C75 -/

theorem shapeDict_eq (k : ℕ) : shapeDict k = List.range (2 ^ k) := by
  induction k with
  | zero => rfl
  | succ k ih =>
    rw [shapeDict, ih, pow_succ, mul_two, List.range_add]
    congr 1
    apply List.map_congr_left
    intro x _; exact Nat.add_comm _ _

theorem fuseLoop_eq (n k : ℕ) : fuseLoop n k = (List.range (n % 2 ^ k), n % 2 ^ k) := by
  induction k with
  | zero => simp [fuseLoop, Nat.mod_one]
  | succ k ih =>
    have hmod : n % 2 ^ (k + 1) = n % 2 ^ k + 2 ^ k * (n.testBit k).toNat := by
      rw [Nat.mod_pow_succ, Nat.toNat_testBit]
    rw [fuseLoop, ih, hmod]
    cases h : n.testBit k
    · simp
    · simp only [if_true, Bool.toNat_true, mul_one, shapeDict_eq, List.range_add, Prod.mk.injEq, and_true]
      congr 1
      apply List.map_congr_left
      intro x _; exact Nat.add_comm _ _

/-- **C75**. For every tooth count, the fused solid covers each of the positions `0, …, n - 1` (in pitches) exactly
once and no other, in this order. -/
theorem c75_cover (n : ℕ) : fusedTeeth n = List.range n ∧ (∀ i, (fusedTeeth n).count i = if i < n then 1 else 0) := by
  have h : fusedTeeth n = List.range n := by
    rw [fusedTeeth, fuseLoop_eq, Nat.mod_eq_of_lt (Nat.size_le.1 le_rfl)]
  refine ⟨h, fun i => ?_⟩
  rw [h]
  split_ifs with hi
  · exact List.count_eq_one_of_mem List.nodup_range (List.mem_range.2 hi)
  · exact List.count_eq_zero_of_not_mem (by simpa using hi)

example : fusedTeeth 13 = [0, 1, 2, 3, 4, 5, 6, 7, 8, 9, 10, 11, 12] := (c75_cover 13).1

/-! ## C74 -/

/-- **C74** (`_partial`: a conical gear whose surface generation raises is refuted below). A successful build, any failing
build of a cylindrical gear, and a failure after the surfaces of a conical gear leave the sections as they were. -/
theorem c74_partial (coneAngle ratio : ℝ) (failure : Option BuildFailure) (zs : List ℝ)
    (h : coneAngle = 0 ∨ failure ≠ some .inSurfaces) :
    (gearBuilder coneAngle ratio failure zs).1 = zs ∧
      ((gearBuilder coneAngle ratio failure zs).2 = true ↔ failure = none) := by
  rw [gearBuilder]
  split_ifs with h0
  · simp
  · rcases h with h | h
    · exact absurd h h0
    · match failure, h with
      | none, _ => simp
      | some .later, _ => simp
      | some .inSurfaces, h => exact absurd rfl h

/-- **C74 is violated**: each build of a conical gear that fails in the surface generation makes the gear higher,
by the factor `1 + 2 ratio`. -/
theorem c74_violated (coneAngle ratio a b : ℝ) (hc : coneAngle ≠ 0) (hr : 0 < ratio) (hab : a < b) (k : ℕ) :
    ∃ a' b', buildAttempts coneAngle ratio (List.replicate k (some .inSurfaces)) [a, b] = [a', b'] ∧
      b' - a' = (b - a) * (1 + 2 * ratio) ^ k ∧ (0 < k → a' < a ∧ b < b') := by
  induction k generalizing a b with
  | zero => exact ⟨a, b, rfl, by simp, by simp⟩
  | succ k ih =>
    have hstep : (gearBuilder coneAngle ratio (some .inSurfaces) [a, b]).1 =
        [a - ratio * (b - a), b + ratio * (b - a)] := by
      simp [gearBuilder, hc]
    have hpos : 0 < ratio * (b - a) := mul_pos hr (sub_pos.2 hab)
    obtain ⟨a', b', h1, h2, h3⟩ := ih (a - ratio * (b - a)) (b + ratio * (b - a)) (by linarith)
    refine ⟨a', b', ?_, ?_, fun _ => ?_⟩
    · rw [List.replicate_succ, buildAttempts, hstep, h1]
    · rw [h2, pow_succ]; ring
    · rcases Nat.eq_zero_or_pos k with rfl | hk
      · simp only [List.replicate_zero, buildAttempts, List.cons.injEq, and_true] at h1
        rw [← h1.1, ← h1.2]
        exact ⟨by linarith, by linarith⟩
      · obtain ⟨h4, h5⟩ := h3 hk
        exact ⟨by linarith, by linarith⟩

example : (π / 2 : ℝ) ≠ 0 ∧ (0 : ℝ) < 1 / 100 ∧ (0 : ℝ) < 5 := ⟨by positivity, by norm_num, by norm_num⟩

/-! ## C70 and C76 -/

/-- The transform turned by `k` pitches. -/
noncomputable def turned (t : GearTransform) (pitchAngle : ℝ) (k : ℕ) : GearTransform :=
  { t with angle := t.angle + k * pitchAngle }

theorem boundaryLoop_eq (pa : ℝ) (n : ℕ) (t : GearTransform) :
    boundaryLoop pa n t = ((List.range n).map (turned t pa), turned t pa n) := by
  induction n generalizing t with
  | zero => simp [boundaryLoop, turned]
  | succ n ih =>
    rw [boundaryLoop, ih, List.range_succ_eq_map]
    have e : ∀ k : ℕ, turned { t with angle := t.angle + pa } pa k = turned t pa (k + 1) := by
      intro k; simp only [turned]; push_cast; congr 1; ring
    have e0 : turned t pa 0 = t := by simp [turned]
    simp only [List.map_cons, List.map_map, e0, Prod.mk.injEq, List.cons.injEq, true_and]
    refine ⟨?_, e n⟩
    apply List.map_congr_left
    intro k _; exact e k

theorem npRound_nat (n : ℕ) : npRound n = n := by
  simp [npRound]

theorem boundaryEdges_nat (n : ℕ) (hn : 0 < n) (t : GearTransform) :
    boundaryEdges (2 * π / n) t = ((List.range n).map (turned t (2 * π / n)), { t with angle := t.angle + 2 * π }) := by
  have hn' : (n : ℝ) ≠ 0 := by positivity
  have e : 2 * π / (2 * π / n) = n := by field_simp
  rw [boundaryEdges, e, npRound_nat, Int.toNat_natCast, boundaryLoop_eq]
  simp only [turned, Prod.mk.injEq, true_and]
  congr 1
  field_simp

/-- **C76** (`_partial`: whole tooth counts without cut-out teeth; the others are refuted below). One copy of the profile
per actual tooth, the `k`-th one placed as the gear turned by `k` pitches. -/
theorem c76_partial (tooth : GearToothParam) (n : ℕ) (hn : 0 < n) (h1 : tooth.numTeeth = n)
    (h2 : tooth.numCutoutTeeth = 0) (t : GearTransform) :
    ((boundaryEdges tooth.pitchAngle t).1.length : ℤ) = tooth.numTeethAct ∧
      ∀ k < n, ∃ t', (boundaryEdges tooth.pitchAngle t).1[k]? = some t' ∧ ∀ q,
        applyGearTransform q t' = applyGearTransform (app (Rz (2 * π * (k / n))) q) t := by
  rw [GearToothParam.pitchAngle, h1, boundaryEdges_nat n hn]
  constructor
  · simp [GearToothParam.numTeethAct, h1, h2]
  · intro k hk
    refine ⟨turned t (2 * π / n) k, by simp [List.getElem?_range hk], fun q => ?_⟩
    rw [applyGearTransform_eq, applyGearTransform_eq]
    simp only [turned]
    rw [Rz_add, app_mul]
    congr 5
    ring

/-- **C76 is violated** for fractional tooth counts: a gear of 7.6 teeth has 7 actual teeth, 8 copies are emitted. -/
theorem c76_fraction_violated (t : GearTransform) : let tooth := GearToothParam.make (38 / 5) 0 false
    tooth.numTeethAct = 7 ∧ (boundaryEdges tooth.pitchAngle t).1.length = 8 := by
  intro tooth
  have ht : tooth = ⟨38 / 5, 0, false⟩ := make_pos (by norm_num) _ _
  have hf : ⌊(38 / 5 : ℝ)⌋ = 7 := by rw [Int.floor_eq_iff]; norm_num
  have hr : npRound (38 / 5) = 8 := by
    have : Int.fract (38 / 5 : ℝ) = 3 / 5 := by rw [Int.fract, hf]; norm_num
    rw [npRound, this, hf]; norm_num
  constructor
  · rw [ht, GearToothParam.numTeethAct]; simp [hf]
  · have e : 2 * π / (2 * π / (38 / 5)) = (38 / 5 : ℝ) := by field_simp
    rw [ht, GearToothParam.pitchAngle, boundaryEdges, e, hr, boundaryLoop_eq]
    simp

/-- **C76 is violated** for gears with cut-out teeth: all teeth are emitted. -/
theorem c76_cutout_violated (tooth : GearToothParam) (n : ℕ) (hn : 0 < n) (h1 : tooth.numTeeth = n)
    (h2 : 1 ≤ tooth.numCutoutTeeth) (t : GearTransform) :
    tooth.numTeethAct < (boundaryEdges tooth.pitchAngle t).1.length := by
  rw [GearToothParam.pitchAngle, h1, boundaryEdges_nat n hn]
  simp only [GearToothParam.numTeethAct, h1, List.length_map, List.length_range]
  rw [Int.floor_lt]
  push_cast
  linarith

/-- What an involute or cycloid gear hands to `generate_boundary_edges`. -/
theorem make_pitchAngle (p : GearInput) (hn : 0 < p.numTeeth) (make : GearInput → WGear)
    (hmake : make = involuteGear ∨ make = cycloidGear) : (make p).core.recipe.pitchAngle = 2 * π / p.numTeeth := by
  rcases hmake with rfl | rfl
  · rw [involuteGear, normalise_pos hn]; rfl
  · rfl

/-- **C70** (`_partial`: for whole tooth counts the gear stays where it is, although its reported angle changes, see
below). After building a boundary wire every point of every slice is where it was. -/
theorem c70_partial (p : GearInput) (n : ℕ) (hn : 0 < n) (hp : p.numTeeth = n) (make : GearInput → WGear)
    (hmake : make = involuteGear ∨ make = cycloidGear) (c : V3) (o : M3) (a z : ℝ) (q : V3) :
    let g := (make p).place c o a
    applyGearTransform q (g.buildBoundaryWire.2.core.transformAt z) = applyGearTransform q (g.core.transformAt z) ∧
      g.buildBoundaryWire.2.center = g.center ∧ g.buildBoundaryWire.2.input = g.input := by
  have hpa := make_pitchAngle p (by rw [hp]; exact_mod_cast hn) make hmake
  intro g
  have hg : g.core.recipe = (make p).core.recipe := rfl
  have e : g.buildBoundaryWire.2 = g.setAngle (g.angle + 2 * π) := by
    simp only [WGear.buildBoundaryWire, hg, hpa, hp, boundaryEdges_nat n hn]; rfl
  rw [e]
  refine ⟨?_, rfl, rfl⟩
  have h2 : ∀ x : ℝ, Rz (x + 2 * π) = Rz x := fun x => by
    rw [Rz_add, show Rz (2 * π) = 1 by simpa using Rz_two_pi_int 1, Matrix.mul_one]
  rw [applyGearTransform_eq, applyGearTransform_eq]
  simp only [GearCore.transformAt, WGear.setAngle, WGear.angle, GearTransform.mul, GearCore.recipeTransform, h2]
  rw [show g.core.transform.angle + 2 * π + g.core.recipe.angle z = g.core.transform.angle + g.core.recipe.angle z + 2 * π by
    ring, h2]

/-- **C70 is violated**: building a boundary wire adds a full turn to the reported angle of the gear. -/
theorem c70_angle_violated (p : GearInput) (n : ℕ) (hn : 0 < n) (hp : p.numTeeth = n) (make : GearInput → WGear)
    (hmake : make = involuteGear ∨ make = cycloidGear) (c : V3) (o : M3) (a : ℝ) :
    let g := (make p).place c o a
    g.buildBoundaryWire.2.angle = g.angle + 2 * π ∧ g.buildBoundaryWire.2.angle ≠ g.angle := by
  have hpa := make_pitchAngle p (by rw [hp]; exact_mod_cast hn) make hmake
  intro g
  have hg : g.core.recipe = (make p).core.recipe := rfl
  have e : g.buildBoundaryWire.2.angle = g.angle + 2 * π := by
    simp only [WGear.buildBoundaryWire, hg, hpa, hp, boundaryEdges_nat n hn]; rfl
  refine ⟨e, ?_⟩
  rw [e]
  have := pi_pos
  linarith

/-- **C70 is violated**, geometry: a gear of 7.6 teeth is turned by each call; the pitch point of the slice at height
0 moves. -/
theorem c70_moved_violated (p : GearInput) (hp : p.numTeeth = 38 / 5) (hm : 0 < p.module_) (make : GearInput → WGear)
    (hmake : make = involuteGear ∨ make = cycloidGear) :
    let g := (make p).place 0 1 0
    applyGearTransform RIGHT (g.buildBoundaryWire.2.core.transformAt 0) ≠
      applyGearTransform RIGHT (g.core.transformAt 0) := by
  have hn : 0 < p.numTeeth := by rw [hp]; norm_num
  have hpa := make_pitchAngle p hn make hmake
  obtain ⟨h1, -, -, -, h4, h5, -⟩ := make_fields p hn make hmake
  intro g
  have hg : g.core.recipe = (make p).core.recipe := rfl
  have hf : ⌊(38 / 5 : ℝ)⌋ = 7 := by rw [Int.floor_eq_iff]; norm_num
  have hr : npRound (38 / 5) = 8 := by
    have : Int.fract (38 / 5 : ℝ) = 3 / 5 := by rw [Int.fract, hf]; norm_num
    rw [npRound, this, hf]; norm_num
  have e1 : 2 * π / (2 * π / (38 / 5)) = (38 / 5 : ℝ) := by field_simp
  have e : g.buildBoundaryWire.2 = g.setAngle (2 * π + 2 * π / 19) := by
    simp only [WGear.buildBoundaryWire, hg, hpa, hp, boundaryEdges, e1, hr, boundaryLoop_eq]
    simp only [turned, WGear.setAngle, g, WGear.place]
    congr 3
    rw [show (Int.toNat 8 : ℝ) = 8 from rfl]
    ring
  rw [e]
  have hang : (make p).core.recipe.angle 0 = 0 := by
    rcases hmake with rfl | rfl
    · rw [involuteGear, normalise_pos hn]
      simp [GearInput.calcParams]
    · simp [cycloidGear, GearInput.calcCycloid]
  rw [applyGearTransform_eq, applyGearTransform_eq]
  simp only [GearCore.transformAt, WGear.setAngle, GearTransform.mul, GearCore.recipeTransform, hg, h4, h5, hang, g,
    WGear.place, h1]
  intro h
  have h0 := congrFun h 0
  simp [app_0, Rz, RIGHT, OUT, Matrix.mulVec, dotProduct, Fin.sum_univ_three] at h0
  have h3 : cos (2 * π / 19) = 1 := by
    rw [add_comm, cos_add_two_pi] at h0
    have : p.module_ * (cos (2 * π / 19) - 1) = 0 := by linarith
    rcases mul_eq_zero.1 this with h | h <;> linarith
  have hpi := pi_pos
  have := (cos_eq_one_iff_of_lt_of_lt (by linarith) (by linarith)).1 h3
  linarith

example : exampleInput.numTeeth = (24 : ℕ) ∧ ({ exampleInput with numTeeth := 38 / 5 } : GearInput).numTeeth = 38 / 5 :=
  ⟨by norm_num [exampleInput], rfl⟩

end Verif
