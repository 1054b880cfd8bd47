import Verif.Model.Rack
import Verif.Props.Reported
import Verif.Props.Conjugate

/-! # Properties C72, C73, C95: racks -/

namespace Verif

open Real
open scoped Matrix

/-! ## C72 -/

/-- The unit vector of `dir` perpendicular to the axis of the gear. -/
noncomputable def towards (g : WGear) (dir : V3) : V3 :=
  (norm3 (dir - dot dir g.core.transform.zAxis • g.core.transform.zAxis))⁻¹ •
    (dir - dot dir g.core.transform.zAxis • g.core.transform.zAxis)

/-- The direction in which a positive turn of the gear moves its points on the side of `dir`. -/
noncomputable def turnDir (g : WGear) (dir : V3) : V3 := cross g.core.transform.zAxis (towards g dir)

/-- The direction as the gear sees it. -/
theorem towards_polar (g : WGear) (dir : V3) (hO : IsRot g.core.transform.orientation)
    (hd : dir - dot dir g.core.transform.zAxis • g.core.transform.zAxis ≠ 0) :
    let θ := angleOfVectorInXY (Matrix.vecMul dir g.core.transform.orientation)
    towards g dir = app g.core.transform.orientation (polarVec θ) ∧
      turnDir g dir = app g.core.transform.orientation (polarVec (θ + π / 2)) := by
  intro θ
  obtain ⟨O, hOe⟩ : ∃ O, O = g.core.transform.orientation := ⟨_, rfl⟩
  obtain ⟨w, hw⟩ : ∃ w, w = app Oᵀ dir := ⟨_, rfl⟩
  have hz : g.core.transform.zAxis = app O OUT := by rw [hOe]; exact zAxis_eq _
  rw [← hOe] at hO
  have hdw : dir = app O w := by rw [hw, hO.app_app_T]
  have hproj : dir - dot dir g.core.transform.zAxis • g.core.transform.zAxis = app O ![w 0, w 1, 0] := by
    rw [hz, hdw, hO.dot_app, ← app_smul, ← app_sub]
    congr 1
    apply V3.ext3 <;> simp [dot, OUT]
  have hθ : θ = Complex.arg ⟨w 0, w 1⟩ := by
    simp only [θ, ← hOe, vecMul_eq, ← hw, angleOfVectorInXY, arctan2]
  obtain ⟨ρ, hρ⟩ : ∃ ρ, ρ = ‖(⟨w 0, w 1⟩ : ℂ)‖ := ⟨_, rfl⟩
  have hc : w 0 = ρ * cos θ := by rw [hρ, hθ]; exact (Complex.norm_mul_cos_arg ⟨w 0, w 1⟩).symm
  have hs : w 1 = ρ * sin θ := by rw [hρ, hθ]; exact (Complex.norm_mul_sin_arg ⟨w 0, w 1⟩).symm
  have hv : ![w 0, w 1, 0] = ρ • polarVec θ := by
    apply V3.ext3 <;> simp [polarVec, ← hc, ← hs]
  have hρ0 : 0 < ρ := by
    rcases (norm_nonneg (⟨w 0, w 1⟩ : ℂ)).lt_or_eq with h | h
    · rw [hρ]; exact h
    · exfalso; apply hd; rw [hproj, hv, hρ, ← h, zero_smul, app_zero]
  have h1 : towards g dir = app O (polarVec θ) := by
    rw [towards, hproj, hv, app_smul, norm3_smul, hO.norm_app, norm3_eq_of_dot zero_le_one (by rw [polarVec_unit]; norm_num),
      abs_of_pos hρ0, smul_smul, mul_one, inv_mul_cancel₀ hρ0.ne', one_smul]
  refine ⟨hOe ▸ h1, ?_⟩
  rw [turnDir, h1, hz, hO.cross_app, ← hOe]
  congr 1
  apply V3.ext3 <;> simp [cross, OUT, polarVec, cos_add_pi_div_two, sin_add_pi_div_two]

/-- The outcome of meshing a rack. -/
theorem rack_meshTo (r : Rack) (g : WGear) (dir : V3) (offset : ℝ) (hO : IsRot g.core.transform.orientation)
    (hd : dir - dot dir g.core.transform.zAxis • g.core.transform.zAxis ≠ 0) :
    let θ := angleOfVectorInXY (Matrix.vecMul dir g.core.transform.orientation)
    ∃ r', r.meshTo g dir offset = some r' ∧ towards g dir = app g.core.transform.orientation (polarVec θ) ∧
      r'.offset = Int.fract ((θ - g.angle) / g.pitchAngle) - 1 / 2 + offset ∧
      r' = { r with offset := r'.offset, position := r'.position, orientation := r'.orientation } ∧
      ∀ p, r'.placed p = g.center + (g.pitchRadius + g.input.profileShift * g.module_ - r.module_ * p 0) • towards g dir -
        (r.module_ * (p 1 + r'.offset * π)) • turnDir g dir + (r.module_ * p 2) • g.core.transform.zAxis := by
  obtain ⟨h1, h2⟩ := towards_polar g dir hO hd
  intro θ
  have hθ : θ = angleOfVectorInXY (Matrix.vecMul dir g.core.transform.orientation) := rfl
  clear_value θ
  rw [← hθ] at h1 h2
  refine ⟨{ r with
      offset := Int.fract ((θ - g.angle) / g.pitchAngle) - 1 / 2 + offset
      orientation := g.core.transform.orientation * Rz (π + θ)
      position := g.core.transform.center + (g.pitchRadius + g.input.profileShift * g.module_) • towards g dir },
    ?_, h1, rfl, rfl, ?_⟩
  · rw [Rack.meshTo]
    simp only [projectVectorToPlane]
    rw [normalizeVector_eq hd]
    simp only [Int.fract_fract, ← hθ]
    rfl
  · intro p
    simp only [Rack.placed]
    obtain ⟨k, hk⟩ : ∃ k, k = Int.fract ((θ - g.angle) / g.pitchAngle) - 1 / 2 + offset := ⟨_, rfl⟩
    rw [← hk]
    have e : app (g.core.transform.orientation * Rz (π + θ)) (r.module_ • (p + (k * π) • UP)) =
        -(r.module_ * p 0) • towards g dir - (r.module_ * (p 1 + k * π)) • turnDir g dir +
          (r.module_ * p 2) • g.core.transform.zAxis := by
      rw [app_mul, h1, h2, zAxis_eq, ← app_smul, ← app_smul, ← app_smul, ← app_sub, ← app_add]
      congr 1
      apply V3.ext3 <;>
        simp only [Rz_app, Pi.add_apply, Pi.sub_apply, Pi.smul_apply, smul_eq_mul, polarVec, UP, OUT, cos_add_pi_div_two,
          sin_add_pi_div_two, cos_add, sin_add, cos_pi, sin_pi] <;> simp <;> ring
    rw [e, WGear.center]
    module

/-- **C72, placement**. The rack meshed to a gear with offset 0: its teeth point at the axis of the gear, its pitch line
is at the distance of pitch radius plus profile shift from the axis, its z axis is the one of the gear, and it is shifted along
its pitch line by at most half a pitch (`π` times its module). -/
theorem c72_place (r : Rack) (g : WGear) (dir : V3) (hO : IsRot g.core.transform.orientation)
    (hd : dir - dot dir g.core.transform.zAxis • g.core.transform.zAxis ≠ 0) (hm : 0 < r.module_) :
    ∃ r' s, r.meshTo g dir 0 = some r' ∧ |s| ≤ π * r.module_ / 2 ∧
      ∀ p, r'.placed p = g.center + (g.pitchRadius + g.input.profileShift * g.module_ - r.module_ * p 0) • towards g dir +
        (s - r.module_ * p 1) • turnDir g dir + (r.module_ * p 2) • g.core.transform.zAxis := by
  obtain ⟨r', h1, -, h3, -, h5⟩ := rack_meshTo r g dir 0 hO hd
  obtain ⟨θ, hθ⟩ : ∃ θ, θ = angleOfVectorInXY (Matrix.vecMul dir g.core.transform.orientation) := ⟨_, rfl⟩
  rw [← hθ] at h3
  refine ⟨r', -(r.module_ * (r'.offset * π)), h1, ?_, fun p => ?_⟩
  · have ha : |r'.offset| ≤ 1 / 2 := by
      have f0 := Int.fract_nonneg ((θ - g.angle) / g.pitchAngle)
      have f1 := (Int.fract_lt_one ((θ - g.angle) / g.pitchAngle)).le
      rw [h3, abs_le]
      constructor <;> linarith
    rw [abs_neg, abs_mul, abs_mul, abs_of_pos hm, abs_of_pos pi_pos]
    have := mul_le_mul_of_nonneg_left ha (by positivity : 0 ≤ r.module_ * π)
    linarith
  · rw [h5]; module

theorem towards_setAngle (g : WGear) (dir : V3) (v : ℝ) :
    towards (g.setAngle v) dir = towards g dir ∧ turnDir (g.setAngle v) dir = turnDir g dir := ⟨rfl, rfl⟩

/-- **C72, whole pitches**. Turning the gear by whole pitches does not change the meshed rack at all. -/
theorem c72_periodic (r : Rack) (g : WGear) (dir : V3) (offset : ℝ) (hn : g.numberOfTeeth ≠ 0) (k : ℤ) :
    r.meshTo (g.setAngle (g.angle + k * g.pitchAngle)) dir offset = r.meshTo g dir offset := by
  have hp : g.pitchAngle ≠ 0 := by
    rw [WGear.pitchAngle, GearToothParam.pitchAngle]
    have : g.core.tooth.numTeeth ≠ 0 := hn
    positivity
  have e : ∀ x : ℝ, Int.fract ((x - (g.angle + k * g.pitchAngle)) / g.pitchAngle) = Int.fract ((x - g.angle) / g.pitchAngle) := by
    intro x
    have : (x - (g.angle + k * g.pitchAngle)) / g.pitchAngle = (x - g.angle) / g.pitchAngle - k := by field_simp; ring
    rw [this, Int.fract_sub_intCast]
  simp only [Rack.meshTo]
  have h1 : (g.setAngle (g.angle + k * g.pitchAngle)).angle = g.angle + k * g.pitchAngle := rfl
  have h2 : (g.setAngle (g.angle + k * g.pitchAngle)).pitchAngle = g.pitchAngle := rfl
  have h3 : (g.setAngle (g.angle + k * g.pitchAngle)).core.transform =
    { g.core.transform with angle := g.angle + k * g.pitchAngle } := rfl
  rw [h1, h2, e, h3]
  rfl

/-- **C72, turning**. For a rack of the same module, turning the gear by `δ` before meshing moves every point of the
meshed rack by `rp δ` in the direction in which the gear's teeth move, up to whole pitches. -/
theorem c72_turn (r : Rack) (g : WGear) (dir : V3) (offset δ : ℝ) (hO : IsRot g.core.transform.orientation)
    (hd : dir - dot dir g.core.transform.zAxis • g.core.transform.zAxis ≠ 0) (hn : g.numberOfTeeth ≠ 0)
    (hm : r.module_ = g.module_) :
    ∃ r' r'', ∃ k : ℤ, r.meshTo g dir offset = some r' ∧ r.meshTo (g.setAngle (g.angle + δ)) dir offset = some r'' ∧
      ∀ p, r''.placed p = r'.placed p + (g.pitchRadius * δ + k * (π * r.module_)) • turnDir g dir := by
  have hn' : g.core.tooth.numTeeth ≠ 0 := hn
  obtain ⟨r', h1, -, h3, -, h5⟩ := rack_meshTo r g dir offset hO hd
  obtain ⟨r'', k1, -, k3, -, k5⟩ := rack_meshTo r (g.setAngle (g.angle + δ)) dir offset hO hd
  have e1 : (g.setAngle (g.angle + δ)).core.transform.orientation = g.core.transform.orientation := rfl
  have e2 : (g.setAngle (g.angle + δ)).angle = g.angle + δ := rfl
  have e3 : (g.setAngle (g.angle + δ)).pitchAngle = g.pitchAngle := rfl
  have e4 : (g.setAngle (g.angle + δ)).center = g.center := rfl
  rw [e1, e2, e3] at k3
  obtain ⟨θ, hθ⟩ : ∃ θ, θ = angleOfVectorInXY (Matrix.vecMul dir g.core.transform.orientation) := ⟨_, rfl⟩
  rw [← hθ] at h3 k3
  refine ⟨r', r'', ⌊(θ - (g.angle + δ)) / g.pitchAngle⌋ - ⌊(θ - g.angle) / g.pitchAngle⌋, h1, k1, fun p => ?_⟩
  rw [h5, k5, (towards_setAngle g dir _).1, (towards_setAngle g dir _).2, e4]
  have hkey : r.module_ * (p 1 + r'.offset * π) - r.module_ * (p 1 + r''.offset * π) = g.pitchRadius * δ +
      ((⌊(θ - (g.angle + δ)) / g.pitchAngle⌋ - ⌊(θ - g.angle) / g.pitchAngle⌋ : ℤ) : ℝ) * (π * r.module_) := by
    rw [h3, k3, Int.fract, Int.fract, WGear.pitchRadius, hm, WGear.pitchAngle, GearToothParam.pitchAngle, WGear.module_]
    push_cast
    field_simp
    ring
  rw [← hkey]
  have e5 : (g.setAngle (g.angle + δ)).pitchRadius = g.pitchRadius := rfl
  have e6 : (g.setAngle (g.angle + δ)).input = g.input := rfl
  have e7 : (g.setAngle (g.angle + δ)).module_ = g.module_ := rfl
  have e8 : (g.setAngle (g.angle + δ)).core.transform.zAxis = g.core.transform.zAxis := rfl
  rw [e5, e6, e7, e8]
  module

/-! ## C95 -/

/-- **C95**. The tooth centres of a meshed rack of the same module lie, on the pitch line, where the middles of the
tooth spaces of the gear arrive: the arc from the contact direction to the middle of the `k`-th space, at the angle
`gear.angle + (k + 1/2) pitch`, unrolled on the pitch circle. Gear teeth are at `gear.angle + k pitch`. -/
theorem c95_phase (r : Rack) (g : WGear) (dir : V3) (hO : IsRot g.core.transform.orientation)
    (hd : dir - dot dir g.core.transform.zAxis • g.core.transform.zAxis ≠ 0) (hn : g.numberOfTeeth ≠ 0)
    (hm : r.module_ = g.module_) :
    ∃ r' θ, r.meshTo g dir 0 = some r' ∧ towards g dir = app g.core.transform.orientation (polarVec θ) ∧
      ∀ j < r.numTeeth, ∃ k : ℤ, r'.placed (r'.toothCenter j) =
        g.center + (g.pitchRadius + g.input.profileShift * g.module_) • towards g dir +
          (g.pitchRadius * (g.angle + (k + 1 / 2) * g.pitchAngle - θ)) • turnDir g dir := by
  have hn' : g.core.tooth.numTeeth ≠ 0 := hn
  obtain ⟨r', h1, h2, h3, h4, h5⟩ := rack_meshTo r g dir 0 hO hd
  obtain ⟨θ, hθ⟩ : ∃ θ, θ = angleOfVectorInXY (Matrix.vecMul dir g.core.transform.orientation) := ⟨_, rfl⟩
  rw [← hθ] at h2 h3
  refine ⟨r', θ, h1, h2, fun j _ => ?_⟩
  have hN : r'.numTeeth = r.numTeeth := by rw [h4]
  -- the row has its teeth at whole pitches
  obtain ⟨i, hi⟩ : ∃ i : ℤ, r'.toothCenter j = (π * i) • UP := by
    rcases Nat.even_or_odd' r.numTeeth with ⟨c, hc | hc⟩
    · refine ⟨(j : ℤ) - c + 1, ?_⟩
      have hmod : (r.numTeeth + 1) % 2 = 1 := by omega
      rw [Rack.toothCenter, hN, hmod, hc]
      congr 1
      push_cast
      ring
    · refine ⟨(j : ℤ) - c, ?_⟩
      have hmod : (r.numTeeth + 1) % 2 = 0 := by omega
      rw [Rack.toothCenter, hN, hmod, hc]
      congr 1
      push_cast
      ring
  refine ⟨⌊(θ - g.angle) / g.pitchAngle⌋ - i, ?_⟩
  rw [h5, hi]
  have hkey : -(r.module_ * (π * i + r'.offset * π)) =
      g.pitchRadius * (g.angle + (((⌊(θ - g.angle) / g.pitchAngle⌋ - i : ℤ) : ℝ) + 1 / 2) * g.pitchAngle - θ) := by
    rw [h3, Int.fract, WGear.pitchRadius, hm, WGear.pitchAngle, GearToothParam.pitchAngle, WGear.module_]
    push_cast
    field_simp
    ring
  rw [← hkey]
  simp only [Pi.smul_apply, UP, smul_eq_mul]
  simp
  module

/-- A concrete case for C72 and C95. -/
example : let g := (involuteGear exampleInput).place ![1, 2, 3] (Rx (π / 3)) (1 / 2)
    IsRot g.core.transform.orientation ∧ RIGHT - dot RIGHT g.core.transform.zAxis • g.core.transform.zAxis ≠ 0 ∧
      g.numberOfTeeth ≠ 0 := by
  intro g
  refine ⟨IsRot.Rx _, fun h => ?_, ?_⟩
  · have h0 := congrFun h 0
    simp [g, WGear.place, zAxis_eq, app_0, Rx, OUT, RIGHT, dot] at h0
  · have hn : (0 : ℝ) < 24 := by norm_num
    have : g.numberOfTeeth = 24 := by
      simp [g, WGear.place, WGear.numberOfTeeth, involuteGear, GearInput.normalise, GearInput.calcParams, exampleInput,
        not_lt.2 hn.le, make_pos hn]
    rw [this]; exact hn.ne'

/-! ## C73 -/

/-- Adding to distinct arrays. -/
theorem addTo_foldl (diff : V3) : ∀ (L : List ℕ) (w : RackWorld), L.Nodup → (∀ i ∈ L, i < w.arrays.length) →
    (L.foldl (fun w i => w.addTo diff i) w).racks = w.racks ∧
      (L.foldl (fun w i => w.addTo diff i) w).arrays.length = w.arrays.length ∧
      ∀ i, (L.foldl (fun w i => w.addTo diff i) w).get i = if i ∈ L then w.get i + diff else w.get i := by
  intro L
  induction L with
  | nil => intro w _ _; exact ⟨rfl, rfl, fun i => by simp⟩
  | cons a L ih =>
    intro w hnd hl
    rw [List.nodup_cons] at hnd
    have ha := hl a (by simp)
    obtain ⟨h1, h2, h3⟩ := ih (w.addTo diff a) hnd.2 (fun i hi => by
      simp only [RackWorld.addTo, List.length_set]; exact hl i (by simp [hi]))
    refine ⟨h1, by rw [List.foldl_cons, h2]; simp [RackWorld.addTo], fun i => ?_⟩
    rw [List.foldl_cons, h3]
    have hg : (w.addTo diff a).get i = if i = a then w.get i + diff else w.get i := by
      simp only [RackWorld.addTo, RackWorld.get, List.getD_eq_getElem?_getD]
      split_ifs with h
      · rw [h, List.getElem?_set_self ha]; rfl
      · rw [List.getElem?_set_ne (Ne.symm h)]
    rw [hg]
    by_cases hia : i = a
    · subst hia; simp [hnd.1]
    · simp [hia]

/-- The reference lines of the `i`-th rack. -/
def rackLinesAt (i : ℕ) : RackLines :=
  let n := 3 + 6 * i
  ⟨⟨n, n + 1⟩, ⟨0, 1⟩, ⟨n + 2, n + 3⟩, ⟨n + 4, n + 5⟩⟩

/-- Which arrays the racks refer to. -/
def RackWorld.Ok (w : RackWorld) : Prop :=
  w.arrays.length = 3 + 6 * w.racks.length ∧ ∀ (i : ℕ) (r : RackLines), w.racks[i]? = some r → r = rackLinesAt i

theorem setCenter_effect {w : RackWorld} (h : w.Ok) {i : ℕ} {r : RackLines} (hi : w.racks[i]? = some r) (v : V3) :
    (w.setCenter r v).Ok ∧ (w.setCenter r v).racks = w.racks ∧
      ∀ x, (w.setCenter r v).get x = if x ∈ [r.a.p0, r.a.p1, r.p.p0, r.p.p1, r.d.p0, r.d.p1, r.o.p0, r.o.p1] then
        w.get x + (v - w.center r) else w.get x := by
  obtain ⟨hl, hr⟩ := h
  have hlt : i < w.racks.length := (List.getElem?_eq_some_iff.1 hi).1
  have hri := hr i r hi
  have key := addTo_foldl (v - w.center r) [r.a.p0, r.a.p1, r.p.p0, r.p.p1, r.d.p0, r.d.p1, r.o.p0, r.o.p1] w
    (by rw [hri]; simp [rackLinesAt]; omega) (by rw [hri]; simp [rackLinesAt]; omega)
  refine ⟨⟨?_, ?_⟩, key.1, key.2.2⟩
  · rw [RackWorld.setCenter, key.1, key.2.1, hl]
  · rw [RackWorld.setCenter, key.1]; exact hr

theorem ok_run {w : RackWorld} (h : w.Ok) (op : RackOp) : (op.run w).Ok := by
  cases op with
  | create l =>
    obtain ⟨hl, hr⟩ := h
    refine ⟨by simp [RackOp.run, RackWorld.create, hl]; omega, fun i r hi => ?_⟩
    simp only [RackOp.run, RackWorld.create] at hi
    by_cases hlt : i < w.racks.length
    · rw [List.getElem?_append_left hlt] at hi; exact hr i r hi
    · rw [List.getElem?_append_right (by omega)] at hi
      have : i - w.racks.length = 0 := by
        by_contra hne
        rw [List.getElem?_eq_none (by simp; omega)] at hi
        simp at hi
      rw [this] at hi
      simp only [List.getElem?_cons_zero, Option.some.injEq] at hi
      have hii : i = w.racks.length := by omega
      rw [← hi, hl, hii]; rfl
  | setCenter i v =>
    simp only [RackOp.run]
    split
    · rename_i r hr; exact (setCenter_effect h hr v).1
    · exact h

theorem ok_history (ops : List RackOp) : (ops.foldl RackOp.run RackWorld.initial).Ok := by
  have key : ∀ (ops : List RackOp) (w : RackWorld), w.Ok → (ops.foldl RackOp.run w).Ok := by
    intro ops
    induction ops with
    | nil => intro w h; exact h
    | cons op ops ih => intro w h; exact ih _ (ok_run h op)
  exact key ops _ ⟨rfl, by simp [RackWorld.initial]⟩

/-- **C73** (`_partial`: the constants `UP` and `DOWN` and the pitch lines of the other racks do change, see below).
After any history, assigning the centre of a rack: it is read back, all its lines move by the same vector, the constant
`RIGHT` and the addendum, dedendum and outside lines of all other racks stay. -/
theorem c73_partial (ops : List RackOp) (w : RackWorld) (hw : w = ops.foldl RackOp.run RackWorld.initial) (i : ℕ)
    (r : RackLines) (hi : w.racks[i]? = some r) (v : V3) :
    (w.setCenter r v).center r = v ∧
      (∀ l ∈ [r.a, r.p, r.d, r.o], (w.setCenter r v).get l.p0 = w.get l.p0 + (v - w.center r) ∧
        (w.setCenter r v).get l.p1 = w.get l.p1 + (v - w.center r)) ∧
      (w.setCenter r v).get 2 = w.get 2 ∧
      ∀ (j : ℕ) (r' : RackLines), j ≠ i → w.racks[j]? = some r' → ∀ l ∈ [r'.a, r'.d, r'.o],
        (w.setCenter r v).get l.p0 = w.get l.p0 ∧ (w.setCenter r v).get l.p1 = w.get l.p1 := by
  have hok : w.Ok := hw ▸ ok_history ops
  obtain ⟨-, -, hg⟩ := setCenter_effect hok hi v
  have hri := hok.2 i r hi
  refine ⟨?_, ?_, ?_, ?_⟩
  · have hc : w.center r = (1 / 2 : ℝ) • (w.get r.p.p0 + w.get r.p.p1) := rfl
    rw [RackWorld.center, hg, hg, if_pos (by simp), if_pos (by simp)]
    obtain ⟨x, hx⟩ : ∃ x, x = w.center r := ⟨_, rfl⟩
    rw [← hx] at hc ⊢
    have : (1 / 2 : ℝ) • (w.get r.p.p0 + (v - x) + (w.get r.p.p1 + (v - x))) =
      (1 / 2 : ℝ) • (w.get r.p.p0 + w.get r.p.p1) + (v - x) := by module
    rw [this, ← hc]; abel
  · intro l hl
    simp only [List.mem_cons, List.not_mem_nil, or_false] at hl
    rcases hl with rfl | rfl | rfl | rfl <;> exact ⟨by rw [hg, if_pos (by simp)], by rw [hg, if_pos (by simp)]⟩
  · rw [hg, if_neg]
    rw [hri]; simp [rackLinesAt]; omega
  · intro j r' hji hj l hl
    have hrj := hok.2 j r' hj
    simp only [List.mem_cons, List.not_mem_nil, or_false] at hl
    rcases hl with rfl | rfl | rfl <;> constructor <;> rw [hg, if_neg] <;> rw [hri, hrj] <;> simp [rackLinesAt] <;> omega

/-- **C73, constants.** After any history `RIGHT` has its value, and `UP` and `DOWN` differ from theirs by the same vector. A
rack that is created then has its addendum, dedendum and outside lines at the prescribed heights from the moved `UP`. -/
theorem c73_constants (ops : List RackOp) (w : RackWorld) (hw : w = ops.foldl RackOp.run RackWorld.initial) :
    w.get 2 = RIGHT ∧ ∃ d, w.get 0 = UP + d ∧ w.get 1 = DOWN + d ∧
      ∀ l : ToothLimitParam, ∃ r, (w.create l).racks[w.racks.length]? = some r ∧
        (w.create l).get r.a.p0 = UP + d + l.hA • RIGHT ∧ (w.create l).get r.d.p0 = UP + d - l.hD • RIGHT ∧
        (w.create l).get r.o.p0 = UP + d - l.hO • RIGHT := by
  have key : ∀ (ops : List RackOp) (w : RackWorld), w.Ok → w.get 2 = RIGHT → (∃ d, w.get 0 = UP + d ∧ w.get 1 = DOWN + d) →
      (ops.foldl RackOp.run w).get 2 = RIGHT ∧
        ∃ d, (ops.foldl RackOp.run w).get 0 = UP + d ∧ (ops.foldl RackOp.run w).get 1 = DOWN + d := by
    intro ops
    induction ops with
    | nil => intro w _ h hd; exact ⟨h, hd⟩
    | cons op ops ih =>
      intro w hok h hd
      refine ih _ (ok_run hok op) ?_ ?_
      · cases op with
        | create l =>
          change (w.arrays ++ _).getD 2 0 = _
          rw [List.getD_eq_getElem?_getD, List.getElem?_append_left (by have := hok.1; omega), ← List.getD_eq_getElem?_getD]; exact h
        | setCenter i v =>
          simp only [RackOp.run]
          split
          · rename_i r hr
            rw [(setCenter_effect hok hr v).2.2, if_neg, h]
            rw [hok.2 i r hr]; simp [rackLinesAt]; omega
          · exact h
      · obtain ⟨d, h0, h1⟩ := hd
        cases op with
        | create l =>
          refine ⟨d, ?_, ?_⟩
          · change (w.arrays ++ _).getD 0 0 = _
            rw [List.getD_eq_getElem?_getD, List.getElem?_append_left (by have := hok.1; omega), ← List.getD_eq_getElem?_getD]; exact h0
          · change (w.arrays ++ _).getD 1 0 = _
            rw [List.getD_eq_getElem?_getD, List.getElem?_append_left (by have := hok.1; omega), ← List.getD_eq_getElem?_getD]; exact h1
        | setCenter i v =>
          simp only [RackOp.run]
          split
          · rename_i r hr
            refine ⟨d + (v - w.center r), ?_, ?_⟩
            · rw [(setCenter_effect hok hr v).2.2, if_pos, h0, add_assoc]
              rw [hok.2 i r hr]; simp [rackLinesAt]
            · rw [(setCenter_effect hok hr v).2.2, if_pos, h1, add_assoc]
              rw [hok.2 i r hr]; simp [rackLinesAt]
          · exact ⟨d, h0, h1⟩
  obtain ⟨h2, d, h0, h1⟩ := key ops RackWorld.initial (ok_history []) rfl ⟨0, by simp [RackWorld.initial, RackWorld.get],
    by simp [RackWorld.initial, RackWorld.get]⟩
  rw [← hw] at h0 h1 h2
  refine ⟨h2, d, h0, h1, fun l => ⟨_, by simp [RackWorld.create]; rfl, ?_, ?_, ?_⟩⟩ <;>
    simp [RackWorld.create, RackWorld.get, List.getD_eq_getElem?_getD, List.getElem?_append] <;>
    rw [← List.getD_eq_getElem?_getD, ← List.getD_eq_getElem?_getD, ← RackWorld.get, ← RackWorld.get, h0, h2]

/-- **C73 is violated**: after any history, assigning the centre of a rack changes the constant `UP` by the same vector,
and the pitch line of every rack gets the assigned centre. -/
theorem c73_violated (ops : List RackOp) (w : RackWorld) (hw : w = ops.foldl RackOp.run RackWorld.initial) (i : ℕ)
    (r : RackLines) (hi : w.racks[i]? = some r) (v : V3) (hv : v ≠ w.center r) :
    (w.setCenter r v).get 0 = w.get 0 + (v - w.center r) ∧ (w.setCenter r v).get 0 ≠ w.get 0 ∧
      ∀ (j : ℕ) (r' : RackLines), w.racks[j]? = some r' → (w.setCenter r v).center r' = v := by
  have hok : w.Ok := hw ▸ ok_history ops
  obtain ⟨-, -, hg⟩ := setCenter_effect hok hi v
  have hri := hok.2 i r hi
  have h0 : (w.setCenter r v).get 0 = w.get 0 + (v - w.center r) := by
    rw [hg, if_pos]; rw [hri]; simp [rackLinesAt]
  refine ⟨h0, ?_, ?_⟩
  · rw [h0]; intro h; apply hv; rw [← sub_eq_zero]; simpa using h
  · intro j r' hj
    have hrj := hok.2 j r' hj
    have : r'.p = r.p := by rw [hri, hrj]; rfl
    have h := (c73_partial ops w hw i r hi v).1
    rw [RackWorld.center, this]
    exact h

/-- A concrete case: two racks, the first one is moved. The constant `UP` becomes `(1, 1, 0)`, and the second rack is at
the place of the first. -/
example (l : ToothLimitParam) : let w := [RackOp.create l, .create l].foldl RackOp.run RackWorld.initial
    ∃ r r', w.racks[0]? = some r ∧ w.racks[1]? = some r' ∧ RIGHT ≠ w.center r ∧ (w.setCenter r RIGHT).get 0 = ![1, 1, 0] ∧
      (w.setCenter r RIGHT).center r' = RIGHT := by
  intro w
  have hc : w.center (rackLinesAt 0) = 0 := by
    apply V3.ext3 <;> simp [w, RackWorld.center, rackLinesAt, RackWorld.get, RackOp.run, RackWorld.create,
      RackWorld.initial, UP, DOWN]
  have hne : RIGHT ≠ w.center (rackLinesAt 0) := by
    rw [hc]; intro h; have := congrFun h 0; simp [RIGHT] at this
  have h := c73_violated [.create l, .create l] w rfl 0 (rackLinesAt 0) rfl RIGHT hne
  refine ⟨rackLinesAt 0, rackLinesAt 1, rfl, rfl, hne, ?_, h.2.2 1 _ rfl⟩
  rw [h.1, hc]
  apply V3.ext3 <;> simp [w, RackWorld.get, RackOp.run, RackWorld.create, RackWorld.initial, UP, RIGHT]

end Verif
