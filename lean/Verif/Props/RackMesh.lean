import Verif.Props.Rack
import Verif.Props.HelicalGear

/-! # Properties C96 and C97: rack and gear flanks -/

namespace Verif

open Real
open scoped Matrix

/-! ## C96 -/

/-- The curves `F` and `G` oppose each other: they have a common normal `n` through the point `P`, and measured along it
`F` is by `d` ahead of `G`. -/
def Opposed (F G : ℝ → V3) (P n : V3) (d : ℝ) : Prop :=
  ∃ t s c : ℝ, F t = P + c • n ∧ F t - G s = d • n ∧ NormalAt F t n ∧ NormalAt G s n

/-- The slice at height `z` of a gear as a spur gear. -/
noncomputable def WGear.slice (g : WGear) (tSol z : ℝ) : GearObj where
  kind := .involute
  tooth := g.core.tooth
  insideInput := g.input.insideTeeth
  coneAngle := 0
  helixAngle := 0
  module_ := g.core.module_
  baseRadius1 := (g.core.recipe.gen.involuteFlank tSol z).1
  baseAngle := (g.core.recipe.gen.involuteFlank tSol z).2
  transform := g.core.transformAt z

theorem WGear.flank_lower (g : WGear) (tSol z φ : ℝ) (k : ℤ) :
    g.flank false tSol z φ k = (g.slice tSol z).lowerFlank φ k := rfl

theorem WGear.flank_upper (g : WGear) (tSol z φ : ℝ) (k : ℤ) :
    g.flank true tSol z φ k = (g.slice tSol z).upperFlank φ k := rfl

/-- What a rack and a cylindrical gear must have in common. `f` is the tooth half angle of the gear at the height. -/
structure RackFits (r : Rack) (g : WGear) (herringbone : Bool) (tSol f τ z α : ℝ) : Prop where
  teeth : 0 < g.core.tooth.numTeeth
  modulePos : 0 < g.core.module_
  alpha : 0 < cos α
  sameModule : r.module_ = g.core.module_
  samePressure : r.pressureAngle = α
  toothHeight : 0 < r.addendum + r.dedendum
  scaled : g.core.transform.scale = g.core.module_
  involute : g.core.recipe.gen.involuteFlank tSol z = (g.core.tooth.numTeeth / 2 * cos α, -(f + (tan α - α)))
  sliceCenter : g.core.recipe.center z = z • OUT
  sliceScale : g.core.recipe.scale z = 1
  sweep : r.sweep herringbone τ = ![0, -(g.core.tooth.numTeeth / 2 * g.core.recipe.angle z), z]

theorem rack_sweep_congr {r r' : Rack} {o : ℝ} {p : V3} {O : M3}
    (h : r' = { r with offset := o, position := p, orientation := O }) (hb : Bool) (τ : ℝ) :
    r'.sweep hb τ = r.sweep hb τ := by
  rw [h]; rfl

/-- A straight line has a constant velocity. -/
theorem hasDerivAt_segment (p q : V3) (s : ℝ) : HasDerivAt (fun s : ℝ => p + s • q) q s := by
  have := ((hasDerivAt_id s).smul_const q).const_add p
  simpa using this

theorem towards_dot (g : WGear) (dir : V3) (hO : IsRot g.core.transform.orientation)
    (hd : dir - dot dir g.core.transform.zAxis • g.core.transform.zAxis ≠ 0) :
    dot (towards g dir) (towards g dir) = 1 ∧ dot (turnDir g dir) (turnDir g dir) = 1 ∧
      dot (towards g dir) (turnDir g dir) = 0 := by
  obtain ⟨h1, h2⟩ := towards_polar g dir hO hd
  rw [h1, h2, hO.dot_app, hO.dot_app, hO.dot_app, polarVec_unit, polarVec_unit]
  refine ⟨rfl, rfl, ?_⟩
  simp [polarVec, dot, cos_add_pi_div_two, sin_add_pi_div_two]
  ring

/-- Polar vectors in the frame of the contact. -/
theorem app_polarVec_frame (g : WGear) (dir : V3) {θ : ℝ}
    (h1 : towards g dir = app g.core.transform.orientation (polarVec θ))
    (h2 : turnDir g dir = app g.core.transform.orientation (polarVec (θ + π / 2))) (β : ℝ) :
    app g.core.transform.orientation (polarVec (θ + β)) = cos β • towards g dir + sin β • turnDir g dir ∧
    app g.core.transform.orientation (polarVec (θ + β + π / 2)) = cos β • turnDir g dir - sin β • towards g dir := by
  rw [h1, h2, ← app_smul, ← app_smul, ← app_smul, ← app_smul, ← app_add, ← app_sub]
  constructor <;> congr 1 <;> apply V3.ext3 <;>
    simp only [polarVec, Pi.add_apply, Pi.sub_apply, Pi.smul_apply, smul_eq_mul, cos_add_pi_div_two, sin_add_pi_div_two,
      cos_add, sin_add] <;> simp <;> ring

/-- The tooth of the gear before the space that receives the `j`-th tooth of the rack. -/
noncomputable def gapIndex (r : Rack) (g : WGear) (dir : V3) (j : ℕ) : ℤ :=
  ⌊(angleOfVectorInXY (Matrix.vecMul dir g.core.transform.orientation) - g.angle) / g.pitchAngle⌋ - (j : ℤ) +
    ((r.numTeeth - 1) / 2 : ℕ)

theorem toothCenter_eq (r : Rack) {j : ℕ} (hj : j < r.numTeeth) :
    r.toothCenter j = (π * (((j : ℤ) - ((r.numTeeth - 1) / 2 : ℕ) : ℤ) : ℝ)) • UP := by
  rcases Nat.even_or_odd' r.numTeeth with ⟨c, hc | hc⟩
  · have hmod : (r.numTeeth + 1) % 2 = 1 := by omega
    have hdiv : (r.numTeeth - 1) / 2 = c - 1 := by omega
    have h1 : 1 ≤ c := by omega
    rw [Rack.toothCenter, hmod, hdiv, hc]
    congr 1
    push_cast [h1]
    ring
  · have hmod : (r.numTeeth + 1) % 2 = 0 := by omega
    have hdiv : (r.numTeeth - 1) / 2 = c := by omega
    rw [Rack.toothCenter, hmod, hdiv, hc]
    congr 1
    push_cast
    ring

/-- A point of a rack flank in the frame of the contact, `σ = 1` for the flank of the reference points and `-1` for its
mirror image. -/
theorem rack_flank_frame (r : Rack) (g : WGear) (hb : Bool) (dir : V3) (tSol f τ z α : ℝ)
    (hO : IsRot g.core.transform.orientation)
    (hd : dir - dot dir g.core.transform.zAxis • g.core.transform.zAxis ≠ 0)
    (H : RackFits r g hb tSol f τ z α) (r' : Rack) (hr : r.meshTo g dir 0 = some r') (j : ℕ) (hj : j < r.numTeeth)
    (mirrored : Bool) (s : ℝ) :
    let θ := angleOfVectorInXY (Matrix.vecMul dir g.core.transform.orientation)
    let x := -r.dedendum + s * (r.addendum + r.dedendum)
    let σ : ℝ := if mirrored then -1 else 1
    r'.flank hb mirrored j τ s = g.center + (g.module_ * z) • g.core.transform.zAxis +
      (g.pitchRadius + g.module_ * (g.input.profileShift - x)) • towards g dir +
      (g.pitchRadius * (g.angle + g.core.recipe.angle z + (gapIndex r g dir j + 1 / 2) * g.pitchAngle - θ) +
        σ * (g.module_ * (π / 4 - tan α * x - r.backlash))) • turnDir g dir := by
  intro θ x σ
  have hn := H.teeth
  have hmp := H.modulePos
  obtain ⟨r'', h1, -, h3, h4, h5⟩ := rack_meshTo r g dir 0 hO hd
  obtain rfl : r'' = r' := Option.some.inj (h1.symm.trans hr)
  have hθ : θ = angleOfVectorInXY (Matrix.vecMul dir g.core.transform.orientation) := rfl
  rw [← hθ] at h3
  obtain ⟨i, hi⟩ : ∃ i : ℤ, i = (j : ℤ) - ((r.numTeeth - 1) / 2 : ℕ) := ⟨_, rfl⟩
  have hgi : gapIndex r g dir j = ⌊(θ - g.angle) / g.pitchAngle⌋ - i := by rw [gapIndex, hi, ← hθ]; ring
  have htc : r''.toothCenter j = (π * (i : ℝ)) • UP := by
    rw [hi, ← toothCenter_eq r hj, h4]; rfl
  have hsw : r''.sweep hb τ = ![0, -(g.core.tooth.numTeeth / 2 * g.core.recipe.angle z), z] := by
    rw [rack_sweep_congr h4]; exact H.sweep
  have href : r''.refPoints = r.refPoints := by rw [h4]; rfl
  rw [Rack.flank, h5, htc, hsw, href, hgi]
  have hp0 : (r.refPoints.2.1 + s • (r.refPoints.1 - r.refPoints.2.1) : V3) =
      ![x, -(π / 4 - tan α * x - r.backlash), 0] := by
    rw [← H.samePressure]
    apply V3.ext3 <;> simp [Rack.refPoints, RIGHT, LEFT, DOWN, x] <;> ring
  have hp : (if mirrored then mulV (r.refPoints.2.1 + s • (r.refPoints.1 - r.refPoints.2.1)) ![1, -1, 1]
      else r.refPoints.2.1 + s • (r.refPoints.1 - r.refPoints.2.1) : V3) =
      ![x, -σ * (π / 4 - tan α * x - r.backlash), 0] := by
    rw [hp0]
    cases mirrored
    · apply V3.ext3 <;> simp [σ]
    · apply V3.ext3 <;> simp [σ, mulV]
  rw [hp]
  have hmod : g.module_ = g.core.module_ := rfl
  have e0 : ((π * (i : ℝ)) • UP + ![x, -σ * (π / 4 - tan α * x - r.backlash), 0] +
      ![0, -(g.core.tooth.numTeeth / 2 * g.core.recipe.angle z), z] : V3) =
      ![x, π * i - σ * (π / 4 - tan α * x - r.backlash) - g.core.tooth.numTeeth / 2 * g.core.recipe.angle z, z] := by
    apply V3.ext3 <;> simp [UP] <;> ring
  rw [e0, H.sameModule, hmod]
  simp only [Matrix.cons_val_zero, Matrix.cons_val_one, Matrix.cons_val]
  have hkey : -(g.core.module_ * (π * i - σ * (π / 4 - tan α * x - r.backlash) -
        g.core.tooth.numTeeth / 2 * g.core.recipe.angle z + r''.offset * π)) =
      g.pitchRadius * (g.angle + g.core.recipe.angle z +
        (((⌊(θ - g.angle) / g.pitchAngle⌋ - i : ℤ) : ℝ) + 1 / 2) * g.pitchAngle - θ) +
        σ * (g.core.module_ * (π / 4 - tan α * x - r.backlash)) := by
    rw [h3, Int.fract, WGear.pitchRadius, WGear.pitchAngle, GearToothParam.pitchAngle]
    push_cast
    field_simp
    ring
  rw [← hkey]
  module

/-- Velocity and normal of a rack flank. -/
theorem rack_flank_normal (r : Rack) (g : WGear) (hb : Bool) (dir : V3) (tSol f τ z α : ℝ)
    (hO : IsRot g.core.transform.orientation)
    (hd : dir - dot dir g.core.transform.zAxis • g.core.transform.zAxis ≠ 0)
    (H : RackFits r g hb tSol f τ z α) (r' : Rack) (hr : r.meshTo g dir 0 = some r') (j : ℕ) (hj : j < r.numTeeth)
    (mirrored : Bool) (s : ℝ) (w : V3) :
    let σ : ℝ := if mirrored then -1 else 1
    NormalAt (fun s => r'.flank hb mirrored j τ s + w) s (cos α • turnDir g dir - (σ * sin α) • towards g dir) := by
  intro σ
  obtain ⟨L, hL⟩ : ∃ L, L = r.addendum + r.dedendum := ⟨_, rfl⟩
  obtain ⟨u1, u2, u3⟩ := towards_dot g dir hO hd
  have hα := H.alpha
  have e : (fun s => r'.flank hb mirrored j τ s + w) = fun s =>
      (r'.flank hb mirrored j τ 0 + w) +
        s • (-(g.module_ * L) • towards g dir - (σ * (g.module_ * (tan α * L))) • turnDir g dir) := by
    funext s
    have h := rack_flank_frame r g hb dir tSol f τ z α hO hd H r' hr j hj mirrored
    simp only at h
    rw [h, h, ← hL]
    module
  rw [e]
  refine ⟨_, hasDerivAt_segment _ _ s, ?_⟩
  have u3' : dot (turnDir g dir) (towards g dir) = 0 := by rw [dot_comm]; exact u3
  simp only [dot_sub_left, dot_sub_right, dot_smul_left, dot_smul_right, u1, u2, u3, u3']
  have : tan α * cos α = sin α := by rw [tan_eq_sin_div_cos]; field_simp
  linear_combination (-(σ * g.module_ * L)) * this

/-- The slice of a gear that fits. -/
theorem slice_facts (r : Rack) (g : WGear) (hb : Bool) (tSol f τ z α : ℝ) (H : RackFits r g hb tSol f τ z α) :
    (g.slice tSol z).transform.center = g.center + (g.module_ * z) • g.core.transform.zAxis ∧
    (g.slice tSol z).transform.orientation = g.core.transform.orientation ∧
    (g.slice tSol z).transform.angle = g.angle + g.core.recipe.angle z ∧
    (g.slice tSol z).rBase = g.pitchRadius * cos α ∧
    (g.slice tSol z).baseAngle = -(f + (tan α - α)) ∧
    (g.slice tSol z).pitchAngle = g.pitchAngle := by
  refine ⟨?_, ?_, rfl, ?_, ?_, rfl⟩
  · simp only [WGear.slice, GearCore.transformAt, GearTransform.mul, GearCore.recipeTransform, H.sliceCenter, H.scaled]
    change g.core.transform.center + g.core.module_ • app (g.core.transform.orientation * Rz g.core.transform.angle) (z • OUT)
      = _
    rw [app_smul, app_mul, Rz_app_OUT, zAxis_eq, smul_smul]
    rfl
  · simp [WGear.slice, GearCore.transformAt, GearTransform.mul, GearCore.recipeTransform]
  · simp only [GearObj.rBase, WGear.slice, GearCore.transformAt, GearTransform.mul, GearCore.recipeTransform, H.sliceScale,
      H.scaled, H.involute, WGear.pitchRadius]
    ring
  · simp only [WGear.slice, H.involute]

theorem rack_opposed (r : Rack) (g : WGear) (hb : Bool) (dir : V3) (tSol f τ z α : ℝ)
    (hO : IsRot g.core.transform.orientation)
    (hd : dir - dot dir g.core.transform.zAxis • g.core.transform.zAxis ≠ 0)
    (H : RackFits r g hb tSol f τ z α) (r' : Rack) (hr : r.meshTo g dir 0 = some r') (j : ℕ) (hj : j < r.numTeeth)
    (φ : ℝ) :
    let k := gapIndex r g dir j
    let P := g.center + g.pitchRadius • towards g dir + (g.module_ * z) • g.core.transform.zAxis
    let gap := g.module_ * cos α * (π / 4 + g.input.profileShift * tan α - g.numberOfTeeth / 2 * f + r.backlash)
    Opposed (g.flank false tSol z φ (k + 1)) (fun s => r'.flank hb false j τ s + (g.pitchRadius * φ) • turnDir g dir)
        P (cos α • turnDir g dir - sin α • towards g dir) gap ∧
      Opposed (g.flank true tSol z φ k) (fun s => r'.flank hb true j τ s + (g.pitchRadius * φ) • turnDir g dir)
        P (cos α • turnDir g dir + sin α • towards g dir) (-gap) := by
  intro k P gap
  obtain ⟨θ, hθ⟩ : ∃ θ, θ = angleOfVectorInXY (Matrix.vecMul dir g.core.transform.orientation) := ⟨_, rfl⟩
  obtain ⟨h1, h2⟩ := towards_polar g dir hO hd
  rw [← hθ] at h1 h2
  obtain ⟨f1, f2, f3, f4, f5, f6⟩ := slice_facts r g hb tSol f τ z α H
  have hα := H.alpha
  have hn := H.teeth
  have hm : 0 < g.module_ := H.modulePos
  have hL := H.toothHeight
  have ht : tan α * cos α = sin α := by rw [tan_eq_sin_div_cos]; field_simp
  have hsc : sin α ^ 2 + cos α ^ 2 = 1 := sin_sq_add_cos_sq α
  have hrp : g.pitchRadius = g.numberOfTeeth / 2 * g.module_ := by
    rw [WGear.pitchRadius, WGear.numberOfTeeth, WGear.module_]; ring
  have hpitch : g.pitchRadius * g.pitchAngle = g.module_ * π := by
    rw [hrp, WGear.numberOfTeeth, WGear.pitchAngle, GearToothParam.pitchAngle]; field_simp
  have hfr := fun mir => rack_flank_frame r g hb dir tSol f τ z α hO hd H r' hr j hj mir
  have hnm := fun mir => rack_flank_normal r g hb dir tSol f τ z α hO hd H r' hr j hj mir
  rw [← hθ] at hfr
  constructor
  · obtain ⟨t, htd⟩ : ∃ t, t = θ + α - (g.angle + g.core.recipe.angle z + φ + ((k + 1 : ℤ) : ℝ) * g.pitchAngle +
      -(f + (tan α - α))) := ⟨_, rfl⟩
    have hψ : θ + α = (g.slice tSol z).transform.angle + φ + ((k + 1 : ℤ) : ℝ) * (g.slice tSol z).pitchAngle +
        (t + (g.slice tSol z).baseAngle) := by rw [f3, f6, f5, htd]; ring
    obtain ⟨e1, e2⟩ := app_polarVec_frame g dir h1 h2 α
    have hF := lowerFlank_eq _ φ (k + 1) t _ hψ
    have hF' := lowerFlank_deriv _ φ (k + 1) t _ hψ
    rw [f2] at hF hF'
    rw [e1, e2, f1, f4] at hF
    obtain ⟨S, hS⟩ : ∃ S, S = g.pitchRadius * (g.angle + g.core.recipe.angle z + φ + (k + 1 / 2) * g.pitchAngle - θ) +
      g.module_ * (π / 4 - r.backlash) := ⟨_, rfl⟩
    obtain ⟨x, hx⟩ : ∃ x, x = cos α * (cos α * g.input.profileShift + sin α * (S / g.module_)) := ⟨_, rfl⟩
    obtain ⟨c, hc⟩ : ∃ c, c = g.pitchRadius * sin α - g.pitchRadius * cos α * t := ⟨_, rfl⟩
    have hcd : c - gap = cos α * S - g.module_ * sin α * g.input.profileShift := by
      rw [hc, htd, hS]
      simp only [gap]
      push_cast
      linear_combination (-g.pitchRadius - g.module_ * g.input.profileShift) * ht + cos α / 2 * hpitch +
        cos α * f * (-hrp)
    have hmx : g.module_ * x = cos α * (g.module_ * cos α * g.input.profileShift + sin α * S) := by
      rw [hx]; field_simp
    refine ⟨t, (x + r.dedendum) / (r.addendum + r.dedendum), c, ?_, ?_, ⟨_, hF', ?_⟩, ?_⟩
    · rw [WGear.flank_lower, hF, hc]
      simp only [P]
      rw [show (g.pitchRadius • towards g dir : V3) = (g.pitchRadius * (sin α ^ 2 + cos α ^ 2)) • towards g dir by
        rw [hsc, mul_one]]
      module
    · rw [WGear.flank_lower, hF]
      beta_reduce
      have h := hfr false ((x + r.dedendum) / (r.addendum + r.dedendum))
      simp only at h
      rw [h, show -r.dedendum + (x + r.dedendum) / (r.addendum + r.dedendum) * (r.addendum + r.dedendum) = x by
        field_simp; ring]
      have hA : g.pitchRadius + g.module_ * (g.input.profileShift - x) = g.pitchRadius * (sin α ^ 2 + cos α ^ 2) -
          (c - gap) * sin α := by
        rw [hcd, hsc]
        linear_combination -hmx - g.module_ * g.input.profileShift * hsc
      have hB : g.pitchRadius * (g.angle + g.core.recipe.angle z + (gapIndex r g dir j + 1 / 2) * g.pitchAngle - θ) +
          1 * (g.module_ * (π / 4 - tan α * x - r.backlash)) + g.pitchRadius * φ = (c - gap) * cos α := by
        rw [hcd]
        have h3 : g.module_ * (tan α * x) = sin α * (g.module_ * cos α * g.input.profileShift + sin α * S) := by
          linear_combination tan α * hmx + (g.module_ * cos α * g.input.profileShift + sin α * S) * ht
        simp only [k] at hS
        linear_combination -h3 - hS - S * hsc
      simp only [Bool.false_eq_true, if_false]
      have : ∀ A B : ℝ, A = g.pitchRadius * (sin α ^ 2 + cos α ^ 2) - (c - gap) * sin α →
          B + g.pitchRadius * φ = (c - gap) * cos α →
          g.center + (g.module_ * z) • g.core.transform.zAxis +
            (g.pitchRadius * cos α) • (cos α • towards g dir + sin α • turnDir g dir) -
            (g.pitchRadius * cos α * t) • (cos α • turnDir g dir - sin α • towards g dir) -
            (g.center + (g.module_ * z) • g.core.transform.zAxis + A • towards g dir + B • turnDir g dir +
              (g.pitchRadius * φ) • turnDir g dir) = gap • (cos α • turnDir g dir - sin α • towards g dir) := by
        intro A B hA hB
        obtain rfl := hA
        obtain rfl : B = (c - gap) * cos α - g.pitchRadius * φ := by linarith
        rw [hc]
        module
      exact this _ _ hA hB
    · rw [← e2]; exact normal_polar hO _ _
    · have := hnm false ((x + r.dedendum) / (r.addendum + r.dedendum)) ((g.pitchRadius * φ) • turnDir g dir)
      simpa using this
  · obtain ⟨t, htd⟩ : ∃ t, t = g.angle + g.core.recipe.angle z + φ + (k : ℝ) * g.pitchAngle - -(f + (tan α - α)) -
      (θ + -α) := ⟨_, rfl⟩
    have hψ : θ + -α = (g.slice tSol z).transform.angle + φ + (k : ℝ) * (g.slice tSol z).pitchAngle -
        (t + (g.slice tSol z).baseAngle) := by rw [f3, f6, f5, htd]; ring
    obtain ⟨e1, e2⟩ := app_polarVec_frame g dir h1 h2 (-α)
    rw [cos_neg, sin_neg] at e1 e2
    have hF := upperFlank_eq _ φ k t _ hψ
    have hF' := upperFlank_deriv _ φ k t _ hψ
    rw [f2] at hF hF'
    rw [e1, e2, f1, f4] at hF
    obtain ⟨S, hS⟩ : ∃ S, S = g.pitchRadius * (g.angle + g.core.recipe.angle z + φ + (k + 1 / 2) * g.pitchAngle - θ) -
      g.module_ * (π / 4 - r.backlash) := ⟨_, rfl⟩
    obtain ⟨x, hx⟩ : ∃ x, x = cos α * (cos α * g.input.profileShift - sin α * (S / g.module_)) := ⟨_, rfl⟩
    obtain ⟨c, hc⟩ : ∃ c, c = g.pitchRadius * cos α * t - g.pitchRadius * sin α := ⟨_, rfl⟩
    have hcd : c - -gap = cos α * S + g.module_ * sin α * g.input.profileShift := by
      rw [hc, htd, hS]
      simp only [gap]
      linear_combination (g.pitchRadius + g.module_ * g.input.profileShift) * ht - cos α / 2 * hpitch +
        cos α * f * hrp
    have hmx : g.module_ * x = cos α * (g.module_ * cos α * g.input.profileShift - sin α * S) := by
      rw [hx]; field_simp
    refine ⟨t, (x + r.dedendum) / (r.addendum + r.dedendum), c, ?_, ?_, ⟨_, hF', ?_⟩, ?_⟩
    · rw [WGear.flank_upper, hF, hc]
      simp only [P]
      rw [show (g.pitchRadius • towards g dir : V3) = (g.pitchRadius * (sin α ^ 2 + cos α ^ 2)) • towards g dir by
        rw [hsc, mul_one]]
      module
    · rw [WGear.flank_upper, hF]
      beta_reduce
      have h := hfr true ((x + r.dedendum) / (r.addendum + r.dedendum))
      simp only at h
      rw [h, show -r.dedendum + (x + r.dedendum) / (r.addendum + r.dedendum) * (r.addendum + r.dedendum) = x by
        field_simp; ring]
      have hA : g.pitchRadius + g.module_ * (g.input.profileShift - x) = g.pitchRadius * (sin α ^ 2 + cos α ^ 2) +
          (c - -gap) * sin α := by
        rw [hcd, hsc]
        linear_combination -hmx - g.module_ * g.input.profileShift * hsc
      have hB : g.pitchRadius * (g.angle + g.core.recipe.angle z + (gapIndex r g dir j + 1 / 2) * g.pitchAngle - θ) +
          -1 * (g.module_ * (π / 4 - tan α * x - r.backlash)) + g.pitchRadius * φ = (c - -gap) * cos α := by
        rw [hcd]
        have h3 : g.module_ * (tan α * x) = sin α * (g.module_ * cos α * g.input.profileShift - sin α * S) := by
          linear_combination tan α * hmx + (g.module_ * cos α * g.input.profileShift - sin α * S) * ht
        simp only [k] at hS
        linear_combination h3 - hS - S * hsc
      simp only [if_true]
      have : ∀ A B : ℝ, A = g.pitchRadius * (sin α ^ 2 + cos α ^ 2) + (c - -gap) * sin α →
          B + g.pitchRadius * φ = (c - -gap) * cos α →
          g.center + (g.module_ * z) • g.core.transform.zAxis +
            (g.pitchRadius * cos α) • (cos α • towards g dir + -sin α • turnDir g dir) +
            (g.pitchRadius * cos α * t) • (cos α • turnDir g dir - -sin α • towards g dir) -
            (g.center + (g.module_ * z) • g.core.transform.zAxis + A • towards g dir + B • turnDir g dir +
              (g.pitchRadius * φ) • turnDir g dir) = (-gap) • (cos α • turnDir g dir + sin α • towards g dir) := by
        intro A B hA hB
        obtain rfl := hA
        obtain rfl : B = (c - -gap) * cos α - g.pitchRadius * φ := by linarith
        rw [hc]
        module
      exact this _ _ hA hB
    · have : (cos α • turnDir g dir + sin α • towards g dir : V3) = cos α • turnDir g dir - -sin α • towards g dir := by
        module
      rw [this, ← e2]; exact normal_polar hO _ _
    · have := hnm true ((x + r.dedendum) / (r.addendum + r.dedendum)) ((g.pitchRadius * φ) • turnDir g dir)
      simpa using this

/-- All heights and all positions of the motion. -/
theorem rack_mesh (r : Rack) (g : WGear) (hb : Bool) (dir : V3) (tSol α : ℝ) (f z : ℝ → ℝ)
    (hO : IsRot g.core.transform.orientation)
    (hd : dir - dot dir g.core.transform.zAxis • g.core.transform.zAxis ≠ 0)
    (H : ∀ τ, RackFits r g hb tSol (f τ) τ (z τ) α) :
    ∃ r', r.meshTo g dir 0 = some r' ∧ ∀ j < r.numTeeth, ∃ k : ℤ, ∀ φ τ : ℝ,
      let P := g.center + g.pitchRadius • towards g dir + (g.module_ * z τ) • g.core.transform.zAxis
      let gap := g.module_ * cos α * (π / 4 + g.input.profileShift * tan α - g.numberOfTeeth / 2 * f τ + r.backlash)
      Opposed (g.flank false tSol (z τ) φ (k + 1)) (fun s => r'.flank hb false j τ s + (g.pitchRadius * φ) • turnDir g dir)
          P (cos α • turnDir g dir - sin α • towards g dir) gap ∧
        Opposed (g.flank true tSol (z τ) φ k) (fun s => r'.flank hb true j τ s + (g.pitchRadius * φ) • turnDir g dir)
          P (cos α • turnDir g dir + sin α • towards g dir) (-gap) := by
  obtain ⟨r', hr', -⟩ := rack_meshTo r g dir 0 hO hd
  exact ⟨r', hr', fun j hj => ⟨gapIndex r g dir j, fun φ τ =>
    rack_opposed r g hb dir tSol (f τ) τ (z τ) α hO hd (H τ) r' hr' j hj φ⟩⟩

/-- The flank of an involute gear with cone angle 0. -/
theorem involuteGen_flank (p : GearInput) (tSol z : ℝ) (hn : 0 < p.numTeeth) (hc : p.coneAngle = 0)
    (h0 : 0 < p.pressureAngle) (h1 : p.pressureAngle < π / 2) (hinv : tan p.pressureAngle - p.pressureAngle ≤ π)
    (ht : 0 ≤ tSol)
    (hsol : norm3 (involuteCircle tSol (p.numTeeth / 2 * cos p.pressureAngle) 0 0 0) = p.numTeeth / 2) :
    p.involuteGen.involuteFlank tSol z = (p.numTeeth / 2 * cos p.pressureAngle,
      -(p.crowningFunc z p.toothAngle + (tan p.pressureAngle - p.pressureAngle))) := by
  have h := (c24_pitch_crossing (p.crowningFunc z p.toothAngle) (p.numTeeth / 2) p.pressureAngle tSol (by positivity) h0 h1
    hinv ht hsol).1
  rw [← h, GearInput.involuteGen]
  split_ifs <;> rfl

/-- The straight sweep of a rack. -/
theorem sweep_straight (r : Rack) (hm : r.module_ ≠ 0) (hβ : cos r.betaAngle ≠ 0) (τ : ℝ) :
    r.sweep false τ = ![0, -(τ * (r.height / r.module_) * tan r.betaAngle), τ * (r.height / r.module_)] := by
  rw [Rack.sweep, if_neg (by simp), Rack.extrusion, tan_eq_sin_div_cos]
  apply V3.ext3
  · simp [app_0, Rx, OUT]
  · simp [app_1, Rx, OUT]; field_simp
  · simp [app_2, Rx, OUT]; field_simp; simp

/-- The sweep of a herringbone rack goes back in its second half. -/
theorem sweep_herringbone (r : Rack) (hm : r.module_ ≠ 0) (hβ : cos r.betaAngle ≠ 0) (τ : ℝ) :
    r.sweep true τ = ![0, -((1 / 2 - |1 / 2 - τ|) * (r.height / r.module_) * tan r.betaAngle),
      τ * (r.height / r.module_)] := by
  by_cases h : 1 / 2 < τ
  · have e : r.extrusion = ![0, -((r.height / r.module_) * tan r.betaAngle), r.height / r.module_] := by
      have := sweep_straight r hm hβ 1
      rw [Rack.sweep, if_neg (by simp), one_smul, one_mul] at this
      exact this
    rw [Rack.sweep, if_pos ⟨rfl, h⟩, e, abs_of_neg (by linarith)]
    apply V3.ext3
    · simp [mulV]
    · simp [mulV]; ring
    · simp [mulV]; ring
  · have := sweep_straight r hm hβ τ
    rw [Rack.sweep, if_neg (by simp)] at this
    rw [Rack.sweep, if_neg (by rintro ⟨-, h'⟩; exact h h'), this, abs_of_nonneg (by linarith)]
    congr 4
    ring

/-- The clearance between gear and rack, from the sum of the two backlash coefficients and the crowning. -/
theorem gap_eq (p : GearInput) (hn : 0 < p.numTeeth) (z b : ℝ) :
    π / 4 + p.profileShift * tan p.pressureAngle - p.numTeeth / 2 * p.crowningFunc z p.toothAngle + b =
      p.backlash + b + (z * 2 / p.height - 1) ^ 2 * p.crowning / 1000 := by
  rw [GearInput.crowningFunc, GearInput.toothAngle]
  have : p.numTeeth ≠ 0 := hn.ne'
  field_simp
  ring

/-- **C96, involute gears**. Mesh a rack to a cylindrical involute gear of the same module, pressure angle and slant,
wherever the gear is placed. Turn the gear by any `φ` and move the rack by `rp φ` along its pitch line. Then at every height
`z` and for every tooth of the rack, its two flanks oppose the two flanks of one tooth space: they have common normals
through the pitch point, inclined by the pressure angle, and the distance along each normal is
`module · cos α · (backlash of the gear + backlash of the rack + crowning at z)`. Without these the flanks touch. -/
theorem c96_involute (r : Rack) (p : GearInput) (c : V3) (O : M3) (a tSol : ℝ) (dir : V3) (hO : IsRot O)
    (hn : 0 < p.numTeeth) (hc : p.coneAngle = 0) (hm : 0 < p.module_) (h0 : 0 < p.pressureAngle)
    (h1 : p.pressureAngle < π / 2) (hinv : tan p.pressureAngle - p.pressureAngle ≤ π) (ht : 0 ≤ tSol)
    (hsol : norm3 (involuteCircle tSol (p.numTeeth / 2 * cos p.pressureAngle) 0 0 0) = p.numTeeth / 2)
    (hd : dir - dot dir (app O OUT) • app O OUT ≠ 0)
    (hrm : r.module_ = p.module_) (hrα : r.pressureAngle = p.pressureAngle) (hrβ : r.betaAngle = p.helixAngle)
    (hβ : cos p.helixAngle ≠ 0) (hL : 0 < r.addendum + r.dedendum) :
    let g := (involuteGear p).place c O a
    let α := p.pressureAngle
    ∃ r', r.meshTo g dir 0 = some r' ∧ ∀ j < r.numTeeth, ∃ k : ℤ, ∀ φ τ : ℝ,
      let z := τ * (r.height / r.module_)
      let P := g.center + g.pitchRadius • towards g dir + (g.module_ * z) • g.core.transform.zAxis
      let gap := p.module_ * cos α * (p.backlash + r.backlash + (z * 2 / p.height - 1) ^ 2 * p.crowning / 1000)
      Opposed (g.flank false tSol z φ (k + 1)) (fun s => r'.flank false false j τ s + (g.pitchRadius * φ) • turnDir g dir)
          P (cos α • turnDir g dir - sin α • towards g dir) gap ∧
        Opposed (g.flank true tSol z φ k) (fun s => r'.flank false true j τ s + (g.pitchRadius * φ) • turnDir g dir)
          P (cos α • turnDir g dir + sin α • towards g dir) (-gap) := by
  intro g α
  have e : involuteGear p = ⟨p, p.calcParams ⟨p.numTeeth, 0, p.insideTeeth⟩⟩ := by
    rw [involuteGear, normalise_pos hn, make_pos hn]
  obtain ⟨g0, hg0⟩ : ∃ g0 : WGear, g0 = ⟨p, p.calcParams ⟨p.numTeeth, 0, p.insideTeeth⟩⟩ := ⟨_, rfl⟩
  have hg : g = g0.place c O a := by rw [hg0, ← e]
  have hrm0 : r.module_ ≠ 0 := by rw [hrm]; exact hm.ne'
  have hn0 : p.numTeeth ≠ 0 := hn.ne'
  have hF : ∀ τ : ℝ, RackFits r (g0.place c O a) false tSol
      (p.crowningFunc (τ * (r.height / r.module_)) p.toothAngle) τ (τ * (r.height / r.module_)) α := by
    intro τ
    subst hg0
    refine ⟨hn, hm, cos_pos' (by linarith [pi_pos]) h1, hrm, hrα, hL, rfl,
      involuteGen_flank p tSol _ hn hc h0 h1 hinv ht hsol, ?_, ?_, ?_⟩
    · simp [WGear.place, GearInput.calcParams, hc]
    · simp [WGear.place, GearInput.calcParams, hc]
    · rw [sweep_straight r hrm0 (by rw [hrβ]; exact hβ), hrβ]
      simp only [WGear.place, GearInput.calcParams]
      apply V3.ext3
      · rfl
      · simp; field_simp
      · rfl
  rw [hg]
  obtain ⟨r', hr', h⟩ := rack_mesh r (g0.place c O a) false dir tSol α _ _ hO
    (by rw [show (g0.place c O a).core.transform.zAxis = app O OUT from zAxis_eq _]; exact hd) hF
  refine ⟨r', hr', fun j hj => ?_⟩
  obtain ⟨k, hk⟩ := h j hj
  refine ⟨k, fun φ τ => ?_⟩
  have h' := hk φ τ
  have hgap := gap_eq p hn (τ * (r.height / r.module_)) r.backlash
  have e1 : (g0.place c O a).input = p := by rw [hg0]; rfl
  have e2 : (g0.place c O a).numberOfTeeth = p.numTeeth := by rw [hg0]; rfl
  have e3 : (g0.place c O a).module_ = p.module_ := by rw [hg0]; rfl
  rw [e1, e2] at h'
  simp only at h'
  rw [hgap, e3] at h'
  rw [e3]
  exact h'

/-- What the constructor of a helical gear stores. -/
theorem helical_core (hb : Bool) (p : GearInput) (hn : 0 < p.numTeeth) (hlt : lowEnd p < highEnd p) :
    helicalGear hb p = ⟨p.transverse, (helicalGear hb p).core⟩ ∧
      (helicalGear hb p).core.recipe = { (p.transverse.calcParams ⟨p.numTeeth, 0, p.insideTeeth⟩).recipe with
        angle := twistFun hb (tan p.helixAngle / (p.numTeeth / 2)) (lowEnd p) (highEnd p) } ∧
      (helicalGear hb p).core.tooth = ⟨p.numTeeth, 0, p.insideTeeth⟩ ∧
      (helicalGear hb p).core.module_ = p.module_ / cos p.helixAngle ∧
      (helicalGear hb p).core.transform.scale = p.module_ / cos p.helixAngle := by
  have e : involuteGear p.transverse = ⟨p.transverse, p.transverse.calcParams ⟨p.numTeeth, 0, p.insideTeeth⟩⟩ := by
    rw [involuteGear, normalise_pos (p := p.transverse) hn, make_pos (n := p.transverse.numTeeth) hn]; rfl
  obtain ⟨r1, r2, r3, r4⟩ := refine_recipe
    (if hb then (involuteGear p.transverse).core.herringbone else (involuteGear p.transverse).core)
  have ha := (helical_sections hb (p.transverse.calcParams ⟨p.numTeeth, 0, p.insideTeeth⟩)
    (lo := lowEnd p) (hi := highEnd p) (k := tan p.helixAngle / (p.numTeeth / 2)) hlt rfl rfl).2
  simp only [helicalGear]
  rw [r1, r2, r3, r4, e]
  refine ⟨rfl, ?_, ?_, ?_, ?_⟩
  · rw [← ha]; cases hb <;> rfl
  · cases hb <;> rfl
  · cases hb <;> rfl
  · cases hb <;> rfl

/-- **C96, helical gears**. The same for `HelicalGear` and `HelicalRack` made with the same data for the normal plane. A
herringbone pair needs equal heights and `z_anchor = 0`, so that both turn back in the same plane. -/
theorem c96_helical (hb : Bool) (q : Rack) (p : GearInput) (c : V3) (O : M3) (a tSol : ℝ) (dir : V3) (hO : IsRot O)
    (hn : 0 < p.numTeeth) (hm : 0 < p.module_) (hh : 0 < p.height) (h0 : 0 < p.pressureAngle)
    (h1 : p.pressureAngle < π / 2) (hβ : 0 < cos p.helixAngle)
    (hinv : tan p.transverse.pressureAngle - p.transverse.pressureAngle ≤ π) (ht : 0 ≤ tSol)
    (hsol : norm3 (involuteCircle tSol (p.numTeeth / 2 * cos p.transverse.pressureAngle) 0 0 0) = p.numTeeth / 2)
    (hd : dir - dot dir (app O OUT) • app O OUT ≠ 0)
    (hqm : q.module_ = p.module_) (hqα : q.pressureAngle = p.pressureAngle) (hqβ : q.betaAngle = p.helixAngle)
    (hL : 0 < q.addendum + q.dedendum) (hherr : hb = true → p.zAnchor = 0 ∧ q.height = p.height) :
    let g := (helicalGear hb p).place c O a
    let r := helicalRack q
    let α := p.transverse.pressureAngle
    ∃ r', r.meshTo g dir 0 = some r' ∧ ∀ j < r.numTeeth, ∃ k : ℤ, ∀ φ τ : ℝ,
      let z := τ * (q.height * cos p.helixAngle / p.module_)
      let P := g.center + g.pitchRadius • towards g dir + (g.module_ * z) • g.core.transform.zAxis
      let gap := p.module_ / cos p.helixAngle * cos α *
        (p.backlash + q.backlash + (z * 2 / p.height - 1) ^ 2 * p.crowning / 1000)
      Opposed (g.flank false tSol z φ (k + 1)) (fun s => r'.flank hb false j τ s + (g.pitchRadius * φ) • turnDir g dir)
          P (cos α • turnDir g dir - sin α • towards g dir) gap ∧
        Opposed (g.flank true tSol z φ k) (fun s => r'.flank hb true j τ s + (g.pitchRadius * φ) • turnDir g dir)
          P (cos α • turnDir g dir + sin α • towards g dir) (-gap) := by
  intro g r α
  have hlt : lowEnd p < highEnd p := by rw [← sub_pos, ends_sub]; positivity
  obtain ⟨c1, c2, c3, c4, c5⟩ := helical_core hb p hn hlt
  have hn0 : p.numTeeth ≠ 0 := hn.ne'
  have htan : 0 < tan p.pressureAngle / cos p.helixAngle := div_pos (tan_pos_of_pos_of_lt_pi_div_two h0 h1) hβ
  have hα0 : 0 < α := arctan_pos.2 htan
  have hα1 : α < π / 2 := arctan_lt_pi_div_two _
  have hrm : r.module_ = p.module_ / cos p.helixAngle := by simp only [r, helicalRack, hqm, hqβ]
  have hrm0 : r.module_ ≠ 0 := by rw [hrm]; positivity
  have hrβ : r.betaAngle = p.helixAngle := hqβ
  have hrh : r.height / r.module_ = q.height * cos p.helixAngle / p.module_ := by
    rw [hrm]; simp only [r, helicalRack]; field_simp
  have hF : ∀ τ : ℝ, RackFits r g hb tSol
      (p.transverse.crowningFunc (τ * (q.height * cos p.helixAngle / p.module_)) p.transverse.toothAngle) τ
      (τ * (q.height * cos p.helixAngle / p.module_)) α := by
    intro τ
    have g1 : g.core.tooth.numTeeth = p.numTeeth := by simp only [g, WGear.place, c3]
    have g2 : g.core.module_ = p.module_ / cos p.helixAngle := by simp only [g, WGear.place, c4]
    have g3 : g.core.recipe = _ := c2
    refine ⟨by rw [g1]; exact hn, by rw [g2]; positivity, cos_pos' (by linarith [pi_pos]) hα1, by rw [g2, hrm], ?_, ?_, ?_,
      ?_, ?_, ?_, ?_⟩
    · simp only [r, helicalRack, hqα, hqβ]; rfl
    · have : r.addendum + r.dedendum = (q.addendum + q.dedendum) * cos p.helixAngle := by
        simp only [r, helicalRack, hqβ]; ring
      rw [this]; positivity
    · rw [g2]; simp only [g, WGear.place, c5]
    · rw [g1, g3]
      exact involuteGen_flank p.transverse tSol _ hn rfl hα0 hα1 hinv ht hsol
    · rw [g3]; simp [GearInput.calcParams, GearInput.transverse]
    · rw [g3]; simp [GearInput.calcParams, GearInput.transverse]
    · rw [g1, g3]
      cases hb with
      | false =>
        rw [sweep_straight r hrm0 (by rw [hrβ]; exact hβ.ne'), hrβ, hrh]
        simp only [twistFun, Bool.false_eq_true, if_false]
        apply V3.ext3
        · rfl
        · simp; field_simp
        · rfl
      | true =>
        obtain ⟨hz, hq⟩ := hherr rfl
        rw [sweep_herringbone r hrm0 (by rw [hrβ]; exact hβ.ne'), hrβ, hrh]
        simp only [twistFun, if_true, lowEnd, highEnd, hz, hq]
        obtain ⟨H, hH⟩ : ∃ H, H = p.height * cos p.helixAngle / p.module_ := ⟨_, rfl⟩
        have hH0 : 0 < H := by rw [hH]; positivity
        have e1 : p.height / (p.module_ / cos p.helixAngle) = H := by rw [hH]; field_simp
        rw [e1, ← hH]
        have e2 : (H * (1 - 0) + -H * 0) / 2 - τ * H = H * (1 / 2 - τ) := by ring
        rw [e2, abs_mul, abs_of_pos hH0]
        apply V3.ext3
        · rfl
        · simp; field_simp
        · rfl
  obtain ⟨r', hr', h⟩ := rack_mesh r g hb dir tSol α _ _ hO
    (by rw [show g.core.transform.zAxis = app O OUT from zAxis_eq _]; exact hd) hF
  refine ⟨r', hr', fun j hj => ?_⟩
  obtain ⟨k, hk⟩ := h j hj
  refine ⟨k, fun φ τ => ?_⟩
  have h' := hk φ τ
  have hgap := gap_eq p.transverse hn (τ * (q.height * cos p.helixAngle / p.module_)) r.backlash
  have e1 : g.input = p.transverse := by simp only [g, WGear.place]; rw [c1]
  have e2 : g.numberOfTeeth = p.transverse.numTeeth := by simp only [g, WGear.numberOfTeeth, WGear.place, c3]; rfl
  have e3 : g.module_ = p.module_ / cos p.helixAngle := by simp only [g, WGear.module_, WGear.place, c4]
  rw [e1, e2] at h'
  simp only at h'
  rw [show tan α = tan p.transverse.pressureAngle from rfl, hgap, e3] at h'
  rw [e3]
  exact h'

/-- A concrete case for C96: a gear with 24 teeth, pressure angle 45°, anywhere. -/
example : let p : GearInput := { exampleInput with pressureAngle := π / 4, helixAngle := 1 / 2 }
    0 < p.numTeeth ∧ 0 < p.module_ ∧ 0 < p.height ∧ 0 < p.pressureAngle ∧ p.pressureAngle < π / 2 ∧ p.coneAngle = 0 ∧
      0 < cos p.helixAngle ∧ tan p.pressureAngle - p.pressureAngle ≤ π ∧
      (∃ t, 0 ≤ t ∧ norm3 (involuteCircle t (p.numTeeth / 2 * cos p.pressureAngle) 0 0 0) = p.numTeeth / 2) ∧
      tan p.transverse.pressureAngle - p.transverse.pressureAngle ≤ π ∧
      ∃ t, 0 ≤ t ∧ norm3 (involuteCircle t (p.numTeeth / 2 * cos p.transverse.pressureAngle) 0 0 0) = p.numTeeth / 2 := by
  intro p
  have hp : p.numTeeth = 24 := rfl
  have hq : p.transverse.pressureAngle = arctan (1 / cos (1 / 2)) := by
    change arctan (tan (π / 4) / cos (1 / 2)) = _
    rw [tan_pi_div_four]
  have hc : (7 / 8 : ℝ) ≤ cos (1 / 2) := by
    have := one_sub_sq_div_two_le_cos (x := 1 / 2)
    norm_num at this ⊢; linarith
  have hq0 : 0 < p.transverse.pressureAngle := by rw [hq]; exact arctan_pos.2 (by positivity)
  refine ⟨by norm_num [hp], by norm_num [p, exampleInput], by norm_num [p, exampleInput], ?_, ?_, rfl, ?_, ?_, ⟨tan (π / 4), ?_⟩, ?_,
    tan p.transverse.pressureAngle, ?_⟩
  · change 0 < π / 4; positivity
  · change π / 4 < π / 2; linarith [pi_pos]
  · exact cos_pos_of_le_one (by norm_num [p])
  · change tan (π / 4) - π / 4 ≤ π; rw [tan_pi_div_four]; linarith [Real.two_le_pi]
  · exact c24_crossing_exists _ _ (by norm_num [hp]) (by change 0 < π / 4; positivity)
      (by change π / 4 < π / 2; linarith [pi_pos])
  · have : tan p.transverse.pressureAngle ≤ 8 / 7 := by
      rw [hq, tan_arctan, div_le_iff₀ (by linarith)]; linarith
    linarith [Real.two_le_pi]
  · exact c24_crossing_exists _ _ (by norm_num [hp]) hq0 (by rw [hq]; exact arctan_lt_pi_div_two _)

/-! ## C97 -/

/-- The heights of the rack along the axis of a gear, above its centre. -/
def rackHeights (r : Rack) (g : WGear) : Set ℝ :=
  {h | ∃ hb mir j s, ∃ τ ∈ Set.Icc (0 : ℝ) 1, h = dot (r.flank hb mir j τ s - g.center) g.core.transform.zAxis}

/-- The heights of the teeth of the gear. -/
def gearHeights (g : WGear) (tSol : ℝ) : Set ℝ :=
  {h | ∃ up k t z, ∃ lo ∈ g.core.zVals.head?, ∃ hi ∈ g.core.zVals.getLast?, z ∈ Set.Icc lo hi ∧
    h = dot (g.flank up tSol z 0 k t - g.center) g.core.transform.zAxis}

theorem rack_axial (r : Rack) (g : WGear) (dir : V3) (hO : IsRot g.core.transform.orientation) (hm : r.module_ ≠ 0)
    (hβ : cos r.betaAngle ≠ 0) (hd : dir - dot dir g.core.transform.zAxis • g.core.transform.zAxis ≠ 0) (offset : ℝ)
    (r' : Rack) (hr : r.meshTo g dir offset = some r') (hb mir : Bool) (j : ℕ) (τ s : ℝ) :
    dot (r'.flank hb mir j τ s - g.center) g.core.transform.zAxis = τ * r.height := by
  obtain ⟨r1, hr1, h1, -, h4, h5⟩ := rack_meshTo r g dir offset hO hd
  obtain rfl : r1 = r' := Option.some.inj (hr1.symm.trans hr)
  obtain ⟨-, h2⟩ := towards_polar g dir hO hd
  have d1 : dot (towards g dir) g.core.transform.zAxis = 0 := by
    rw [h1, zAxis_eq, hO.dot_app]; simp [dot, polarVec, OUT]
  have d2 : dot (turnDir g dir) g.core.transform.zAxis = 0 := by
    rw [h2, zAxis_eq, hO.dot_app]; simp [dot, polarVec, OUT]
  have d3 : dot g.core.transform.zAxis g.core.transform.zAxis = 1 := by
    rw [zAxis_eq, hO.dot_app]; simp [dot, OUT]
  have key : ∀ q : V3, dot (r1.placed q - g.center) g.core.transform.zAxis = r.module_ * q 2 := by
    intro q
    rw [h5]
    have e : ∀ (a b c : ℝ) (u v w x : V3), x + a • u - b • v + c • w - x = a • u - b • v + c • w := by
      intros; module
    rw [e]
    have e' : ∀ (a b c : ℝ) (u v w x : V3), dot (a • u - b • v + c • w) x = a * dot u x - b * dot v x + c * dot w x := by
      intros; simp only [dot, Pi.add_apply, Pi.sub_apply, Pi.smul_apply, smul_eq_mul]; ring
    rw [e', d1, d2, d3]; ring
  have e2 : r1.extrusion = r.extrusion := by rw [h4]; rfl
  have e3 : r.extrusion 2 = r.height / r.module_ := by
    simp only [Rack.extrusion, Pi.smul_apply, smul_eq_mul, app_2, Rx, OUT]; simp; field_simp
  have hs : r1.sweep hb τ 2 = τ * (r.height / r.module_) := by
    simp only [Rack.sweep, e2]
    split_ifs
    · simp only [Pi.add_apply, Pi.smul_apply, smul_eq_mul, mulV, e3]; simp [e3]; ring
    · simp only [Pi.smul_apply, smul_eq_mul, e3]
  have ht : r1.toothCenter j 2 = 0 := by simp [Rack.toothCenter, UP]
  have hp : (r1.refPoints.2.1 + s • (r1.refPoints.1 - r1.refPoints.2.1)) 2 = 0 := by
    simp [Rack.refPoints, RIGHT, LEFT, DOWN]
  rw [Rack.flank, key]
  simp only [Pi.add_apply, hs, ht]
  cases mir
  · simp only [Bool.false_eq_true, if_false]
    rw [hp]; field_simp; ring
  · simp only [if_true, mulV]
    rw [show (![1, -1, 1] : V3) 2 = 1 from rfl, hp]; field_simp; ring

theorem gear_axial (g : WGear) (hO : IsRot g.core.transform.orientation) (hs : g.core.transform.scale = g.core.module_)
    (hc : ∀ z, g.core.recipe.center z = z • OUT) (up : Bool) (tSol z turn : ℝ) (k : ℤ) (t : ℝ) :
    dot (g.flank up tSol z turn k t - g.center) g.core.transform.zAxis = g.module_ * z := by
  have hcen : (g.core.transformAt z).center = g.center + (g.module_ * z) • g.core.transform.zAxis := by
    simp only [GearCore.transformAt, GearTransform.mul, GearCore.recipeTransform, hc, hs]
    change g.core.transform.center + g.core.module_ • app (g.core.transform.orientation * Rz g.core.transform.angle) (z • OUT)
      = _
    rw [app_smul, app_mul, Rz_app_OUT, zAxis_eq, smul_smul]
    rfl
  have hor : (g.core.transformAt z).orientation = g.core.transform.orientation := by
    simp [GearCore.transformAt, GearTransform.mul, GearCore.recipeTransform]
  have d3 : dot g.core.transform.zAxis g.core.transform.zAxis = 1 := by
    rw [zAxis_eq, hO.dot_app]; simp [dot, OUT]
  simp only [WGear.flank, applyGearTransform_eq, hcen, hor]
  obtain ⟨q, hq⟩ : ∃ q, q = (if up then mulV (involuteCircle t (g.core.recipe.gen.involuteFlank tSol z).1
      (g.core.recipe.gen.involuteFlank tSol z).2 0 0) ![1, -1, 1] else involuteCircle t
      (g.core.recipe.gen.involuteFlank tSol z).1 (g.core.recipe.gen.involuteFlank tSol z).2 0 0) := ⟨_, rfl⟩
  have hq2 : q 2 = 0 := by
    rw [hq]; cases up <;> simp [involuteCircle, mulV, RIGHT, DOWN]
  rw [← hq]
  have e : ∀ (u x : V3) (c : ℝ) (y : V3), u + (x + c • y) - x = u + c • y := by intros; module
  have e' : ∀ (u y : V3) (c : ℝ), dot (u + c • y) y = dot u y + c * dot y y := by
    intros; simp only [dot, Pi.add_apply, Pi.smul_apply, smul_eq_mul]; ring
  rw [e, e', d3, dot_smul_left, zAxis_eq, hO.dot_app]
  have : ∀ β, dot (app (Rz β) q) OUT = 0 := by
    intro β; rw [Rz_app]; simp [dot, OUT, hq2]
  rw [this]; ring

theorem rack_heights (r : Rack) (g : WGear) (dir : V3) (hO : IsRot g.core.transform.orientation) (hm : r.module_ ≠ 0)
    (hβ : cos r.betaAngle ≠ 0) (hd : dir - dot dir g.core.transform.zAxis • g.core.transform.zAxis ≠ 0) (offset : ℝ)
    (hh : 0 < r.height) (r' : Rack) (hr : r.meshTo g dir offset = some r') : rackHeights r' g = Set.Icc 0 r.height := by
  ext h
  constructor
  · rintro ⟨hb, mir, j, s, τ, ⟨h0, h1⟩, rfl⟩
    rw [rack_axial r g dir hO hm hβ hd offset r' hr]
    exact ⟨by positivity, by nlinarith⟩
  · rintro ⟨h0, h1⟩
    refine ⟨false, false, 0, 0, h / r.height, ⟨by positivity, (div_le_one hh).2 h1⟩, ?_⟩
    rw [rack_axial r g dir hO hm hβ hd offset r' hr]
    field_simp

theorem gear_heights (g : WGear) (hO : IsRot g.core.transform.orientation) (hs : g.core.transform.scale = g.core.module_)
    (hc : ∀ z, g.core.recipe.center z = z • OUT) (hm : 0 < g.module_) (lo hi tSol : ℝ) (h0 : g.core.zVals.head? = some lo)
    (h1 : g.core.zVals.getLast? = some hi) : gearHeights g tSol = Set.Icc (g.module_ * lo) (g.module_ * hi) := by
  ext h
  constructor
  · rintro ⟨up, k, t, z, lo', hlo, hi', hhi, ⟨h2, h3⟩, rfl⟩
    rw [h0, Option.mem_some_iff] at hlo
    rw [h1, Option.mem_some_iff] at hhi
    subst hlo hhi
    rw [gear_axial g hO hs hc]
    exact ⟨by nlinarith, by nlinarith⟩
  · rintro ⟨h2, h3⟩
    refine ⟨false, 0, 0, h / g.module_, lo, by simp [h0], hi, by simp [h1], ⟨?_, ?_⟩, ?_⟩
    · rw [le_div_iff₀ hm]; linarith
    · rw [div_le_iff₀ hm]; linarith
    · rw [gear_axial g hO hs hc]; field_simp

/-- The heights of a rack meshed to a cylindrical `InvoluteGear`, and the heights of the gear. -/
theorem c97_involute_spans (r : Rack) (p : GearInput) (c : V3) (O : M3) (a tSol : ℝ) (dir : V3) (offset : ℝ)
    (hO : IsRot O) (hn : 0 < p.numTeeth) (hc : p.coneAngle = 0) (hm : 0 < p.module_)
    (hrm : r.module_ ≠ 0) (hβ : cos r.betaAngle ≠ 0) (hh : 0 < r.height)
    (hd : dir - dot dir (app O OUT) • app O OUT ≠ 0) :
    let g := (involuteGear p).place c O a
    ∃ r', r.meshTo g dir offset = some r' ∧ rackHeights r' g = Set.Icc 0 r.height ∧
      gearHeights g tSol = Set.Icc (-(p.height * p.zAnchor)) (p.height * (1 - p.zAnchor)) := by
  intro g
  have e : involuteGear p = ⟨p, p.calcParams ⟨p.numTeeth, 0, p.insideTeeth⟩⟩ := by
    rw [involuteGear, normalise_pos hn, make_pos hn]
  obtain ⟨g0, hg0⟩ : ∃ g0 : WGear, g0 = ⟨p, p.calcParams ⟨p.numTeeth, 0, p.insideTeeth⟩⟩ := ⟨_, rfl⟩
  have hg : g = g0.place c O a := by rw [hg0, ← e]
  rw [hg]
  have hd' : dir - dot dir (g0.place c O a).core.transform.zAxis • (g0.place c O a).core.transform.zAxis ≠ 0 := by
    rw [show (g0.place c O a).core.transform.zAxis = app O OUT from zAxis_eq _]; exact hd
  obtain ⟨r', hr', -⟩ := rack_meshTo r (g0.place c O a) dir offset hO hd'
  refine ⟨r', hr', rack_heights r _ dir hO hrm hβ hd' offset hh r' hr', ?_⟩
  have hz : (g0.place c O a).core.zVals = [-(p.height / p.module_) * p.zAnchor, p.height / p.module_ * (1 - p.zAnchor)] := by
    rw [hg0]; rfl
  have hmm : (g0.place c O a).module_ = p.module_ := by rw [hg0]; rfl
  rw [gear_heights (g0.place c O a) hO (by rw [hg0]; rfl) (by intro z; rw [hg0]; simp [WGear.place, GearInput.calcParams, hc])
    (by rw [hmm]; exact hm) _ _ tSol (by rw [hz]; rfl) (by rw [hz]; rfl), hmm]
  congr 1
  · field_simp
  · change p.module_ * (p.height / p.module_ * (1 - p.zAnchor)) = _
    field_simp

/-- The same for `HelicalGear`, herringbone or not. -/
theorem c97_helical_spans (hb : Bool) (r : Rack) (p : GearInput) (c : V3) (O : M3) (a tSol : ℝ) (dir : V3) (offset : ℝ)
    (hO : IsRot O) (hn : 0 < p.numTeeth) (hph : 0 < p.height) (hm : 0 < p.module_) (hpβ : 0 < cos p.helixAngle)
    (hrm : r.module_ ≠ 0) (hβ : cos r.betaAngle ≠ 0) (hh : 0 < r.height)
    (hd : dir - dot dir (app O OUT) • app O OUT ≠ 0) :
    let g := (helicalGear hb p).place c O a
    ∃ r', r.meshTo g dir offset = some r' ∧ rackHeights r' g = Set.Icc 0 r.height ∧
      gearHeights g tSol = Set.Icc (-(p.height * p.zAnchor)) (p.height * (1 - p.zAnchor)) := by
  intro g
  have hd' : dir - dot dir g.core.transform.zAxis • g.core.transform.zAxis ≠ 0 := by
    rw [show g.core.transform.zAxis = app O OUT from zAxis_eq _]; exact hd
  have hlt : lowEnd p < highEnd p := by rw [← sub_pos, ends_sub]; positivity
  obtain ⟨-, c2, c3, c4, c5⟩ := helical_core hb p hn hlt
  obtain ⟨zh, z1, z2, -⟩ := c65_helical hb p hn hph hm hpβ
  obtain ⟨r', hr', -⟩ := rack_meshTo r g dir offset hO hd'
  refine ⟨r', hr', rack_heights r _ dir hO hrm hβ hd' offset hh r' hr', ?_⟩
  have hmm : g.module_ = (helicalGear hb p).module_ := rfl
  have hm0 : (helicalGear hb p).module_ = p.module_ / cos p.helixAngle := c4
  have hg3 : g.core.recipe = _ := c2
  have g1 : g.core.zVals.head? = some (-zh * p.zAnchor) := by
    rw [show g.core.zVals = (helicalGear hb p).core.zVals from rfl, z2.2.1]; cases hb <;> rfl
  have g2 : g.core.zVals.getLast? = some (zh * (1 - p.zAnchor)) := by
    rw [show g.core.zVals = (helicalGear hb p).core.zVals from rfl, z2.2.2.1]; cases hb <;> rfl
  rw [gear_heights g hO (c5.trans c4.symm) (by intro z; rw [hg3]; simp [GearInput.calcParams, GearInput.transverse])
    (by rw [hmm, hm0]; positivity) _ _ tSol g1 g2, hmm, ← z1]
  congr 1 <;> ring

/-- **C97, partial**. For `z_anchor = 0` a meshed rack of the same height covers the heights of the gear. -/
theorem c97_partial (r : Rack) (p : GearInput) (c : V3) (O : M3) (a tSol : ℝ) (dir : V3) (offset : ℝ) (g : WGear)
    (hO : IsRot O) (hn : 0 < p.numTeeth) (hc : p.coneAngle = 0) (hm : 0 < p.module_) (hpβ : 0 < cos p.helixAngle)
    (hrm : r.module_ ≠ 0) (hβ : cos r.betaAngle ≠ 0) (hh : 0 < r.height)
    (hd : dir - dot dir (app O OUT) • app O OUT ≠ 0) (heq : r.height = p.height) (hz : p.zAnchor = 0)
    (hg : g = involuteGear p ∨ ∃ hb, g = helicalGear hb p) :
    ∃ r', r.meshTo (g.place c O a) dir offset = some r' ∧
      rackHeights r' (g.place c O a) = gearHeights (g.place c O a) tSol := by
  rcases hg with rfl | ⟨hb, rfl⟩
  · obtain ⟨r', h1, h2, h3⟩ := c97_involute_spans r p c O a tSol dir offset hO hn hc hm hrm hβ hh hd
    exact ⟨r', h1, by rw [h2, h3, hz, heq]; simp⟩
  · obtain ⟨r', h1, h2, h3⟩ := c97_helical_spans hb r p c O a tSol dir offset hO hn (heq ▸ hh) hm hpβ hrm hβ hh hd
    exact ⟨r', h1, by rw [h2, h3, hz, heq]; simp⟩

/-- **C97, violated**. With every other anchor the rack is displaced: `mesh_to` ignores `z_anchor`. -/
theorem c97_violated (r : Rack) (p : GearInput) (c : V3) (O : M3) (a tSol : ℝ) (dir : V3) (offset : ℝ) (g : WGear)
    (hO : IsRot O) (hn : 0 < p.numTeeth) (hc : p.coneAngle = 0) (hm : 0 < p.module_) (hpβ : 0 < cos p.helixAngle)
    (hrm : r.module_ ≠ 0) (hβ : cos r.betaAngle ≠ 0) (hh : 0 < r.height)
    (hd : dir - dot dir (app O OUT) • app O OUT ≠ 0) (heq : r.height = p.height) (hz : p.zAnchor ≠ 0)
    (hg : g = involuteGear p ∨ ∃ hb, g = helicalGear hb p) :
    ∃ r', r.meshTo (g.place c O a) dir offset = some r' ∧
      rackHeights r' (g.place c O a) ≠ gearHeights (g.place c O a) tSol := by
  have hne : Set.Icc 0 r.height ≠ Set.Icc (-(p.height * p.zAnchor)) (p.height * (1 - p.zAnchor)) := by
    intro h
    rw [Set.Icc_eq_Icc_iff hh.le] at h
    have : p.height * p.zAnchor = 0 := by linarith [h.1]
    rcases mul_eq_zero.1 this with h' | h'
    · linarith
    · exact hz h'
  rcases hg with rfl | ⟨hb, rfl⟩
  · obtain ⟨r', h1, h2, h3⟩ := c97_involute_spans r p c O a tSol dir offset hO hn hc hm hrm hβ hh hd
    exact ⟨r', h1, by rw [h2, h3]; exact hne⟩
  · obtain ⟨r', h1, h2, h3⟩ := c97_helical_spans hb r p c O a tSol dir offset hO hn (heq ▸ hh) hm hpβ hrm hβ hh hd
    exact ⟨r', h1, by rw [h2, h3]; exact hne⟩

/-- A concrete case: the default orientation, meshed to the right. -/
example : RIGHT - dot RIGHT (app (1 : M3) OUT) • app (1 : M3) OUT ≠ 0 := by
  intro h
  have := congrFun h 0
  simp [dot, RIGHT, OUT, app_one] at this

end Verif
