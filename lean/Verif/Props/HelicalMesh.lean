import Verif.Model.HelicalMesh
import Verif.Props.RingAround
import Verif.Props.Cycloid
import Verif.Props.OctoidMesh

/-!
# C124: meshed cylindrical gears are conjugate in every slice
-/

namespace Verif

open Real

theorem normalAt_translate {F : ℝ → V3} {t : ℝ} {n W : V3} (h : NormalAt F t n) :
    NormalAt (fun s => F s + W) t n := by
  obtain ⟨v, hv, hn⟩ := h
  exact ⟨v, hv.add_const W, hn⟩

/-- A turned lower flank reaches the same line of action at another parameter. -/
theorem lowerFlank_extra (g : GearObj) (hO : IsRot g.transform.orientation) (turn x : ℝ) (k : ℤ) (t ψ : ℝ)
    (hψ : ψ = g.transform.angle + turn + k * g.pitchAngle + (t + g.baseAngle)) :
    g.lowerFlank (turn + x) k (t - x) = g.lowerFlank turn k t +
        (g.rBase * x) • app g.transform.orientation (polarVec (ψ + π / 2)) ∧
      NormalAt (g.lowerFlank (turn + x) k) (t - x) (app g.transform.orientation (polarVec (ψ + π / 2))) := by
  have hψ' : ψ = g.transform.angle + (turn + x) + k * g.pitchAngle + (t - x + g.baseAngle) := by rw [hψ]; ring
  refine ⟨?_, _, lowerFlank_deriv g _ k _ ψ hψ', normal_polar hO _ _⟩
  rw [lowerFlank_eq g _ k _ ψ hψ', lowerFlank_eq g _ k _ ψ hψ]
  module

/-- A turned upper flank reaches the same line of action at another parameter. -/
theorem upperFlank_extra (g : GearObj) (hO : IsRot g.transform.orientation) (turn x : ℝ) (k : ℤ) (t ψ : ℝ)
    (hψ : ψ = g.transform.angle + turn + k * g.pitchAngle - (t + g.baseAngle)) :
    g.upperFlank (turn + x) k (t + x) = g.upperFlank turn k t +
        (g.rBase * x) • app g.transform.orientation (polarVec (ψ + π / 2)) ∧
      NormalAt (g.upperFlank (turn + x) k) (t + x) (app g.transform.orientation (polarVec (ψ + π / 2))) := by
  have hψ' : ψ = g.transform.angle + (turn + x) + k * g.pitchAngle - (t + x + g.baseAngle) := by rw [hψ]; ring
  refine ⟨?_, _, upperFlank_deriv g _ k _ ψ hψ', normal_polar hO _ _⟩
  rw [upperFlank_eq g _ k _ ψ hψ', upperFlank_eq g _ k _ ψ hψ]
  module

/-- What the classes of cylindrical involute gears have in common, for the constructor arguments `p` and the twist `s`. -/
structure Cylinder (g : WGear) (p : GearInput) (s : ℝ → ℝ) (ring : Bool) : Prop where
  base : ∀ tSol z, g.core.recipe.gen.involuteBase tSol z =
    spurInvolute (p.crowningFunc z p.toothAngle) (p.numTeeth / 2) p.pressureAngle tSol
  scale : ∀ z, g.core.recipe.scale z = 1
  center : ∀ z, g.core.recipe.center z = z • OUT
  angle : ∀ z, g.core.recipe.angle z = s z
  cone : g.core.recipe.coneAngle = 0
  placed : g.core.transform.scale = p.module_
  teeth : g.core.tooth = ⟨p.numTeeth, 0, ring⟩
  helix : g.input.helixAngle = p.helixAngle

theorem Cylinder.place {g : WGear} {p : GearInput} {s : ℝ → ℝ} {ring : Bool} (h : Cylinder g p s ring) (C : V3) (O : M3)
    (A : ℝ) : Cylinder (g.place C O A) p s ring :=
  ⟨h.base, h.scale, h.center, h.angle, h.cone, h.placed, h.teeth, h.helix⟩

/-- How much wider the tooth is at height 0, where `mesh_to` reads it, than at height `z`: per side, as an angle. -/
noncomputable def crownAngle (p : GearInput) (z : ℝ) : ℝ :=
  p.crowningFunc 0 p.toothAngle - p.crowningFunc z p.toothAngle

theorem Cylinder.baseAngle {g : WGear} {p : GearInput} {s : ℝ → ℝ} {ring : Bool} (h : Cylinder g p s ring) (tSol z : ℝ) :
    (g.core.recipe.gen.involuteBase tSol z).2 = (g.involuteObj tSol).baseAngle + crownAngle p z ∧
    (g.core.recipe.gen.involuteBase tSol z).1 = (g.involuteObj tSol).baseRadius1 := by
  simp only [WGear.involuteObj, h.base, spurInvolute, crownAngle]
  constructor
  · ring
  · trivial

theorem involuteCircle_turn (t r ang e : ℝ) :
    involuteCircle t r (ang + e) 0 0 = app (Rz e) (involuteCircle t r ang 0 0) := by
  rw [involuteCircle_polar, involuteCircle_polar]
  simp only [app_sub, app_smul, Rz_polarVec]
  rw [show t + (ang + e) = e + (t + ang) by ring, show e + (t + ang) + π / 2 = e + (t + ang + π / 2) by ring]

theorem mirror_Rz (e : ℝ) (v : V3) : mulV (app (Rz e) v) ![1, -1, 1] = app (Rz (-e)) (mulV v ![1, -1, 1]) := by
  apply V3.ext3 <;> simp [mulV, Rz_app] <;> ring

theorem Cylinder.transformAt {g : WGear} {p : GearInput} {s : ℝ → ℝ} {ring : Bool} (h : Cylinder g p s ring) (z : ℝ) :
    g.core.transformAt z =
      { center := g.core.transform.center + (p.module_ * z) • app g.core.transform.orientation OUT
        orientation := g.core.transform.orientation
        scale := g.core.transform.scale
        angle := g.core.transform.angle + s z } := by
  have e := place_transformAt g g.core.transform.center g.core.transform.orientation g.core.transform.angle z
  have e2 : g.place g.core.transform.center g.core.transform.orientation g.core.transform.angle = g := rfl
  rw [e2] at e
  rw [e, h.scale, h.center, h.angle, app_smul, app_mul, Rz_app_OUT, mul_one, smul_smul, h.placed]

/-- A slice is the slice at height 0, lifted along the axis and turned by the twist and the crowning. -/
theorem sliceFlank_lower {g : WGear} {p : GearInput} {s : ℝ → ℝ} {ring : Bool} (h : Cylinder g p s ring)
    (tSol z turn : ℝ) (k : ℤ) (t : ℝ) :
    g.involuteFlank tSol false z turn k t = (g.involuteObj tSol).lowerFlank (turn + s z + crownAngle p z) k t +
      (p.module_ * z) • app g.core.transform.orientation OUT := by
  obtain ⟨e1, e2⟩ := h.baseAngle tSol z
  have hp : g.pitchAngle = (g.involuteObj tSol).pitchAngle := rfl
  have ht : (g.involuteObj tSol).transform = g.core.transform := rfl
  simp only [WGear.involuteFlank, GearObj.lowerFlank, e1, e2, involuteCircle_turn, applyGearTransform_eq, hp,
    h.transformAt, Bool.false_eq_true, if_false, ht]
  rw [← app_mul (Rz _) (Rz _), ← Rz_add]
  rw [show g.core.transform.angle + s z + turn + k * (g.involuteObj tSol).pitchAngle + crownAngle p z =
    g.core.transform.angle + (turn + s z + crownAngle p z) + k * (g.involuteObj tSol).pitchAngle by ring]
  abel

theorem sliceFlank_upper {g : WGear} {p : GearInput} {s : ℝ → ℝ} {ring : Bool} (h : Cylinder g p s ring)
    (tSol z turn : ℝ) (k : ℤ) (t : ℝ) :
    g.involuteFlank tSol true z turn k t = (g.involuteObj tSol).upperFlank (turn + s z - crownAngle p z) k t +
      (p.module_ * z) • app g.core.transform.orientation OUT := by
  obtain ⟨e1, e2⟩ := h.baseAngle tSol z
  have hp : g.pitchAngle = (g.involuteObj tSol).pitchAngle := rfl
  have ht : (g.involuteObj tSol).transform = g.core.transform := rfl
  simp only [WGear.involuteFlank, GearObj.upperFlank, e1, e2, involuteCircle_turn, applyGearTransform_eq, hp,
    h.transformAt, if_true, ht, mirror_Rz]
  rw [← app_mul (Rz _) (Rz _), ← Rz_add]
  rw [show g.core.transform.angle + s z + turn + k * (g.involuteObj tSol).pitchAngle + -crownAngle p z =
    g.core.transform.angle + (turn + s z - crownAngle p z) + k * (g.involuteObj tSol).pitchAngle by ring]
  abel

/-- The curves `F1` and `F2 φ` have a common normal, which is the tangent of the circle around `M` with radius `r` (in the
plane of `O`) at the polar angle `ψ`, and their distance on this line is `gap`, counted from the second to the first curve in
the direction of growing polar angle. If the second gear turns on by `x`, its curve still meets the line at a right angle,
moved by `r·x`; so the curves touch when it is turned on by `gap / r`. -/
def LineContact (F1 : ℝ → V3) (F2 : ℝ → ℝ → V3) (φ : ℝ) (M : V3) (O : M3) (r ψ gap : ℝ) : Prop :=
  ∃ t1 t2 s : ℝ, F2 φ t2 = M + r • app O (polarVec ψ) + s • app O (polarVec (ψ + π / 2)) ∧
    F1 t1 - F2 φ t2 = gap • app O (polarVec (ψ + π / 2)) ∧
    NormalAt F1 t1 (app O (polarVec (ψ + π / 2))) ∧
    ∀ x : ℝ, ∃ t, F2 (φ + x) t = F2 φ t2 + (r * x) • app O (polarVec (ψ + π / 2)) ∧
      NormalAt (F2 (φ + x)) t (app O (polarVec (ψ + π / 2)))

/-- The curves touch when the second gear is turned on by `gap / r`. -/
theorem LineContact.touch {F1 : ℝ → V3} {F2 : ℝ → ℝ → V3} {φ : ℝ} {M : V3} {O : M3} {r ψ gap : ℝ}
    (h : LineContact F1 F2 φ M O r ψ gap) (hr : r ≠ 0) :
    ∃ t1 t2, F1 t1 = F2 (φ + gap / r) t2 ∧ NormalAt F1 t1 (app O (polarVec (ψ + π / 2))) ∧
      NormalAt (F2 (φ + gap / r)) t2 (app O (polarVec (ψ + π / 2))) := by
  obtain ⟨t1, t2, -, -, h2, h3, h4⟩ := h
  obtain ⟨t, e1, e2⟩ := h4 (gap / r)
  refine ⟨t1, t, ?_, h3, e2⟩
  rw [e1, mul_div_cancel₀ _ hr, ← h2]
  abel

theorem NormalAt.neg {F : ℝ → V3} {t : ℝ} {n : V3} (h : NormalAt F t (-n)) : NormalAt F t n := by
  obtain ⟨v, hv, hn⟩ := h
  exact ⟨v, hv, by rw [dot_neg_right] at hn; linarith⟩

/-- From the slices at height 0 to the slices at height `z`, lower flanks. -/
theorem lower_slice {g h : WGear} {p q : GearInput} {s1 s2 : ℝ → ℝ} {r1 r2 : Bool} (Hg : Cylinder g p s1 r1)
    (Hh : Cylinder h q s2 r2) (hm : p.module_ = q.module_) {O : M3} (hO : IsRot O)
    (hgO : g.core.transform.orientation = O) (hhO : h.core.transform.orientation = O) (tp tq z T φ x : ℝ) (k1 k2 : ℤ)
    (ε t1 t2 ψ gap : ℝ) (hε : ε = 1 ∧ (g.involuteObj tp).transform.angle + (T + s1 z + crownAngle p z - x) +
        k1 * (g.involuteObj tp).pitchAngle + (t1 + (g.involuteObj tp).baseAngle) = ψ ∨
      ε = -1 ∧ (g.involuteObj tp).transform.angle + (T + s1 z + crownAngle p z - x) +
        k1 * (g.involuteObj tp).pitchAngle + (t1 + (g.involuteObj tp).baseAngle) = ψ + π)
    (h2 : ψ = (h.involuteObj tq).transform.angle + (φ + s2 z + crownAngle q z) + k2 * (h.involuteObj tq).pitchAngle +
      (t2 + (h.involuteObj tq).baseAngle))
    (hgap : (g.involuteObj tp).lowerFlank (T + s1 z + crownAngle p z - x) k1 t1 -
      (h.involuteObj tq).lowerFlank (φ + s2 z + crownAngle q z) k2 t2 = gap • app O (polarVec (ψ + π / 2))) :
    LineContact (g.involuteFlank tp false z T k1) (fun y => h.involuteFlank tq false z y k2) φ
      (h.core.transform.center + (q.module_ * z) • app O OUT) O ((h.involuteObj tq).rBase) ψ
      (gap + ε * ((g.involuteObj tp).rBase * x)) := by
  have hgO' : (g.involuteObj tp).transform.orientation = O := hgO
  have hhO' : (h.involuteObj tq).transform.orientation = O := hhO
  obtain ⟨e1, e2⟩ := lowerFlank_extra (g.involuteObj tp) (by rw [hgO']; exact hO) (T + s1 z + crownAngle p z - x) x k1 t1 _
    rfl
  rw [sub_add_cancel, hgO'] at e1 e2
  have hF1 : g.involuteFlank tp false z T k1 = fun t => (g.involuteObj tp).lowerFlank (T + s1 z + crownAngle p z) k1 t +
      (p.module_ * z) • app O OUT := by
    funext t; rw [sliceFlank_lower Hg, hgO]
  have hF2 : ∀ y, h.involuteFlank tq false z y k2 = fun t => (h.involuteObj tq).lowerFlank (y + s2 z + crownAngle q z) k2 t +
      (q.module_ * z) • app O OUT := by
    intro y; funext t; rw [sliceFlank_lower Hh, hhO]
  have hψ' : ∃ w, w = polarVec ((g.involuteObj tp).transform.angle + (T + s1 z + crownAngle p z - x) +
        k1 * (g.involuteObj tp).pitchAngle + (t1 + (g.involuteObj tp).baseAngle) + π / 2) := ⟨_, rfl⟩
  obtain ⟨w, hw⟩ := hψ'
  rw [← hw] at e1 e2
  have hw' : ε = 1 ∧ w = polarVec (ψ + π / 2) ∨ ε = -1 ∧ w = -polarVec (ψ + π / 2) := by
    rcases hε with ⟨a, e⟩ | ⟨a, e⟩
    · left; exact ⟨a, by rw [hw, e]⟩
    · right; exact ⟨a, by rw [hw, e, ← polarVec_add_pi]; congr 1; ring⟩
  have hn2 := lowerFlank_eq (h.involuteObj tq) (φ + s2 z + crownAngle q z) k2 t2 ψ h2
  rw [hhO'] at hn2
  refine ⟨t1 - x, t2, -((h.involuteObj tq).rBase * t2), ?_, ?_, ?_, ?_⟩
  · simp only [hF2]; rw [hn2]
    have : (h.involuteObj tq).transform.center = h.core.transform.center := rfl
    rw [this]
    module
  · simp only [hF1, hF2]
    rw [e1, hm]
    have : ∀ a b c d e : V3, a - b = c → a + d + e - (b + e) = c + d := by
      intro a b c d e hh; rw [← hh]; abel
    rw [this _ _ _ _ _ hgap]
    rcases hw' with ⟨a, e⟩ | ⟨a, e⟩
    · rw [a, e]; module
    · rw [a, e, app_neg]; module
  · rw [hF1]
    refine normalAt_translate ?_
    rcases hw' with ⟨a, e⟩ | ⟨a, e⟩
    · rw [e] at e2; exact e2
    · rw [e, app_neg] at e2; exact e2.neg
  · intro y
    obtain ⟨d1, d2⟩ := lowerFlank_extra (h.involuteObj tq) (by rw [hhO']; exact hO) (φ + s2 z + crownAngle q z) y k2 t2 ψ h2
    rw [hhO', show φ + s2 z + crownAngle q z + y = φ + y + s2 z + crownAngle q z by ring] at d1 d2
    refine ⟨t2 - y, ?_, ?_⟩
    · simp only [hF2]; rw [d1]; abel
    · simp only [hF2]; exact normalAt_translate d2

/-- From the slices at height 0 to the slices at height `z`, upper flanks. -/
theorem upper_slice {g h : WGear} {p q : GearInput} {s1 s2 : ℝ → ℝ} {r1 r2 : Bool} (Hg : Cylinder g p s1 r1)
    (Hh : Cylinder h q s2 r2) (hm : p.module_ = q.module_) {O : M3} (hO : IsRot O)
    (hgO : g.core.transform.orientation = O) (hhO : h.core.transform.orientation = O) (tp tq z T φ x : ℝ) (k1 k2 : ℤ)
    (ε t1 t2 ψ gap : ℝ) (hε : ε = 1 ∧ (g.involuteObj tp).transform.angle + (T + s1 z - crownAngle p z - x) +
        k1 * (g.involuteObj tp).pitchAngle - (t1 + (g.involuteObj tp).baseAngle) = ψ ∨
      ε = -1 ∧ (g.involuteObj tp).transform.angle + (T + s1 z - crownAngle p z - x) +
        k1 * (g.involuteObj tp).pitchAngle - (t1 + (g.involuteObj tp).baseAngle) = ψ + π)
    (h2 : ψ = (h.involuteObj tq).transform.angle + (φ + s2 z - crownAngle q z) + k2 * (h.involuteObj tq).pitchAngle -
      (t2 + (h.involuteObj tq).baseAngle))
    (hgap : (g.involuteObj tp).upperFlank (T + s1 z - crownAngle p z - x) k1 t1 -
      (h.involuteObj tq).upperFlank (φ + s2 z - crownAngle q z) k2 t2 = gap • app O (polarVec (ψ + π / 2))) :
    LineContact (g.involuteFlank tp true z T k1) (fun y => h.involuteFlank tq true z y k2) φ
      (h.core.transform.center + (q.module_ * z) • app O OUT) O ((h.involuteObj tq).rBase) ψ
      (gap + ε * ((g.involuteObj tp).rBase * x)) := by
  have hgO' : (g.involuteObj tp).transform.orientation = O := hgO
  have hhO' : (h.involuteObj tq).transform.orientation = O := hhO
  obtain ⟨e1, e2⟩ := upperFlank_extra (g.involuteObj tp) (by rw [hgO']; exact hO) (T + s1 z - crownAngle p z - x) x k1 t1 _
    rfl
  rw [sub_add_cancel, hgO'] at e1 e2
  have hF1 : g.involuteFlank tp true z T k1 = fun t => (g.involuteObj tp).upperFlank (T + s1 z - crownAngle p z) k1 t +
      (p.module_ * z) • app O OUT := by
    funext t; rw [sliceFlank_upper Hg, hgO]
  have hF2 : ∀ y, h.involuteFlank tq true z y k2 = fun t => (h.involuteObj tq).upperFlank (y + s2 z - crownAngle q z) k2 t +
      (q.module_ * z) • app O OUT := by
    intro y; funext t; rw [sliceFlank_upper Hh, hhO]
  have hψ' : ∃ w, w = polarVec ((g.involuteObj tp).transform.angle + (T + s1 z - crownAngle p z - x) +
        k1 * (g.involuteObj tp).pitchAngle - (t1 + (g.involuteObj tp).baseAngle) + π / 2) := ⟨_, rfl⟩
  obtain ⟨w, hw⟩ := hψ'
  rw [← hw] at e1 e2
  have hw' : ε = 1 ∧ w = polarVec (ψ + π / 2) ∨ ε = -1 ∧ w = -polarVec (ψ + π / 2) := by
    rcases hε with ⟨a, e⟩ | ⟨a, e⟩
    · left; exact ⟨a, by rw [hw, e]⟩
    · right; exact ⟨a, by rw [hw, e, ← polarVec_add_pi]; congr 1; ring⟩
  have hn2 := upperFlank_eq (h.involuteObj tq) (φ + s2 z - crownAngle q z) k2 t2 ψ h2
  rw [hhO'] at hn2
  refine ⟨t1 + x, t2, (h.involuteObj tq).rBase * t2, ?_, ?_, ?_, ?_⟩
  · simp only [hF2]; rw [hn2]
    have : (h.involuteObj tq).transform.center = h.core.transform.center := rfl
    rw [this]
    module
  · simp only [hF1, hF2]
    rw [e1, hm]
    have : ∀ a b c d e : V3, a - b = c → a + d + e - (b + e) = c + d := by
      intro a b c d e hh; rw [← hh]; abel
    rw [this _ _ _ _ _ hgap]
    rcases hw' with ⟨a, e⟩ | ⟨a, e⟩
    · rw [a, e]; module
    · rw [a, e, app_neg]; module
  · rw [hF1]
    refine normalAt_translate ?_
    rcases hw' with ⟨a, e⟩ | ⟨a, e⟩
    · rw [e] at e2; exact e2
    · rw [e, app_neg] at e2; exact e2.neg
  · intro y
    obtain ⟨d1, d2⟩ := upperFlank_extra (h.involuteObj tq) (by rw [hhO']; exact hO) (φ + s2 z - crownAngle q z) y k2 t2 ψ h2
    rw [hhO', show φ + s2 z - crownAngle q z + y = φ + y + s2 z - crownAngle q z by ring] at d1 d2
    refine ⟨t2 + y, ?_, ?_⟩
    · simp only [hF2]; rw [d1]; abel
    · simp only [hF2]; exact normalAt_translate d2

/-- Two cylindrical gears that can mesh: whole tooth counts, equal module and pressure angle. -/
structure HelixPair (p q : GearInput) (N1 N2 : ℕ) : Prop where
  teeth : p.numTeeth = N1
  teeth' : q.numTeeth = N2
  posN : 0 < N1
  posN' : 0 < N2
  mod : p.module_ = q.module_
  modPos : 0 < p.module_
  alpha : p.pressureAngle = q.pressureAngle
  cosPos : 0 < cos p.pressureAngle

/-- How much farther the crowning moves a flank back into the tooth at height `z` than at height 0, measured along the line
of action. It is negative where the tooth is thicker than at height 0. -/
noncomputable def crownRelief (p : GearInput) (z : ℝ) : ℝ :=
  p.module_ * cos p.pressureAngle * (p.crowning / 1000) * ((z * 2 / p.height - 1) ^ 2 - 1)

theorem Cylinder.rBase {g : WGear} {p : GearInput} {s : ℝ → ℝ} {ring : Bool} (h : Cylinder g p s ring) (tSol : ℝ) :
    (g.involuteObj tSol).rBase = p.module_ * cos p.pressureAngle * (p.numTeeth / 2) := by
  simp only [GearObj.rBase, WGear.involuteObj, h.base, h.placed, spurInvolute]
  ring

theorem Cylinder.pitchAngle {g : WGear} {p : GearInput} {s : ℝ → ℝ} {ring : Bool} (h : Cylinder g p s ring) (tSol : ℝ) :
    (g.involuteObj tSol).pitchAngle = 2 * π / p.numTeeth := by
  simp only [GearObj.pitchAngle, WGear.involuteObj, h.teeth, GearToothParam.pitchAngle]

theorem Cylinder.relief {g : WGear} {p : GearInput} {s : ℝ → ℝ} {ring : Bool} (h : Cylinder g p s ring) (hn : 0 < p.numTeeth)
    (tSol z : ℝ) : (g.involuteObj tSol).rBase * crownAngle p z = crownRelief p z := by
  rw [h.rBase, crownAngle, crownRelief, GearInput.crowningFunc, GearInput.crowningFunc]
  field_simp
  ring

theorem Cylinder.spurPair {g h : WGear} {p q : GearInput} {s1 s2 : ℝ → ℝ} {r1 r2 : Bool} (Hg : Cylinder g p s1 r1)
    (Hh : Cylinder h q s2 r2) {N1 N2 : ℕ} (H : HelixPair p q N1 N2) {O : M3} (hO : IsRot O)
    (hhO : h.core.transform.orientation = O) (tp tq : ℝ) {ρ : ℝ} (hρ : 0 < ρ) (δ : ℝ) :
    SpurPair (g.involuteObj tp) (h.involuteObj tq) (ρ • app O (polarVec δ)) N1 N2 ρ δ := by
  have h1 : (0 : ℝ) < N1 := by exact_mod_cast H.posN
  have h2 : (0 : ℝ) < N2 := by exact_mod_cast H.posN'
  have hm := H.modPos
  have hc := H.cosPos
  constructor
  · rfl
  · simp [WGear.involuteObj]
  · exact Hg.cone
  · exact Hh.cone
  · change g.core.tooth.numTeeth = N1; rw [Hg.teeth]; exact H.teeth
  · change h.core.tooth.numTeeth = N2; rw [Hh.teeth]; exact H.teeth'
  · exact H.posN
  · exact H.posN'
  · change IsRot h.core.transform.orientation; rw [hhO]; exact hO
  · rw [Hg.rBase, H.teeth]; positivity
  · rw [Hh.rBase, H.teeth', ← H.mod, ← H.alpha]; positivity
  · rw [Hg.rBase, Hh.rBase, Hg.pitchAngle, Hh.pitchAngle, H.teeth, H.teeth', H.mod, H.alpha]; field_simp
  · exact hρ
  · change _ = ρ • app h.core.transform.orientation (polarVec δ); rw [hhO]

/-- C124 for an external pair of any two classes. -/
theorem cyl_external (solve : (ℝ → ℝ) → ℝ) {g h : WGear} {p q : GearInput} {s1 s2 : ℝ → ℝ} (Hg : Cylinder g p s1 false)
    (Hh : Cylinder h q s2 false) {N1 N2 : ℕ} (H : HelixPair p q N1 N2) (hs : ∀ z, s1 z * N1 = -(s2 z * N2)) {O : M3}
    (hO : IsRot O) (hhO : h.core.transform.orientation = O) (tp tq : ℝ) {ρ : ℝ} (hρ : 0 < ρ) (δ b bias a : ℝ)
    (hbig : 1 / 10 ^ 12 ≤ p.module_ * cos p.pressureAngle * ((N1 + N2) / 2))
    (ha : a = solve (meshResidual (g.involuteObj tp).rBase (h.involuteObj tq).rBase (-(g.involuteObj tp).angleBase)
      (-(h.involuteObj tq).angleBase) (h.involuteObj tq).pitchAngle false b))
    (hlo : -(π / 2) < a) (hhi : a < π / 2)
    (hroot : meshResidual (g.involuteObj tp).rBase (h.involuteObj tq).rBase (-(g.involuteObj tp).angleBase)
      (-(h.involuteObj tq).angleBase) (h.involuteObj tq).pitchAngle false b a = 0) :
    ∃ C' A', g.meshToInvolute solve tp h tq (ρ • app O (polarVec δ)) b bias = some (g.place C' O A') ∧
      C' = h.core.transform.center +
        (p.module_ * cos p.pressureAngle * ((N1 + N2) / 2) / cos a) • app O (polarVec δ) ∧
      ∀ (z φ : ℝ) (k2 : ℤ),
        (∃ k1 : ℤ, LineContact ((g.place C' O A').involuteFlank tp false z (-(φ * N2 / N1)) k1)
          (fun y => h.involuteFlank tq false z y k2) φ (h.core.transform.center + (q.module_ * z) • app O OUT) O
          (q.module_ * cos q.pressureAngle * (q.numTeeth / 2)) (δ + a)
          (-(b / 2 * (1 + bias) + crownRelief p z + crownRelief q z))) ∧
        (∃ k1 : ℤ, LineContact ((g.place C' O A').involuteFlank tp true z (-(φ * N2 / N1)) k1)
          (fun y => h.involuteFlank tq true z y k2) φ (h.core.transform.center + (q.module_ * z) • app O OUT) O
          (q.module_ * cos q.pressureAngle * (q.numTeeth / 2)) (δ - a)
          (b / 2 * (1 - bias) + crownRelief p z + crownRelief q z)) := by
  have h1 : (0 : ℝ) < N1 := by exact_mod_cast H.posN
  have h2 : (0 : ℝ) < N2 := by exact_mod_cast H.posN'
  have hpi := pi_pos
  have P := Hg.spurPair Hh H hO hhO tp tq hρ δ
  have hsum : (g.involuteObj tp).rBase + (h.involuteObj tq).rBase =
      p.module_ * cos p.pressureAngle * ((N1 + N2) / 2) := by
    rw [Hg.rBase, Hh.rBase, H.teeth, H.teeth', H.mod, H.alpha]; ring
  have hrg : (g.involuteObj tp).insideTeeth = false := by
    change g.core.tooth.insideTeeth = false; rw [Hg.teeth]
  have hrh : (h.involuteObj tq).insideTeeth = false := by
    change h.core.tooth.insideTeeth = false; rw [Hh.teeth]
  obtain ⟨G', hmesh, hcon⟩ := c84_external solve _ _ _ N1 N2 ρ δ b bias a P hrg hrh (by rw [hsum]; exact hbig) ha hlo hhi
    hroot
  have hG := P.meshTo_eq solve b bias
  rw [hmesh] at hG
  injection hG with hG
  have hhO' : (h.involuteObj tq).transform.orientation = O := hhO
  rw [hhO'] at hG hcon
  have hD : (g.involuteObj tp).meshDistance solve (h.involuteObj tq) b =
      p.module_ * cos p.pressureAngle * ((N1 + N2) / 2) / cos a := by
    rw [GearObj.meshDistance, hrg, hrh, calcInvoluteMeshDistance]
    simp only [Bool.or_self, Bool.false_eq_true, if_false, ← ha, hsum]
  have hC : G'.transform.center = h.core.transform.center +
      (p.module_ * cos p.pressureAngle * ((N1 + N2) / 2) / cos a) • app O (polarVec δ) := by
    rw [hG, ← hD, add_comm]; rfl
  have hGo : G'.transform.orientation = O := by rw [hG, ← hhO']; rfl
  have hGs : G'.transform.scale = g.core.transform.scale := by rw [hG]; rfl
  have hplace : ({ g with core := { g.core with transform := G'.transform } } : WGear) =
      g.place G'.transform.center O G'.transform.angle := by
    simp only [WGear.place, ← hGo, ← hGs]
  have hobj : (g.place G'.transform.center O G'.transform.angle).involuteObj tp = G' := by
    rw [← hplace, hG]; rfl
  refine ⟨G'.transform.center, G'.transform.angle, ?_, hC, ?_⟩
  · have : (g.involuteObj tp).meshToInvolute solve (h.involuteObj tq) (ρ • app O (polarVec δ)) b bias = some G' := hmesh
    rw [WGear.meshToInvolute, this, Option.map_some, hplace]
  intro z φ k2
  have Hg' := Hg.place G'.transform.center O G'.transform.angle
  obtain ⟨e1, he1⟩ : ∃ e, e = crownAngle p z := ⟨_, rfl⟩
  obtain ⟨e2, he2⟩ : ∃ e, e = crownAngle q z := ⟨_, rfl⟩
  have hratio : (g.involuteObj tp).pitchAngle / (h.involuteObj tq).pitchAngle = N2 / N1 := by
    rw [Hg.pitchAngle, Hh.pitchAngle, H.teeth, H.teeth']; field_simp
  have hs' : s1 z = -(s2 z * (N2 / N1)) := by
    have := hs z; field_simp; linarith
  have hturn : ∀ y : ℝ, y * (g.involuteObj tp).pitchAngle / (h.involuteObj tq).pitchAngle = y * (N2 / N1) := by
    intro y; rw [← hratio]; ring
  have hR : (g.involuteObj tp).rBase * (e1 + e2 * (N2 / N1)) = crownRelief p z + crownRelief q z := by
    rw [← Hg.relief (by rw [H.teeth]; exact h1) tp z, ← Hh.relief (by rw [H.teeth']; exact h2) tq z, ← he1, ← he2,
      Hg.rBase, Hh.rBase, H.teeth, H.teeth', H.mod, H.alpha]
    field_simp
  have hgr : G'.rBase = (g.involuteObj tp).rBase := by rw [hG]; rfl
  have hgp : G'.pitchAngle = (g.involuteObj tp).pitchAngle := by rw [hG]; rfl
  have hgb : G'.baseAngle = (g.involuteObj tp).angleBase := by rw [hG]; rfl
  constructor
  · obtain ⟨⟨k1, t1, t2, ht2, ht1, hgap, -, -⟩, -⟩ := hcon (φ + s2 z + e2) k2
    rw [hturn] at hgap ht1
    have hT : -(φ * N2 / N1) + s1 z + crownAngle p z - (e1 + e2 * (N2 / N1)) = -((φ + s2 z + e2) * (N2 / N1)) := by
      rw [hs', ← he1]; ring
    have := lower_slice Hg' Hh H.mod hO rfl hhO tp tq z (-(φ * N2 / N1)) φ (e1 + e2 * (N2 / N1)) k1 k2 (-1) t1 t2 (δ + a)
      (-(b / 2 * (1 + bias))) (Or.inr ⟨rfl, by rw [hT, hobj, hgp, hgb, ht1]; ring⟩)
      (by rw [ht2, ← he2, GearObj.angleBase]; ring)
      (by rw [hT, hobj, ← he2]; exact hgap)
    rw [hobj, hgr, hR, Hh.rBase] at this
    refine ⟨k1, ?_⟩
    convert this using 1
    ring
  · obtain ⟨-, k1, t1, t2, ht2, ht1, hgap, -, -⟩ := hcon (φ + s2 z - e2) k2
    rw [hturn] at hgap ht1
    have hT : -(φ * N2 / N1) + s1 z - crownAngle p z - -(e1 + e2 * (N2 / N1)) = -((φ + s2 z - e2) * (N2 / N1)) := by
      rw [hs', ← he1]; ring
    have := upper_slice Hg' Hh H.mod hO rfl hhO tp tq z (-(φ * N2 / N1)) φ (-(e1 + e2 * (N2 / N1))) k1 k2 (-1) t1 t2
      (δ - a) (b / 2 * (1 - bias)) (Or.inr ⟨rfl, by rw [hT, hobj, hgp, hgb, ht1]; ring⟩)
      (by rw [ht2, ← he2, GearObj.angleBase]; ring)
      (by rw [hT, hobj, ← he2]; exact hgap)
    rw [hobj, hgr, mul_neg, hR, Hh.rBase] at this
    refine ⟨k1, ?_⟩
    convert this using 1
    ring

/-- C124 for a pinion of any class that is meshed to a ring gear. -/
theorem cyl_ring (solve : (ℝ → ℝ) → ℝ) {g h : WGear} {p q : GearInput} {s1 s2 : ℝ → ℝ} (Hg : Cylinder g p s1 false)
    (Hh : Cylinder h q s2 true) {N1 N2 : ℕ} (H : HelixPair p q N1 N2) (hs : ∀ z, s1 z * N1 = s2 z * N2) {O : M3}
    (hO : IsRot O) (hhO : h.core.transform.orientation = O) (tp tq : ℝ) {ρ : ℝ} (hρ : 0 < ρ) (δ b bias a : ℝ)
    (hbig : 1 / 10 ^ 12 ≤ p.module_ * cos p.pressureAngle * (((N2 : ℝ) - N1) / 2))
    (hl : (g.involuteObj tp).angleBase ≤ 0) (hl' : (h.involuteObj tq).angleBase ≤ 0)
    (hd : (g.involuteObj tp).rBase * -(g.involuteObj tp).angleBase <
      (h.involuteObj tq).rBase * -(h.involuteObj tq).angleBase)
    (ha : a = solve (meshResidual (g.involuteObj tp).rBase (h.involuteObj tq).rBase (-(g.involuteObj tp).angleBase)
      (-(h.involuteObj tq).angleBase) (h.involuteObj tq).pitchAngle true b))
    (hlo : -(π / 2) < a) (hhi : a < π / 2)
    (hroot : meshResidual (g.involuteObj tp).rBase (h.involuteObj tq).rBase (-(g.involuteObj tp).angleBase)
      (-(h.involuteObj tq).angleBase) (h.involuteObj tq).pitchAngle true b a = 0) :
    ∃ C' A', g.meshToInvolute solve tp h tq (ρ • app O (polarVec δ)) b bias = some (g.place C' O A') ∧
      C' = h.core.transform.center +
        (p.module_ * cos p.pressureAngle * (((N2 : ℝ) - N1) / 2) / cos a) • app O (polarVec δ) ∧
      ∀ (z φ : ℝ) (k2 : ℤ),
        (∃ k1 : ℤ, LineContact ((g.place C' O A').involuteFlank tp false z (φ * N2 / N1) k1)
          (fun y => h.involuteFlank tq false z y k2) φ (h.core.transform.center + (q.module_ * z) • app O OUT) O
          (q.module_ * cos q.pressureAngle * (q.numTeeth / 2)) (δ - a)
          (b / 2 * (1 + bias) + crownRelief p z - crownRelief q z)) ∧
        (∃ k1 : ℤ, LineContact ((g.place C' O A').involuteFlank tp true z (φ * N2 / N1) k1)
          (fun y => h.involuteFlank tq true z y k2) φ (h.core.transform.center + (q.module_ * z) • app O OUT) O
          (q.module_ * cos q.pressureAngle * (q.numTeeth / 2)) (δ + a)
          (-(b / 2 * (1 - bias) + crownRelief p z - crownRelief q z))) := by
  have h1 : (0 : ℝ) < N1 := by exact_mod_cast H.posN
  have h2 : (0 : ℝ) < N2 := by exact_mod_cast H.posN'
  have hpi := pi_pos
  have P := Hg.spurPair Hh H hO hhO tp tq hρ δ
  have hsum : (h.involuteObj tq).rBase - (g.involuteObj tp).rBase =
      p.module_ * cos p.pressureAngle * (((N2 : ℝ) - N1) / 2) := by
    rw [Hg.rBase, Hh.rBase, H.teeth, H.teeth', H.mod, H.alpha]; ring
  have hrg : (g.involuteObj tp).insideTeeth = false := by
    change g.core.tooth.insideTeeth = false; rw [Hg.teeth]
  have hrh : (h.involuteObj tq).insideTeeth = true := by
    change h.core.tooth.insideTeeth = true; rw [Hh.teeth]
  obtain ⟨G', hmesh, hcon⟩ := c84_ring solve _ _ _ N1 N2 ρ δ b bias a P hrg hrh (by linarith [hsum, hbig])
    hl hl' hd ha hlo hhi hroot
  have hG := P.meshTo_eq solve b bias
  rw [hmesh] at hG
  injection hG with hG
  have hhO' : (h.involuteObj tq).transform.orientation = O := hhO
  rw [hhO'] at hG hcon
  have hD : (g.involuteObj tp).meshDistance solve (h.involuteObj tq) b =
      p.module_ * cos p.pressureAngle * (((N2 : ℝ) - N1) / 2) / cos a := by
    rw [GearObj.meshDistance, hrg, hrh, calcInvoluteMeshDistance]
    simp only [Bool.or_true, if_true, ← ha, hsum]
  have hC : G'.transform.center = h.core.transform.center +
      (p.module_ * cos p.pressureAngle * (((N2 : ℝ) - N1) / 2) / cos a) • app O (polarVec δ) := by
    rw [hG, ← hD, add_comm]; rfl
  have hGo : G'.transform.orientation = O := by rw [hG, ← hhO']; rfl
  have hGs : G'.transform.scale = g.core.transform.scale := by rw [hG]; rfl
  have hplace : ({ g with core := { g.core with transform := G'.transform } } : WGear) =
      g.place G'.transform.center O G'.transform.angle := by
    simp only [WGear.place, ← hGo, ← hGs]
  have hobj : (g.place G'.transform.center O G'.transform.angle).involuteObj tp = G' := by
    rw [← hplace, hG]; rfl
  refine ⟨G'.transform.center, G'.transform.angle, ?_, hC, ?_⟩
  · have : (g.involuteObj tp).meshToInvolute solve (h.involuteObj tq) (ρ • app O (polarVec δ)) b bias = some G' := hmesh
    rw [WGear.meshToInvolute, this, Option.map_some, hplace]
  intro z φ k2
  have Hg' := Hg.place G'.transform.center O G'.transform.angle
  obtain ⟨e1, he1⟩ : ∃ e, e = crownAngle p z := ⟨_, rfl⟩
  obtain ⟨e2, he2⟩ : ∃ e, e = crownAngle q z := ⟨_, rfl⟩
  have hratio : (g.involuteObj tp).pitchAngle / (h.involuteObj tq).pitchAngle = N2 / N1 := by
    rw [Hg.pitchAngle, Hh.pitchAngle, H.teeth, H.teeth']; field_simp
  have hs' : s1 z = s2 z * (N2 / N1) := by
    have := hs z; field_simp; linarith
  have hturn : ∀ y : ℝ, y * (g.involuteObj tp).pitchAngle / (h.involuteObj tq).pitchAngle = y * (N2 / N1) := by
    intro y; rw [← hratio]; ring
  have hR : (g.involuteObj tp).rBase * (e1 - e2 * (N2 / N1)) = crownRelief p z - crownRelief q z := by
    rw [← Hg.relief (by rw [H.teeth]; exact h1) tp z, ← Hh.relief (by rw [H.teeth']; exact h2) tq z, ← he1, ← he2,
      Hg.rBase, Hh.rBase, H.teeth, H.teeth', H.mod, H.alpha]
    field_simp
  have hgr : G'.rBase = (g.involuteObj tp).rBase := by rw [hG]; rfl
  have hgp : G'.pitchAngle = (g.involuteObj tp).pitchAngle := by rw [hG]; rfl
  have hgb : G'.baseAngle = (g.involuteObj tp).angleBase := by rw [hG]; rfl
  constructor
  · obtain ⟨⟨k1, t1, t2, ht2, ht1, hgap, -, -⟩, -⟩ := hcon (φ + s2 z + e2) k2
    rw [hturn] at hgap ht1
    have hT : φ * N2 / N1 + s1 z + crownAngle p z - (e1 - e2 * (N2 / N1)) = (φ + s2 z + e2) * (N2 / N1) := by
      rw [hs', ← he1]; ring
    have := lower_slice Hg' Hh H.mod hO rfl hhO tp tq z (φ * N2 / N1) φ (e1 - e2 * (N2 / N1)) k1 k2 1 t1 t2 (δ - a)
      (b / 2 * (1 + bias)) (Or.inl ⟨rfl, by rw [hT, hobj, hgp, hgb, ht1]; ring⟩)
      (by rw [ht2, ← he2, GearObj.angleBase]; ring)
      (by rw [hT, hobj, ← he2]; exact hgap)
    rw [hobj, hgr, hR, Hh.rBase] at this
    refine ⟨k1, ?_⟩
    convert this using 1
    ring
  · obtain ⟨-, k1, t1, t2, ht2, ht1, hgap, -, -⟩ := hcon (φ + s2 z - e2) k2
    rw [hturn] at hgap ht1
    have hT : φ * N2 / N1 + s1 z - crownAngle p z - -(e1 - e2 * (N2 / N1)) = (φ + s2 z - e2) * (N2 / N1) := by
      rw [hs', ← he1]; ring
    have := upper_slice Hg' Hh H.mod hO rfl hhO tp tq z (φ * N2 / N1) φ (-(e1 - e2 * (N2 / N1))) k1 k2 1 t1 t2
      (δ + a) (-(b / 2 * (1 - bias))) (Or.inl ⟨rfl, by rw [hT, hobj, hgp, hgb, ht1]; ring⟩)
      (by rw [ht2, ← he2, GearObj.angleBase]; ring)
      (by rw [hT, hobj, ← he2]; exact hgap)
    rw [hobj, hgr, mul_neg, hR, Hh.rBase] at this
    refine ⟨k1, ?_⟩
    convert this using 1
    ring

/-- C124 for a ring gear of any class that is meshed to a pinion. The ring's centre is placed on the other side of the pinion
than the target direction says (C126). -/
theorem cyl_around (solve : (ℝ → ℝ) → ℝ) {g h : WGear} {p q : GearInput} {s1 s2 : ℝ → ℝ} (Hg : Cylinder g p s1 true)
    (Hh : Cylinder h q s2 false) {N1 N2 : ℕ} (H : HelixPair p q N1 N2) (hs : ∀ z, s1 z * N1 = s2 z * N2) {O : M3}
    (hO : IsRot O) (hhO : h.core.transform.orientation = O) (tp tq : ℝ) {ρ : ℝ} (hρ : 0 < ρ) (δ b bias a : ℝ)
    (hbig : 1 / 10 ^ 12 ≤ p.module_ * cos p.pressureAngle * (((N1 : ℝ) - N2) / 2))
    (hl : (g.involuteObj tp).angleBase ≤ 0) (hl' : (h.involuteObj tq).angleBase ≤ 0)
    (hd : (h.involuteObj tq).rBase * -(h.involuteObj tq).angleBase <
      (g.involuteObj tp).rBase * -(g.involuteObj tp).angleBase)
    (ha : a = solve (meshResidual (g.involuteObj tp).rBase (h.involuteObj tq).rBase (-(g.involuteObj tp).angleBase)
      (-(h.involuteObj tq).angleBase) (h.involuteObj tq).pitchAngle true b))
    (hlo : -(π / 2) < a) (hhi : a < π / 2)
    (hroot : meshResidual (g.involuteObj tp).rBase (h.involuteObj tq).rBase (-(g.involuteObj tp).angleBase)
      (-(h.involuteObj tq).angleBase) (h.involuteObj tq).pitchAngle true b a = 0) :
    ∃ C' A', g.meshToInvolute solve tp h tq (ρ • app O (polarVec δ)) b bias = some (g.place C' O A') ∧
      C' = h.core.transform.center +
        (p.module_ * cos p.pressureAngle * (((N2 : ℝ) - N1) / 2) / cos a) • app O (polarVec δ) ∧
      ∀ (z φ : ℝ) (k2 : ℤ),
        (∃ k1 : ℤ, LineContact ((g.place C' O A').involuteFlank tp false z (φ * N2 / N1) k1)
          (fun y => h.involuteFlank tq false z y k2) φ (h.core.transform.center + (q.module_ * z) • app O OUT) O
          (q.module_ * cos q.pressureAngle * (q.numTeeth / 2)) (δ - a)
          (-(b / 2 * (1 - bias) + crownRelief q z - crownRelief p z))) ∧
        (∃ k1 : ℤ, LineContact ((g.place C' O A').involuteFlank tp true z (φ * N2 / N1) k1)
          (fun y => h.involuteFlank tq true z y k2) φ (h.core.transform.center + (q.module_ * z) • app O OUT) O
          (q.module_ * cos q.pressureAngle * (q.numTeeth / 2)) (δ + a)
          (b / 2 * (1 + bias) + crownRelief q z - crownRelief p z)) := by
  have h1 : (0 : ℝ) < N1 := by exact_mod_cast H.posN
  have h2 : (0 : ℝ) < N2 := by exact_mod_cast H.posN'
  have hpi := pi_pos
  have P := Hg.spurPair Hh H hO hhO tp tq hρ δ
  have hsum : (h.involuteObj tq).rBase - (g.involuteObj tp).rBase =
      p.module_ * cos p.pressureAngle * (((N2 : ℝ) - N1) / 2) := by
    rw [Hg.rBase, Hh.rBase, H.teeth, H.teeth', H.mod, H.alpha]; ring
  have hrg : (g.involuteObj tp).insideTeeth = true := by
    change g.core.tooth.insideTeeth = true; rw [Hg.teeth]
  have hrh : (h.involuteObj tq).insideTeeth = false := by
    change h.core.tooth.insideTeeth = false; rw [Hh.teeth]
  obtain ⟨G', hmesh, hcon⟩ := c84_around solve _ _ _ N1 N2 ρ δ b bias a P hrg hrh (by linarith [hsum, hbig])
    hl hl' hd ha hlo hhi hroot
  have hG := P.meshTo_eq solve b bias
  rw [hmesh] at hG
  injection hG with hG
  have hhO' : (h.involuteObj tq).transform.orientation = O := hhO
  rw [hhO'] at hG hcon
  have hD : (g.involuteObj tp).meshDistance solve (h.involuteObj tq) b =
      p.module_ * cos p.pressureAngle * (((N2 : ℝ) - N1) / 2) / cos a := by
    rw [GearObj.meshDistance, hrg, hrh, calcInvoluteMeshDistance]
    simp only [Bool.or_false, if_true, ← ha, hsum]
  have hC : G'.transform.center = h.core.transform.center +
      (p.module_ * cos p.pressureAngle * (((N2 : ℝ) - N1) / 2) / cos a) • app O (polarVec δ) := by
    rw [hG, ← hD, add_comm]; rfl
  have hGo : G'.transform.orientation = O := by rw [hG, ← hhO']; rfl
  have hGs : G'.transform.scale = g.core.transform.scale := by rw [hG]; rfl
  have hplace : ({ g with core := { g.core with transform := G'.transform } } : WGear) =
      g.place G'.transform.center O G'.transform.angle := by
    simp only [WGear.place, ← hGo, ← hGs]
  have hobj : (g.place G'.transform.center O G'.transform.angle).involuteObj tp = G' := by
    rw [← hplace, hG]; rfl
  refine ⟨G'.transform.center, G'.transform.angle, ?_, hC, ?_⟩
  · have : (g.involuteObj tp).meshToInvolute solve (h.involuteObj tq) (ρ • app O (polarVec δ)) b bias = some G' := hmesh
    rw [WGear.meshToInvolute, this, Option.map_some, hplace]
  intro z φ k2
  have Hg' := Hg.place G'.transform.center O G'.transform.angle
  obtain ⟨e1, he1⟩ : ∃ e, e = crownAngle p z := ⟨_, rfl⟩
  obtain ⟨e2, he2⟩ : ∃ e, e = crownAngle q z := ⟨_, rfl⟩
  have hratio : (g.involuteObj tp).pitchAngle / (h.involuteObj tq).pitchAngle = N2 / N1 := by
    rw [Hg.pitchAngle, Hh.pitchAngle, H.teeth, H.teeth']; field_simp
  have hs' : s1 z = s2 z * (N2 / N1) := by
    have := hs z; field_simp; linarith
  have hturn : ∀ y : ℝ, y * (g.involuteObj tp).pitchAngle / (h.involuteObj tq).pitchAngle = y * (N2 / N1) := by
    intro y; rw [← hratio]; ring
  have hR : (g.involuteObj tp).rBase * (e1 - e2 * (N2 / N1)) = crownRelief p z - crownRelief q z := by
    rw [← Hg.relief (by rw [H.teeth]; exact h1) tp z, ← Hh.relief (by rw [H.teeth']; exact h2) tq z, ← he1, ← he2,
      Hg.rBase, Hh.rBase, H.teeth, H.teeth', H.mod, H.alpha]
    field_simp
  have hgr : G'.rBase = (g.involuteObj tp).rBase := by rw [hG]; rfl
  have hgp : G'.pitchAngle = (g.involuteObj tp).pitchAngle := by rw [hG]; rfl
  have hgb : G'.baseAngle = (g.involuteObj tp).angleBase := by rw [hG]; rfl
  constructor
  · obtain ⟨⟨k1, t1, t2, ht2, ht1, hgap, -, -⟩, -⟩ := hcon (φ + s2 z + e2) k2
    rw [hturn] at hgap ht1
    have hT : φ * N2 / N1 + s1 z + crownAngle p z - (e1 - e2 * (N2 / N1)) = (φ + s2 z + e2) * (N2 / N1) := by
      rw [hs', ← he1]; ring
    have := lower_slice Hg' Hh H.mod hO rfl hhO tp tq z (φ * N2 / N1) φ (e1 - e2 * (N2 / N1)) k1 k2 1 t1 t2 (δ - a)
      (-(b / 2 * (1 - bias))) (Or.inl ⟨rfl, by rw [hT, hobj, hgp, hgb, ht1]; ring⟩)
      (by rw [ht2, ← he2, GearObj.angleBase]; ring)
      (by rw [hT, hobj, ← he2]; exact hgap)
    rw [hobj, hgr, hR, Hh.rBase] at this
    refine ⟨k1, ?_⟩
    convert this using 1
    ring
  · obtain ⟨-, k1, t1, t2, ht2, ht1, hgap, -, -⟩ := hcon (φ + s2 z - e2) k2
    rw [hturn] at hgap ht1
    have hT : φ * N2 / N1 + s1 z - crownAngle p z - -(e1 - e2 * (N2 / N1)) = (φ + s2 z - e2) * (N2 / N1) := by
      rw [hs', ← he1]; ring
    have := upper_slice Hg' Hh H.mod hO rfl hhO tp tq z (φ * N2 / N1) φ (-(e1 - e2 * (N2 / N1))) k1 k2 1 t1 t2
      (δ + a) (b / 2 * (1 + bias)) (Or.inl ⟨rfl, by rw [hT, hobj, hgp, hgb, ht1]; ring⟩)
      (by rw [ht2, ← he2, GearObj.angleBase]; ring)
      (by rw [hT, hobj, ← he2]; exact hgap)
    rw [hobj, hgr, mul_neg, hR, Hh.rBase] at this
    refine ⟨k1, ?_⟩
    convert this using 1
    ring

/-- The angle by which a gear with these constructor arguments is twisted at height `z` (in units of its module): along a
helix, or along one that turns back at the middle of the gear. -/
noncomputable def helixTwist (p : GearInput) (herringbone : Bool) (z : ℝ) : ℝ :=
  let mid := p.height / p.module_ * (1 - 2 * p.zAnchor) / 2
  (if herringbone then mid - |mid - z| else z) * (tan p.helixAngle / (p.numTeeth / 2))

theorem involuteGen_base (p : GearInput) (hc : p.coneAngle = 0) (tSol z : ℝ) :
    p.involuteGen.involuteBase tSol z =
      spurInvolute (p.crowningFunc z p.toothAngle) (p.numTeeth / 2) p.pressureAngle tSol := by
  rw [GearInput.involuteGen]
  split_ifs <;> rfl

theorem cylinder_calcParams (p : GearInput) (hc : p.coneAngle = 0) (ring : Bool) :
    Cylinder ⟨p, p.calcParams ⟨p.numTeeth, 0, ring⟩⟩ p (helixTwist p false) ring := by
  constructor
  · intro t z; exact involuteGen_base p hc t z
  · intro z; simp [GearInput.calcParams, hc]
  · intro z; simp [GearInput.calcParams, hc]
  · intro z; rfl
  · exact hc
  · rfl
  · rfl
  · rfl

theorem cylinder_herringbone (p : GearInput) (hc : p.coneAngle = 0) (ring : Bool) :
    Cylinder ⟨p, (p.calcParams ⟨p.numTeeth, 0, ring⟩).herringbone⟩ p (helixTwist p true) ring := by
  have h := cylinder_calcParams p hc ring
  refine ⟨h.base, h.scale, h.center, ?_, h.cone, h.placed, h.teeth, h.helix⟩
  intro z
  simp only [GearCore.herringbone, herringboneMod, GearInput.calcParams, GearInput.zVals, helixTwist, if_true,
    List.headD_cons, List.getLastD_cons, List.getLastD_nil]
  congr 1
  ring_nf

theorem cylinder_involute {p : GearInput} (hn : 0 < p.numTeeth) (hc : p.coneAngle = 0) :
    Cylinder (involuteGear p) p (helixTwist p false) p.insideTeeth := by
  rw [involuteGear_pos hn]; exact cylinder_calcParams p hc _

theorem Cylinder.refine {g : WGear} {p : GearInput} {s : ℝ → ℝ} {ring : Bool} (h : Cylinder g p s ring) :
    Cylinder ⟨g.input, g.core.refine⟩ p s ring := by
  have e : g.core.refine.recipe = g.core.recipe ∧ g.core.refine.transform = g.core.transform ∧
      g.core.refine.tooth = g.core.tooth := by
    rw [GearCore.refine]; split_ifs <;> exact ⟨rfl, rfl, rfl⟩
  obtain ⟨e1, e2, e3⟩ := e
  constructor
  · intro t z; change ToothGen.involuteBase t z g.core.refine.recipe.gen = _; rw [e1]; exact h.base t z
  · intro z; change g.core.refine.recipe.scale z = _; rw [e1]; exact h.scale z
  · intro z; change g.core.refine.recipe.center z = _; rw [e1]; exact h.center z
  · intro z; change g.core.refine.recipe.angle z = _; rw [e1]; exact h.angle z
  · change g.core.refine.recipe.coneAngle = 0; rw [e1]; exact h.cone
  · change g.core.refine.transform.scale = _; rw [e2]; exact h.placed
  · change g.core.refine.tooth = _; rw [e3]; exact h.teeth
  · exact h.helix

theorem cylinder_helical {p : GearInput} (hn : 0 < p.numTeeth) (hi : p.insideTeeth = false) (hb : Bool) :
    Cylinder (helicalGear hb p) p.transverse (helixTwist p.transverse hb) false := by
  have hn' : 0 < p.transverse.numTeeth := hn
  have hi' : p.transverse.insideTeeth = false := hi
  have e : helicalGear hb p = ⟨p.transverse, (if hb then (p.transverse.calcParams
      ⟨p.transverse.numTeeth, 0, false⟩).herringbone else p.transverse.calcParams ⟨p.transverse.numTeeth, 0, false⟩).refine⟩ := by
    rw [helicalGear, involuteGear_pos hn', hi']
  rw [e]
  cases hb
  · exact (cylinder_calcParams p.transverse rfl false).refine
  · exact (cylinder_herringbone p.transverse rfl false).refine

theorem Cylinder.setInside {g : WGear} {p : GearInput} {s : ℝ → ℝ} {ring : Bool} (i : Bool)
    (h : Cylinder g { p with insideTeeth := i } s ring) : Cylinder g p s ring :=
  ⟨h.base, h.scale, h.center, h.angle, h.cone, h.placed, h.teeth, h.helix⟩

theorem cylinder_helicalRing {p : GearInput} (hn : 0 < p.numTeeth) (hb : Bool) :
    Cylinder (helicalRingGear hb p) p.transverse (helixTwist p.transverse hb) true := by
  have hn' : ¬p.transverse.numTeeth < 0 := not_lt.2 hn.le
  have e : helicalRingGear hb p = ⟨{ p.transverse with insideTeeth := true },
      if hb then (({ p.transverse with insideTeeth := true } : GearInput).calcParams
        ⟨p.transverse.numTeeth, 0, true⟩).herringbone
      else ({ p.transverse with insideTeeth := true } : GearInput).calcParams ⟨p.transverse.numTeeth, 0, true⟩⟩ := by
    have h1 : 0 < p.transverse.numTeeth := hn
    rw [helicalRingGear]
    simp only [GearInput.normalise, if_neg hn', make_pos h1]
  rw [e]
  cases hb
  · exact Cylinder.setInside true (cylinder_calcParams _ rfl true)
  · exact Cylinder.setInside true (cylinder_herringbone _ rfl true)

end Verif
