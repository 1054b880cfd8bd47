import Verif.Props.HelicalMesh

/-!
# C124, C125: meshed cylindrical gears slice by slice and with crowning; C29: the side on which they are placed
-/

namespace Verif

open Real

/-- In every slice, while `h` turns by `φ` and `g` by `turn φ`: each lower flank of `h` has a common normal with a lower flank
of `g`, which is the tangent at the polar angle `ψ` of the base circle of `h` (radius `r`), and so have the upper flanks, at
`ψ'`. The distances along the normals only depend on the height. -/
def SlicesMesh (g h : WGear) (tg th : ℝ) (O : M3) (m r : ℝ) (turn : ℝ → ℝ) (ψ ψ' : ℝ) (gap gap' : ℝ → ℝ) : Prop :=
  ∀ (z φ : ℝ) (k : ℤ),
    (∃ k1 : ℤ, LineContact (g.involuteFlank tg false z (turn φ) k1) (fun y => h.involuteFlank th false z y k) φ
      (h.core.transform.center + (m * z) • app O OUT) O r ψ (gap z)) ∧
    (∃ k1 : ℤ, LineContact (g.involuteFlank tg true z (turn φ) k1) (fun y => h.involuteFlank th true z y k) φ
      (h.core.transform.center + (m * z) • app O OUT) O r ψ' (gap' z))

/-- `mesh_to` of two gears asks the solver for the root of this function. -/
noncomputable def WGear.residual (g : WGear) (tg : ℝ) (h : WGear) (th : ℝ) (ring : Bool) (b : ℝ) : ℝ → ℝ :=
  meshResidual (g.involuteObj tg).rBase (h.involuteObj th).rBase (-(g.involuteObj tg).angleBase)
    (-(h.involuteObj th).angleBase) (h.involuteObj th).pitchAngle ring b

/-- The solver finds a root between -90° and 90°: the working pressure angle `a`. -/
structure Finds (solve : (ℝ → ℝ) → ℝ) (f : ℝ → ℝ) (a : ℝ) : Prop where
  is : a = solve f
  lo : -(π / 2) < a
  hi : a < π / 2
  root : f a = 0

/-- There always is such a root, so the hypothesis can be met for all gears. -/
theorem exists_root (c : ℝ) : ∃ a, -(π / 2) < a ∧ a < π / 2 ∧ tan a - a = c := by
  have hc : Continuous fun y : ℝ => y - arctan y := continuous_id.sub continuous_arctan
  have h1 : c - 2 - arctan (c - 2) ≤ c := by
    have := neg_pi_div_two_lt_arctan (c - 2); linarith [pi_le_four]
  have h2 : c ≤ c + 2 - arctan (c + 2) := by
    have := arctan_lt_pi_div_two (c + 2); linarith [pi_le_four]
  obtain ⟨y, -, hy⟩ := intermediate_value_Icc (by linarith : c - 2 ≤ c + 2) hc.continuousOn ⟨h1, h2⟩
  exact ⟨arctan y, neg_pi_div_two_lt_arctan y, arctan_lt_pi_div_two y, by rw [tan_arctan]; exact hy⟩

theorem solvable (r1 r2 a1 a2 p2 : ℝ) (ring : Bool) (b : ℝ) :
    ∃ solve a, Finds solve (meshResidual r1 r2 a1 a2 p2 ring b) a := by
  cases ring
  · obtain ⟨a, h1, h2, h3⟩ := exists_root ((r1 * a1 - r2 * (p2 / 2 - a2) + b / 2) / (r1 + r2))
    refine ⟨fun _ => a, a, rfl, h1, h2, ?_⟩
    simp only [meshResidual, Bool.false_eq_true, if_false]
    linarith
  · obtain ⟨a, h1, h2, h3⟩ := exists_root
      (-((r2 * |a2| - r1 * |a1| - b / 2 * sgn (r2 * |a2| - r1 * |a1|)) / (r2 - r1)))
    refine ⟨fun _ => a, a, rfl, h1, h2, ?_⟩
    simp only [meshResidual, if_true]
    linarith

theorem helixTwist_ratio {p q : GearInput} {N1 N2 : ℕ} (H : HelixPair p q N1 N2) {ε : ℝ} {hb : Bool}
    (hβ : tan p.helixAngle = ε * tan q.helixAngle)
    (hmid : hb = true → p.height = q.height ∧ p.zAnchor = q.zAnchor) (z : ℝ) :
    helixTwist p hb z * N1 = ε * (helixTwist q hb z * N2) := by
  have h1 : (0 : ℝ) < N1 := by exact_mod_cast H.posN
  have h2 : (0 : ℝ) < N2 := by exact_mod_cast H.posN'
  cases hb
  · simp only [helixTwist, Bool.false_eq_true, if_false, H.teeth, H.teeth', hβ]
    field_simp
  · obtain ⟨e1, e2⟩ := hmid rfl
    simp only [helixTwist, if_true, H.teeth, H.teeth', hβ, e1, e2, H.mod]
    field_simp

theorem HelixPair.pos {p q : GearInput} {N1 N2 : ℕ} (H : HelixPair p q N1 N2) : 0 < p.numTeeth ∧ 0 < q.numTeeth := by
  rw [H.teeth, H.teeth']
  exact ⟨by exact_mod_cast H.posN, by exact_mod_cast H.posN'⟩

/-- **C124, external pair of `InvoluteGear`s** (or `SpurGear`s) with helix angles of opposite hand, meshed with the backlash
`b` and the `angle_bias` `bias`, wherever the partner is placed. In every slice the flanks are conjugate, and along the
common normals they keep the distances `b/2·(1 ± bias)`, to which the crownings add how much they move the flanks back
compared with height 0. -/
theorem c124_external (solve : (ℝ → ℝ) → ℝ) (p q : GearInput) (N1 N2 : ℕ) (H : HelixPair p q N1 N2)
    (hc : p.coneAngle = 0) (hc' : q.coneAngle = 0) (hi : p.insideTeeth = false) (hi' : q.insideTeeth = false)
    (hβ : tan p.helixAngle = -tan q.helixAngle) (c C : V3) (o O : M3) (hO : IsRot O) (θ A tp tq ρ δ b bias a : ℝ)
    (hρ : 0 < ρ) (hbig : 1 / 10 ^ 12 ≤ p.module_ * cos p.pressureAngle * ((N1 + N2) / 2)) :
    let g := (involuteGear p).place c o θ
    let h := (involuteGear q).place C O A
    Finds solve (g.residual tp h tq false b) a →
    ∃ C' A', g.meshToInvolute solve tp h tq (ρ • app O (polarVec δ)) b bias = some (g.place C' O A') ∧
      C' = C + (p.module_ * cos p.pressureAngle * ((N1 + N2) / 2) / cos a) • app O (polarVec δ) ∧
      SlicesMesh (g.place C' O A') h tp tq O q.module_ (q.module_ * cos q.pressureAngle * (q.numTeeth / 2))
        (fun φ => -(φ * N2 / N1)) (δ + a) (δ - a)
        (fun z => -(b / 2 * (1 + bias) + crownRelief p z + crownRelief q z))
        (fun z => b / 2 * (1 - bias) + crownRelief p z + crownRelief q z) := by
  intro g h F
  have Hg := (cylinder_involute H.pos.1 hc).place c o θ
  have Hh := (cylinder_involute H.pos.2 hc').place C O A
  rw [hi] at Hg
  rw [hi'] at Hh
  exact cyl_external solve Hg Hh H (fun z => by
    rw [helixTwist_ratio (ε := -1) H (by rw [hβ]; ring) (by simp)]; ring) hO rfl tp tq hρ δ b bias a hbig F.is F.lo F.hi
    F.root

/-- With opposite helix angles the correction of the orientation does nothing. -/
theorem meshToHelical_opposite {solve : (ℝ → ℝ) → ℝ} {g h : WGear} {tp tq : ℝ} {d : V3} {C' : V3} {O : M3} {A' : ℝ}
    (e : g.meshToInvolute solve tp h tq d 0 0 = some (g.place C' O A'))
    (hβ : g.input.helixAngle = -h.input.helixAngle) (hne : h.core.transform.center - C' ≠ 0) :
    g.meshToHelical solve tp h tq d = some (g.place C' O A') := by
  rw [WGear.meshToInvolute, Option.map_eq_some_iff] at e
  obtain ⟨G, e1, e2⟩ := e
  have hc : G.transform.center = C' := by
    have := congrArg (fun x : WGear => x.core.transform.center) e2; exact this
  have hh : (h.involuteObj tq).transform.center = h.core.transform.center := rfl
  have hs : (g.involuteObj tp).helixAngle + (h.involuteObj tq).helixAngle = 0 := by
    change g.input.helixAngle + h.input.helixAngle = 0; rw [hβ]; ring
  rw [WGear.meshToHelical, GearObj.meshToHelical, e1]
  simp only [hc, hh, normalizeVector_eq hne, hs]
  rw [fromRotvec_smul (dot_normalized hne), rotMat_zero, one_mul, Option.map_some, e2.symm, ← hc]

/-- **C124, external pair of `HelicalGear`s** with helix angles of opposite hand, both with or both without herringbone. -/
theorem c124_helical (solve : (ℝ → ℝ) → ℝ) (p q : GearInput) (N1 N2 : ℕ) (hb : Bool)
    (h1 : p.numTeeth = N1) (h2 : q.numTeeth = N2) (hN1 : 0 < N1) (hN2 : 0 < N2) (hm : p.module_ = q.module_)
    (hm0 : 0 < p.module_) (hα : p.pressureAngle = q.pressureAngle) (hβ : p.helixAngle = -q.helixAngle)
    (hcos : 0 < cos p.helixAngle) (hmid : hb = true → p.height = q.height ∧ p.zAnchor = q.zAnchor)
    (hi : p.insideTeeth = false) (hi' : q.insideTeeth = false)
    (c C : V3) (o O : M3) (hO : IsRot O) (θ A tp tq ρ δ a : ℝ) (hρ : 0 < ρ) :
    let P := p.transverse
    let Q := q.transverse
    let g := (helicalGear hb p).place c o θ
    let h := (helicalGear hb q).place C O A
    1 / 10 ^ 12 ≤ P.module_ * cos P.pressureAngle * ((N1 + N2) / 2) →
    Finds solve (g.residual tp h tq false 0) a →
    ∃ C' A', g.meshToHelical solve tp h tq (ρ • app O (polarVec δ)) = some (g.place C' O A') ∧
      C' = C + (P.module_ * cos P.pressureAngle * ((N1 + N2) / 2) / cos a) • app O (polarVec δ) ∧
      SlicesMesh (g.place C' O A') h tp tq O Q.module_ (Q.module_ * cos Q.pressureAngle * (N2 / 2))
        (fun φ => -(φ * N2 / N1)) (δ + a) (δ - a)
        (fun z => -(crownRelief P z + crownRelief Q z)) (fun z => crownRelief P z + crownRelief Q z) := by
  intro P Q g h hbig F
  have hcq : cos q.helixAngle = cos p.helixAngle := by rw [hβ, cos_neg]
  have H : HelixPair P Q N1 N2 := by
    refine ⟨h1, h2, hN1, hN2, ?_, ?_, ?_, ?_⟩
    · change p.module_ / cos p.helixAngle = q.module_ / cos q.helixAngle; rw [hm, hcq]
    · change 0 < p.module_ / cos p.helixAngle; positivity
    · change arctan (tan p.pressureAngle / cos p.helixAngle) = arctan (tan q.pressureAngle / cos q.helixAngle)
      rw [hα, hcq]
    · exact cos_arctan_pos _
  have Hg := (cylinder_helical (p := p) H.pos.1 hi hb).place c o θ
  have Hh := (cylinder_helical (p := q) H.pos.2 hi' hb).place C O A
  obtain ⟨C', A', e1, e2, e3⟩ := cyl_external solve Hg Hh H (fun z => by
    rw [helixTwist_ratio (ε := -1) H (by
      change tan p.helixAngle = -1 * tan q.helixAngle; rw [hβ, tan_neg]; ring) hmid]; ring) hO rfl tp tq hρ δ 0 0 a hbig
    F.is F.lo F.hi F.root
  refine ⟨C', A', ?_, e2, ?_⟩
  · refine meshToHelical_opposite e1 ?_ ?_
    · rw [Hg.helix, Hh.helix]; exact hβ
    · have hC : h.core.transform.center = C := rfl
      rw [e2, hC, sub_add_cancel_left, neg_ne_zero]
      intro h0
      have h3 := congrArg norm3 h0
      have hca : 0 < cos a := cos_pos' F.lo F.hi
      have hpos : 0 < P.module_ * cos P.pressureAngle * ((N1 + N2) / 2) := lt_of_lt_of_le (by norm_num) hbig
      rw [norm3_smul, app_polarVec_unit hO, mul_one, abs_of_pos (div_pos hpos hca)] at h3
      have : norm3 (0 : V3) = 0 := by simp [norm3]
      rw [this] at h3
      exact (div_pos hpos hca).ne' h3
  · intro z φ k
    obtain ⟨x, y⟩ := e3 z φ k
    rw [H.teeth'] at x y
    simp only [zero_div, zero_mul, zero_add] at x y
    exact ⟨x, y⟩

/-- **C124, pinion in a ring gear**: an `InvoluteGear` with outer teeth is meshed to one with inner teeth and the same helix
angle; both turn the same way. The hypotheses `hl`, `hl'`, `hd` are as in C84: the tooth halves have a positive width at the
base circle, and the pressure angle that belongs to no backlash is positive. -/
theorem c124_ring (solve : (ℝ → ℝ) → ℝ) (p q : GearInput) (N1 N2 : ℕ) (H : HelixPair p q N1 N2)
    (hc : p.coneAngle = 0) (hc' : q.coneAngle = 0) (hi : p.insideTeeth = false) (hi' : q.insideTeeth = true)
    (hβ : tan p.helixAngle = tan q.helixAngle) (c C : V3) (o O : M3) (hO : IsRot O) (θ A tp tq ρ δ b bias a : ℝ)
    (hρ : 0 < ρ) (hbig : 1 / 10 ^ 12 ≤ p.module_ * cos p.pressureAngle * (((N2 : ℝ) - N1) / 2)) :
    let g := (involuteGear p).place c o θ
    let h := (involuteGear q).place C O A
    (g.involuteObj tp).angleBase ≤ 0 → (h.involuteObj tq).angleBase ≤ 0 →
    (g.involuteObj tp).rBase * -(g.involuteObj tp).angleBase < (h.involuteObj tq).rBase * -(h.involuteObj tq).angleBase →
    Finds solve (g.residual tp h tq true b) a →
    ∃ C' A', g.meshToInvolute solve tp h tq (ρ • app O (polarVec δ)) b bias = some (g.place C' O A') ∧
      C' = C + (p.module_ * cos p.pressureAngle * (((N2 : ℝ) - N1) / 2) / cos a) • app O (polarVec δ) ∧
      SlicesMesh (g.place C' O A') h tp tq O q.module_ (q.module_ * cos q.pressureAngle * (q.numTeeth / 2))
        (fun φ => φ * N2 / N1) (δ - a) (δ + a)
        (fun z => b / 2 * (1 + bias) + crownRelief p z - crownRelief q z)
        (fun z => -(b / 2 * (1 - bias) + crownRelief p z - crownRelief q z)) := by
  intro g h hl hl' hd F
  have Hg := (cylinder_involute H.pos.1 hc).place c o θ
  have Hh := (cylinder_involute H.pos.2 hc').place C O A
  rw [hi] at Hg
  rw [hi'] at Hh
  exact cyl_ring solve Hg Hh H (fun z => by
    rw [helixTwist_ratio (ε := 1) H (by rw [hβ]; ring) (by simp)]; ring) hO rfl tp tq hρ δ b bias a hbig hl hl' hd F.is F.lo
    F.hi F.root

/-- **C124, ring gear around a pinion**: a `HelicalRingGear` is meshed to a `HelicalGear` with the same helix angle. -/
theorem c124_around (solve : (ℝ → ℝ) → ℝ) (p q : GearInput) (N1 N2 : ℕ) (hb : Bool)
    (h1 : p.numTeeth = N1) (h2 : q.numTeeth = N2) (hN1 : 0 < N1) (hN2 : 0 < N2) (hm : p.module_ = q.module_)
    (hm0 : 0 < p.module_) (hα : p.pressureAngle = q.pressureAngle) (hβ : p.helixAngle = q.helixAngle)
    (hcos : 0 < cos p.helixAngle) (hmid : hb = true → p.height = q.height ∧ p.zAnchor = q.zAnchor)
    (hi' : q.insideTeeth = false)
    (c C : V3) (o O : M3) (hO : IsRot O) (θ A tp tq ρ δ b bias a : ℝ) (hρ : 0 < ρ) :
    let P := p.transverse
    let Q := q.transverse
    let g := (helicalRingGear hb p).place c o θ
    let h := (helicalGear hb q).place C O A
    1 / 10 ^ 12 ≤ P.module_ * cos P.pressureAngle * (((N1 : ℝ) - N2) / 2) →
    (g.involuteObj tp).angleBase ≤ 0 → (h.involuteObj tq).angleBase ≤ 0 →
    (h.involuteObj tq).rBase * -(h.involuteObj tq).angleBase < (g.involuteObj tp).rBase * -(g.involuteObj tp).angleBase →
    Finds solve (g.residual tp h tq true b) a →
    ∃ C' A', g.meshToInvolute solve tp h tq (ρ • app O (polarVec δ)) b bias = some (g.place C' O A') ∧
      C' = C + (P.module_ * cos P.pressureAngle * (((N2 : ℝ) - N1) / 2) / cos a) • app O (polarVec δ) ∧
      SlicesMesh (g.place C' O A') h tp tq O Q.module_ (Q.module_ * cos Q.pressureAngle * (N2 / 2))
        (fun φ => φ * N2 / N1) (δ - a) (δ + a)
        (fun z => -(b / 2 * (1 - bias) + crownRelief Q z - crownRelief P z))
        (fun z => b / 2 * (1 + bias) + crownRelief Q z - crownRelief P z) := by
  intro P Q g h hbig hl hl' hd F
  have hcq : cos q.helixAngle = cos p.helixAngle := by rw [hβ]
  have H : HelixPair P Q N1 N2 := by
    refine ⟨h1, h2, hN1, hN2, ?_, ?_, ?_, ?_⟩
    · change p.module_ / cos p.helixAngle = q.module_ / cos q.helixAngle; rw [hm, hcq]
    · change 0 < p.module_ / cos p.helixAngle; positivity
    · change arctan (tan p.pressureAngle / cos p.helixAngle) = arctan (tan q.pressureAngle / cos q.helixAngle)
      rw [hα, hcq]
    · exact cos_arctan_pos _
  have Hg := (cylinder_helicalRing (p := p) H.pos.1 hb).place c o θ
  have Hh := (cylinder_helical (p := q) H.pos.2 hi' hb).place C O A
  obtain ⟨C', A', e1, e2, e3⟩ := cyl_around solve Hg Hh H (fun z => by
    rw [helixTwist_ratio (ε := 1) H (by
      change tan p.helixAngle = 1 * tan q.helixAngle; rw [hβ]; ring) hmid]; ring) hO rfl tp tq hρ δ b bias a hbig
    hl hl' hd F.is F.lo F.hi F.root
  refine ⟨C', A', e1, e2, ?_⟩
  intro z φ k
  obtain ⟨x, y⟩ := e3 z φ k
  rw [H.teeth'] at x y
  exact ⟨x, y⟩

/-- With the involute parameter that the root search is to find (`tan α` is one), the base angle `mesh_to` reads is that of a
tooth half plus the involute function of the pressure angle. -/
theorem Cylinder.angleBase {g : WGear} {p : GearInput} {s : ℝ → ℝ} {ring : Bool} (h : Cylinder g p s ring)
    (hn : 0 < p.numTeeth) (ha : 0 < p.pressureAngle) (ha' : p.pressureAngle < π / 2)
    (hinv : tan p.pressureAngle - p.pressureAngle ≤ π) :
    -(g.involuteObj (tan p.pressureAngle)).angleBase =
      p.crowningFunc 0 p.toothAngle + (tan p.pressureAngle - p.pressureAngle) := by
  obtain ⟨e1, e2⟩ := c24_crossing_exists (p.numTeeth / 2) p.pressureAngle (by positivity) ha ha'
  have := (c24_pitch_crossing (p.crowningFunc 0 p.toothAngle) (p.numTeeth / 2) p.pressureAngle (tan p.pressureAngle)
    (by positivity) ha ha' hinv e1 e2).1
  simp only [GearObj.angleBase, WGear.involuteObj, h.base, this, neg_neg]

/-- The hypotheses of `c124_ring` and `c124_around` about the teeth are met by an uncrowned pinion and a ring gear with more
teeth, without profile shift and backlash. -/
theorem c124_ring_case {g h : WGear} {p q : GearInput} {s s' : ℝ → ℝ} {r r' : Bool} (Hg : Cylinder g p s r)
    (Hh : Cylinder h q s' r') (N1 N2 : ℕ) (H : HelixPair p q N1 N2) (hlt : N1 < N2)
    (hx : p.profileShift = 0) (hx' : q.profileShift = 0)
    (hb : p.backlash = 0) (hb' : q.backlash = 0) (hk : p.crowning = 0) (hk' : q.crowning = 0)
    (ha : 0 < p.pressureAngle) (ha' : p.pressureAngle < π / 2) (hinv : tan p.pressureAngle - p.pressureAngle ≤ π) :
    let tp := tan p.pressureAngle
    let tq := tan q.pressureAngle
    (g.involuteObj tp).angleBase ≤ 0 ∧ (h.involuteObj tq).angleBase ≤ 0 ∧
    (g.involuteObj tp).rBase * -(g.involuteObj tp).angleBase < (h.involuteObj tq).rBase * -(h.involuteObj tq).angleBase ∧
    ∃ solve a, Finds solve (g.residual tp h tq true 0) a := by
  intro tp tq
  have h1 : (0 : ℝ) < N1 := by exact_mod_cast H.posN
  have h2 : (0 : ℝ) < N2 := by exact_mod_cast H.posN'
  have h12 : (N1 : ℝ) < N2 := by exact_mod_cast hlt
  have e1 := Hg.angleBase H.pos.1 ha ha' hinv
  have e2 := Hh.angleBase H.pos.2 (H.alpha ▸ ha) (H.alpha ▸ ha') (H.alpha ▸ hinv)
  have hlt' : 0 < tan p.pressureAngle - p.pressureAngle := by linarith [Real.lt_tan ha ha']
  obtain ⟨j, hj⟩ : ∃ j, j = tan p.pressureAngle - p.pressureAngle := ⟨_, rfl⟩
  rw [← hj] at hlt'
  have f1 : -(g.involuteObj tp).angleBase = π / 2 / N1 + j := by
    rw [e1, hj, GearInput.crowningFunc, GearInput.toothAngle, hx, hb, hk, H.teeth]; field_simp; ring
  have f2 : -(h.involuteObj tq).angleBase = π / 2 / N2 + j := by
    rw [e2, hj, GearInput.crowningFunc, GearInput.toothAngle, hx', hb', hk', H.teeth', H.alpha]; field_simp; ring
  have p1 : 0 < π / 2 / N1 := by positivity
  have p2 : 0 < π / 2 / N2 := by positivity
  refine ⟨by linarith, by linarith, ?_, solvable _ _ _ _ _ _ _⟩
  rw [f1, f2, Hg.rBase, Hh.rBase, ← H.mod, ← H.alpha, H.teeth, H.teeth']
  have hm : 0 < p.module_ * cos p.pressureAngle := mul_pos H.modPos H.cosPos
  have x1 : p.module_ * cos p.pressureAngle * (N1 / 2) * (π / 2 / N1 + j) =
      p.module_ * cos p.pressureAngle * (π / 4 + N1 * j / 2) := by field_simp; ring
  have x2 : p.module_ * cos p.pressureAngle * (N2 / 2) * (π / 2 / N2 + j) =
      p.module_ * cos p.pressureAngle * (π / 4 + N2 * j / 2) := by field_simp; ring
  rw [x1, x2]
  refine mul_lt_mul_of_pos_left ?_ hm
  have := mul_lt_mul_of_pos_right h12 hlt'
  linarith

/-- Concrete case of C124: gears with 24 teeth, module 2, helix angles ±30° and profile shift, both as `InvoluteGear`s and as
`HelicalGear`s. -/
example : ∃ (solve : (ℝ → ℝ) → ℝ) (a : ℝ),
    HelixPair exampleInput { exampleInput with helixAngle := -(π / 6) } 24 24 ∧
    exampleInput.coneAngle = 0 ∧ exampleInput.insideTeeth = false ∧
    tan exampleInput.helixAngle = -tan (-(π / 6)) ∧ 0 < cos exampleInput.helixAngle ∧ exampleInput.helixAngle = -(-(π / 6)) ∧
    Finds solve ((involuteGear exampleInput).residual 0
      (involuteGear { exampleInput with helixAngle := -(π / 6) }) 0 false (1 / 10)) a := by
  obtain ⟨solve, a, F⟩ := solvable _ _ _ _ _ false (1 / 10)
  refine ⟨solve, a, ?_, rfl, rfl, ?_, ?_, ?_, F⟩
  · exact ⟨by norm_num [exampleInput], by norm_num [exampleInput], by norm_num, by norm_num, rfl,
      by norm_num [exampleInput], rfl, cos_pos' (by change -(π / 2) < π / 9; linarith [pi_pos])
        (by change π / 9 < π / 2; linarith [pi_pos])⟩
  · rw [tan_neg, neg_neg]; rfl
  · exact cos_pos' (by change -(π / 2) < π / 6; linarith [pi_pos]) (by change π / 6 < π / 2; linarith [pi_pos])
  · rw [neg_neg]; rfl

/-! ## C125 -/

/-- **C125.** Seen from height 0, where `mesh_to` measures the teeth, a crowned tooth is thicker between 0 and the gear's height
and not thicker elsewhere. -/
theorem c125_relief_partial (p : GearInput) (hm : 0 < p.module_) (hα : 0 < cos p.pressureAngle) (hc : 0 < p.crowning)
    (hh : 0 < p.height) (z : ℝ) :
    (crownRelief p z < 0 ↔ 0 < z ∧ z < p.height) ∧ (crownRelief p z = 0 ↔ z = 0 ∨ z = p.height) := by
  have hk : 0 < p.module_ * cos p.pressureAngle * (p.crowning / 1000) := by positivity
  have e : (z * 2 / p.height - 1) ^ 2 - 1 = -(4 / p.height ^ 2 * (z * (p.height - z))) := by field_simp; ring
  have hq : 0 < 4 / p.height ^ 2 := by positivity
  rw [crownRelief, e]
  constructor
  · rw [mul_neg, neg_lt_zero, mul_pos_iff_of_pos_left hk, mul_pos_iff_of_pos_left hq]
    constructor
    · intro h
      rcases pos_and_pos_or_neg_and_neg_of_mul_pos h with h | h
      · exact ⟨h.1, by linarith [h.2]⟩
      · exfalso; linarith [h.1, h.2]
    · intro h; exact mul_pos h.1 (by linarith [h.2])
  · rw [mul_eq_zero, or_iff_right hk.ne', neg_eq_zero, mul_eq_zero, or_iff_right hq.ne', mul_eq_zero, sub_eq_zero]
    exact or_congr Iff.rfl eq_comm

/-- **C125, interference of crowned gears.** Two external gears, one or both crowned, are meshed without backlash. At every
height strictly between 0 and the gear's height, each tooth of `h` is too thick for the space between the teeth of the meshed
gear: its lower flank would have to be turned forward and its upper flank backward, by the same angle `ε`, to only touch. -/
theorem c125_overlap (solve : (ℝ → ℝ) → ℝ) (p q : GearInput) (N1 N2 : ℕ) (H : HelixPair p q N1 N2)
    (hc : p.coneAngle = 0) (hc' : q.coneAngle = 0) (hi : p.insideTeeth = false) (hi' : q.insideTeeth = false)
    (hβ : tan p.helixAngle = -tan q.helixAngle) (c C : V3) (o O : M3) (hO : IsRot O) (θ A tp tq ρ δ a : ℝ)
    (hρ : 0 < ρ) (hbig : 1 / 10 ^ 12 ≤ p.module_ * cos p.pressureAngle * ((N1 + N2) / 2))
    (hcp : 0 < p.crowning) (hcq : 0 ≤ q.crowning) (hhp : 0 < p.height) (hhq : 0 < q.height) :
    let g := (involuteGear p).place c o θ
    let h := (involuteGear q).place C O A
    Finds solve (g.residual tp h tq false 0) a →
    ∃ g', g.meshToInvolute solve tp h tq (ρ • app O (polarVec δ)) 0 0 = some g' ∧
      ∀ z, 0 < z → z < p.height → z < q.height → ∃ ε, 0 < ε ∧ ∀ (φ : ℝ) (k : ℤ),
        (∃ (k1 : ℤ) (t1 t2 : ℝ), g'.involuteFlank tp false z (-(φ * N2 / N1)) k1 t1 = h.involuteFlank tq false z (φ + ε) k t2 ∧
          NormalAt (g'.involuteFlank tp false z (-(φ * N2 / N1)) k1) t1 (app O (polarVec (δ + a + π / 2))) ∧
          NormalAt (h.involuteFlank tq false z (φ + ε) k) t2 (app O (polarVec (δ + a + π / 2)))) ∧
        (∃ (k1 : ℤ) (t1 t2 : ℝ), g'.involuteFlank tp true z (-(φ * N2 / N1)) k1 t1 = h.involuteFlank tq true z (φ - ε) k t2 ∧
          NormalAt (g'.involuteFlank tp true z (-(φ * N2 / N1)) k1) t1 (app O (polarVec (δ - a + π / 2))) ∧
          NormalAt (h.involuteFlank tq true z (φ - ε) k) t2 (app O (polarVec (δ - a + π / 2)))) := by
  intro g h F
  obtain ⟨C', A', e1, -, e3⟩ := c124_external solve p q N1 N2 H hc hc' hi hi' hβ c C o O hO θ A tp tq ρ δ 0 0 a hρ hbig F
  refine ⟨_, e1, fun z h0 h1 h2 => ?_⟩
  obtain ⟨R, hR⟩ : ∃ R, R = crownRelief p z + crownRelief q z := ⟨_, rfl⟩
  have hRneg : R < 0 := by
    have x := ((c125_relief_partial p H.modPos H.cosPos hcp hhp z).1).2 ⟨h0, h1⟩
    have y : crownRelief q z ≤ 0 := by
      rcases hcq.eq_or_lt with e | e
      · rw [crownRelief, ← e]; simp
      · exact (((c125_relief_partial q (H.mod ▸ H.modPos) (H.alpha ▸ H.cosPos) e hhq z).1).2 ⟨h0, h2⟩).le
    linarith
  obtain ⟨r, hr⟩ : ∃ r, r = q.module_ * cos q.pressureAngle * (q.numTeeth / 2) := ⟨_, rfl⟩
  have hrpos : 0 < r := by
    have := H.modPos; have := H.cosPos; have := H.pos.2
    rw [hr, ← H.mod, ← H.alpha]; positivity
  refine ⟨-R / r, div_pos (by linarith) hrpos, fun φ k => ?_⟩
  obtain ⟨⟨k1, x⟩, ⟨k1', y⟩⟩ := e3 z φ k
  rw [← hr] at x y
  obtain ⟨t1, t2, x1, x2, x3⟩ := x.touch hrpos.ne'
  obtain ⟨u1, u2, y1, y2, y3⟩ := y.touch hrpos.ne'
  have ex : -(0 / 2 * (1 + 0) + crownRelief p z + crownRelief q z) = -R := by rw [hR]; ring
  have ey : 0 / 2 * (1 - 0) + crownRelief p z + crownRelief q z = -(-R) := by rw [hR]; ring
  beta_reduce at x1 x2 x3 y1 y2 y3
  rw [ex] at x1 x3
  rw [ey, neg_div, ← sub_eq_add_neg] at y1 y3
  exact ⟨⟨k1, t1, t2, x1, x2, x3⟩, ⟨k1', u1, u2, y1, y2, y3⟩⟩

/-- **C125 is violated**: two equal gears with module 2, 24 teeth, height 10 and crowning 50 (0.05 modules), meshed without
backlash. All slices from the first one (excluded) to the last one, at height 5 in units of the module, overlap. -/
theorem c125_overlap_violated : ∃ (solve : (ℝ → ℝ) → ℝ) (p q : GearInput) (g' : WGear) (tp tq : ℝ),
    0 < p.crowning ∧ 0 < q.crowning ∧ p.zVals = [0, 5] ∧ q.zVals = [0, 5] ∧
    (involuteGear p).meshToInvolute solve tp (involuteGear q) tq ![1, 0, 0] 0 0 = some g' ∧
    ∀ z ∈ Set.Ioc (0 : ℝ) 5, ∃ ε, 0 < ε ∧ ∀ (φ : ℝ) (k : ℤ),
      (∃ (k1 : ℤ) (t1 t2 : ℝ), g'.involuteFlank tp false z (-φ) k1 t1 =
        (involuteGear q).involuteFlank tq false z (φ + ε) k t2) ∧
      (∃ (k1 : ℤ) (t1 t2 : ℝ), g'.involuteFlank tp true z (-φ) k1 t1 =
        (involuteGear q).involuteFlank tq true z (φ - ε) k t2) := by
  obtain ⟨p, hp⟩ : ∃ p : GearInput, p = { exampleInput with helixAngle := 0, crowning := 50 } := ⟨_, rfl⟩
  have hpos : 0 < cos (π / 9) := cos_pos' (by linarith [pi_pos]) (by linarith [pi_pos])
  have H : HelixPair p p 24 24 := by
    rw [hp]
    exact ⟨by norm_num [exampleInput], by norm_num [exampleInput], by norm_num, by norm_num, rfl,
      by norm_num [exampleInput], rfl, hpos⟩
  obtain ⟨solve, a, F⟩ := solvable ((involuteGear p).involuteObj 0).rBase ((involuteGear p).involuteObj 0).rBase
    (-((involuteGear p).involuteObj 0).angleBase) (-((involuteGear p).involuteObj 0).angleBase)
    ((involuteGear p).involuteObj 0).pitchAngle false 0
  have hcos : 1 / 2 ≤ cos (π / 9) := by
    rw [← cos_pi_div_three]
    exact cos_le_cos_of_nonneg_of_le_pi (by linarith [pi_pos]) (by linarith [pi_pos]) (by linarith [pi_pos])
  have hplace : (involuteGear p).place ORIGIN 1 0 = involuteGear p := by
    rw [hp, involuteGear_pos (by norm_num [exampleInput])]; rfl
  have T := c125_overlap solve p p 24 24 H (by rw [hp]; rfl) (by rw [hp]; rfl) (by rw [hp]; rfl) (by rw [hp]; rfl)
    (by rw [hp]; simp) ORIGIN ORIGIN 1 1 IsRot.one 0 0 0 0 1 0 a one_pos
    (by
      have : p.module_ * cos p.pressureAngle = 2 * cos (π / 9) := by rw [hp]; rfl
      rw [this]; push_cast; norm_num; linarith)
    (by rw [hp]; norm_num) (by rw [hp]; norm_num) (by rw [hp]; norm_num [exampleInput]) (by rw [hp]; norm_num [exampleInput])
  simp only [hplace] at T
  obtain ⟨g', e1, e2⟩ := T F
  refine ⟨solve, p, p, g', 0, 0, by rw [hp]; norm_num, by rw [hp]; norm_num, ?_, ?_, ?_, ?_⟩
  · rw [hp]; simp [GearInput.zVals, exampleInput]; norm_num
  · rw [hp]; simp [GearInput.zVals, exampleInput]; norm_num
  · rw [← e1]
    congr 1
    rw [app_one, one_smul]
    apply V3.ext3 <;> simp [polarVec]
  · intro z hz
    have hh : p.height = 10 := by rw [hp]; rfl
    obtain ⟨ε, hε, h⟩ := e2 z hz.1 (by rw [hh]; linarith [hz.2]) (by rw [hh]; linarith [hz.2])
    refine ⟨ε, hε, fun φ k => ?_⟩
    obtain ⟨⟨k1, t1, t2, x, -⟩, ⟨k2, u1, u2, y, -⟩⟩ := h φ k
    have e : φ * (24 : ℕ) / (24 : ℕ) = φ := by push_cast; field_simp
    rw [e] at x y
    exact ⟨⟨k1, t1, t2, x⟩, ⟨k2, u1, u2, y⟩⟩

/-! ## C29 -/

/-- **C29, pinion and ring, sign of the distance**: the gear with the smaller base circle is placed in the target direction, the one with the
larger base circle on the opposite side. -/
theorem c29_side_partial (solve : (ℝ → ℝ) → ℝ) (g h : GearObj) (dir : V3) (b bias : ℝ) (hk : g.kind = .involute)
    (hk' : h.kind ≠ .cycloid) (hc : g.coneAngle = 0) (hc' : h.coneAngle = 0) (hr : (g.insideTeeth || h.insideTeeth) = true)
    (hdir : dir ≠ 0)
    (hsol : solve (meshResidual g.rBase h.rBase (-g.angleBase) (-h.angleBase) h.pitchAngle true b)
      ∈ Set.Ioo (-(π / 2)) (π / 2)) :
    ∃ (g' : GearObj) (s : ℝ), g.meshTo solve h dir b bias = some g' ∧ g'.transform.center = h.transform.center + s • dir ∧
      (g.rBase < h.rBase → 0 < s) ∧ (h.rBase < g.rBase → s < 0) := by
  simp only [GearObj.meshTo, hk, GearObj.meshToInvolute, normalizeVector_eq hdir, hc, hc', ne_eq, not_true_eq_false, or_self,
    if_false, hk']
  have hD : g.meshDistance solve h b = (h.rBase - g.rBase) / cos (solve (meshResidual g.rBase h.rBase (-g.angleBase)
      (-h.angleBase) h.pitchAngle true b)) := by
    rw [GearObj.meshDistance, hr, calcInvoluteMeshDistance]
    simp only [if_true]
  have hcos := cos_pos' hsol.1 hsol.2
  have hn := inv_pos.2 (norm3_pos hdir)
  refine ⟨_, g.meshDistance solve h b * (norm3 dir)⁻¹, rfl, ?_, ?_, ?_⟩
  · simp only [GearObj.meshToAt, smul_smul]; abel
  · intro hlt; rw [hD]; exact mul_pos (div_pos (by linarith) hcos) hn
  · intro hlt; rw [hD]; exact mul_neg_of_neg_of_pos (div_neg_of_neg_of_pos (by linarith) hcos) hn

/-- Concrete case: a ring with 8 teeth and base radius 2 around a pinion with 4 teeth and base radius 1. -/
example : ∃ (solve : (ℝ → ℝ) → ℝ) (a : ℝ),
    Finds solve (meshResidual (sampleGear .involute 8 2 0 true).rBase (sampleGear .involute 4 1 0 false).rBase
      (-(sampleGear .involute 8 2 0 true).angleBase) (-(sampleGear .involute 4 1 0 false).angleBase)
      (sampleGear .involute 4 1 0 false).pitchAngle true 0) a ∧
    (sampleGear .involute 4 1 0 false).rBase < (sampleGear .involute 8 2 0 true).rBase := by
  obtain ⟨solve, a, F⟩ := solvable (sampleGear .involute 8 2 0 true).rBase (sampleGear .involute 4 1 0 false).rBase
    (-(sampleGear .involute 8 2 0 true).angleBase) (-(sampleGear .involute 4 1 0 false).angleBase)
    (sampleGear .involute 4 1 0 false).pitchAngle true 0
  exact ⟨solve, a, F, by norm_num [sampleGear, GearObj.rBase]⟩

end Verif
