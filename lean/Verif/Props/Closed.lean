import Verif.Props.Path

/-! # Property C58: closed outlines of one tooth -/

namespace Verif

open Real Set

/-- Two points in one half plane through the axis, at radii `a`, `b` and heights `za`, `zb`, can be joined:
they differ (cylindrical gears), or they have the same distance from the apex at height `zc` and do not lie
on one line with it (conical gears). -/
def JoinOk (coneAngle zc a za b zb : ℝ) : Prop :=
  if coneAngle = 0 then a ≠ b ∨ za ≠ zb
  else a ^ 2 + (za - zc) ^ 2 = b ^ 2 + (zb - zc) ^ 2 ∧ a * (zb - zc) ≠ b * (za - zc)

theorem JoinOk.symm {coneAngle zc a za b zb : ℝ} (h : JoinOk coneAngle zc a za b zb) :
    JoinOk coneAngle zc b zb a za := by
  unfold JoinOk at h ⊢
  split_ifs at h ⊢
  · exact h.imp Ne.symm Ne.symm
  · exact ⟨h.1.symm, h.2.symm⟩

theorem cyl_inj_radius {a b γ za zb : ℝ} (h : cyl a γ za = cyl b γ zb) : a = b ∧ za = zb := by
  have h0 := congrFun h 0
  have h1 := congrFun h 1
  have h2 := congrFun h 2
  simp only [cyl, Matrix.cons_val_zero, Matrix.cons_val_one, Matrix.cons_val] at h0 h1 h2
  refine ⟨?_, h2⟩
  have := sin_sq_add_cos_sq γ
  linear_combination cos γ * h0 + sin γ * h1 + (b - a) * this

theorem JoinOk.ne {coneAngle zc a za b zb : ℝ} (h : JoinOk coneAngle zc a za b zb) (γ : ℝ) :
    cyl a γ za ≠ cyl b γ zb := by
  intro e
  obtain ⟨rfl, rfl⟩ := cyl_inj_radius e
  unfold JoinOk at h
  split_ifs at h
  · simp at h
  · exact h.2 rfl

theorem connector_plain {asEuler : M3 → ℝ × ℝ × ℝ} (hE : EulerOk asEuler) {coneAngle zc a za b zb : ℝ}
    (h : JoinOk coneAngle zc a za b zb) (γ : ℝ) :
    ∃ c, connector asEuler coneAngle ![0, 0, zc] (cyl a γ za) (cyl b γ zb) = some c ∧
      Plain c (cyl a γ za) (cyl b γ zb) := by
  have hne := h.ne γ
  unfold JoinOk at h
  unfold connector
  split_ifs at h ⊢
  · exact ⟨_, rfl, line_plain hne⟩
  · obtain ⟨h1, h2⟩ := h
    have hs : ∀ r z, cyl r γ z - ![0, 0, zc] = cyl r γ (z - zc) := by
      intro r z; apply V3.ext3 <;> simp [cyl]
    obtain ⟨c, hc, hp, -⟩ := arc2_plain hE (cyl a γ za) (cyl b γ zb) ![0, 0, zc] (by
      rw [hs, hs]
      refine norm3_eq_of_dot (norm3_nonneg _) ?_
      rw [norm3_sq]
      simp only [dot, cyl, Matrix.cons_val_zero, Matrix.cons_val_one, Matrix.cons_val]
      linear_combination (a ^ 2 - b ^ 2) * sin_sq_add_cos_sq γ + h1) (by
      rw [hs, hs]
      intro e
      have e0 := congrFun e 0
      have e1 := congrFun e 1
      simp only [cross, cyl, Matrix.cons_val_zero, Matrix.cons_val_one, Pi.zero_apply, Matrix.cons_val] at e0 e1
      apply h2
      linear_combination sin γ * e0 - cos γ * e1 - (a * (zb - zc) - b * (za - zc)) * sin_sq_add_cos_sq γ)
    exact ⟨c, hc, hp⟩

/-- A trimmed tooth together with what the outlines need: root point at radius `r`, angle `θ`, height `z0`,
tip point at radius `ρ`, angle `φ`, height `z1`, ring of radius `rO` at height `zO`, addendum radius `rA`,
cone apex at height `zc`. -/
structure OutlineOk {α : Type} (o : CurveOps α) (tooth : α) (T : ℝ → V3) (pitch r θ z0 ρ φ z1 rA rO zO
    coneAngle zc : ℝ) : Prop where
  tooth : ToothOk o tooth T pitch r θ
  gaps : ExactGaps T pitch
  rootAngle : -(π / 2) < θ
  root : T 0 = cyl r θ z0
  tip : T 1 = cyl ρ φ z1
  apart : T 0 ≠ T 1
  tipPos : 0 < ρ
  tipGt : -(pitch / 2) < φ
  tipLe : φ ≤ 0
  tipLt : pitch + 2 * φ < π
  addPos : 0 < rA
  ringPos : 0 < rO
  joinRing : JoinOk coneAngle zc rO zO r z0
  joinMid : JoinOk coneAngle zc r z0 (if φ = 0 then rA else ρ) z1

section
variable {α : Type} {o : CurveOps α} {asEuler : M3 → ℝ × ℝ × ℝ} {tooth : α} {T : ℝ → V3}
  {pitch r θ z0 ρ φ z1 rA rD rO zO coneAngle zc : ℝ}

theorem midOnAxis_cyl (a b γ δ z : ℝ) : midOnAxis (cyl a γ z) (cyl b δ z) = ![0, 0, z] := by
  rw [midOnAxis_eq (by simp [cyl])]; simp [cyl]

/-- The arc of angle 0 that stands for a missing arc. -/
theorem inactiveArc (R z γ : ℝ) {ρ : ℝ} (hρ : 0 < ρ) (h1 : -π < γ) (h2 : γ ≤ π) :
    (arcInit R 0 ![0, 0, z] (arctan2 (cyl ρ γ z 1) (cyl ρ γ z 0)) 0 0 false).active = false ∧
      (arcInit R 0 ![0, 0, z] (arctan2 (cyl ρ γ z 1) (cyl ρ γ z 0)) 0 0 false).arcCenter = some ![0, 0, z] ∧
      ∀ s, 0 ≤ s → s ≤ 1 → (arcInit R 0 ![0, 0, z] (arctan2 (cyl ρ γ z 1) (cyl ρ γ z 0)) 0 0 false).eval s =
        some (cyl R γ z) := by
  have hz : eulerZYX γ 0 0 = Rz γ := by
    have hx : Rx 0 = 1 := by ext i j; fin_cases i <;> fin_cases j <;> simp [Rx]
    have hy : Ry 0 = 1 := by ext i j; fin_cases i <;> fin_cases j <;> simp [Ry]
    rw [eulerZYX, hx, hy, one_mul, one_mul]
  have ha : arctan2 (cyl ρ γ z 1) (cyl ρ γ z 0) = γ := arctan2_polar hρ h1 h2
  rw [ha, arcInit, Curve.make]
  simp only [Bool.false_eq_true, if_false, Curve.arcCenter, true_and]
  intro s h0 h1
  rw [Curve.eval, Curve.s2t, if_neg (not_lt.2 h0), if_neg (not_lt.2 h1)]
  simp only [CurveKind.fn, Option.map_some, hz, zero_mul]
  rw [Rz_zero, mul_one, Rz_app]
  congr 1
  apply V3.ext3 <;> simp [RIGHT, cyl, Matrix.cons_val] <;> ring

/-- The tip arc. -/
theorem tipArc (hE : EulerOk asEuler) (h : OutlineOk o tooth T pitch r θ z0 ρ φ z1 rA rO zO coneAngle zc)
    {ra : Curve} (hra : closingArc asEuler (T 1) (flipY (T 1)) (T 1) rA = some ra) :
    ra.eval 0 = some (cyl (if φ = 0 then rA else ρ) φ z1) ∧
      ra.eval (1 / 2) = some (cyl (if φ = 0 then rA else ρ) 0 z1) ∧
      ra.eval 1 = some (cyl (if φ = 0 then rA else ρ) (-φ) z1) ∧ ra.arcCenter = some ![0, 0, z1] ∧
      ((Plain ra (T 1) (flipY (T 1)) ∧ φ ≠ 0) ∨ (ra.active = false ∧ φ = 0 ∧ T 1 = flipY (T 1))) := by
  have hpi := pi_pos
  have hp := h.tooth.pitchLe
  have hg := h.tipGt
  rw [h.tip, flipY_cyl, closingArc] at hra
  rw [midOnAxis_cyl] at hra
  have hzero : cyl ρ φ z1 = cyl ρ (-φ) z1 → φ = 0 := by
    intro e
    have e1 := congrFun e 1
    simp only [cyl, Matrix.cons_val_one, Matrix.cons_val_zero, sin_neg] at e1
    have : ρ * sin φ = 0 := by linarith
    rcases mul_eq_zero.1 this with h1 | h1
    · exact absurd h1 h.tipPos.ne'
    · exact (sin_eq_zero_iff_of_lt_of_lt (by linarith) (by linarith [h.tipLe])).1 h1
  split_ifs at hra with hgap
  · have hne : φ ≠ 0 := by
      intro e
      rw [e, neg_zero, sub_self, norm3_eq_zero.2 rfl] at hgap
      norm_num at hgap
    have hlt : φ < 0 := lt_of_le_of_ne h.tipLe hne
    obtain ⟨c, hc, hpl, hcen, hev⟩ := planar_arc hE ρ z1 φ (-φ) h.tipPos (by linarith) (by linarith)
    rw [hc] at hra
    obtain rfl := Option.some.inj hra
    simp only [if_neg hne]
    refine ⟨hpl.start, ?_, hpl.stop, hcen, Or.inl ⟨by rw [h.tip, flipY_cyl]; exact hpl, hne⟩⟩
    rw [hev]; congr 2; ring
  · have hφ : φ = 0 := by
      rcases h.gaps.2 with h1 | h1
      · rw [h.tip, flipY_cyl] at h1; exact absurd h1 hgap
      · rw [h.tip, flipY_cyl] at h1; exact hzero h1
    obtain rfl := Option.some.inj hra
    obtain ⟨i1, i2, i3⟩ := inactiveArc rA z1 φ h.tipPos (by linarith) (by linarith)
    simp only [if_pos hφ]
    refine ⟨i3 0 (le_refl _) zero_le_one, ?_, ?_, i2, Or.inr ⟨i1, hφ, ?_⟩⟩
    · rw [i3 (1 / 2) (by norm_num) (by norm_num), hφ]
    · rw [i3 1 zero_le_one (le_refl _), hφ, neg_zero]
    · rw [h.tip, flipY_cyl, hφ, neg_zero]

/-- The root arc. -/
theorem rootArc (hE : EulerOk asEuler) (h : OutlineOk o tooth T pitch r θ z0 ρ φ z1 rA rO zO coneAngle zc)
    {rd : Curve} (hrd : closingArc asEuler (rootStart T pitch) (T 0) (T 0) rD = some rd) :
    rd.arcCenter = some ![0, 0, z0] ∧
      (Plain rd (rootStart T pitch) (T 0) ∨ (rd.active = false ∧ rootStart T pitch = T 0)) := by
  have hpi := pi_pos
  have hrs : rootStart T pitch = cyl r (-θ - pitch) z0 := by
    rw [rootStart_polar h.tooth, h.root]; simp [cyl]
  rw [hrs, h.root, closingArc, midOnAxis_cyl] at hrd
  rw [hrs]
  have hge := h.tooth.angleGe
  split_ifs at hrd with hgap
  · have hne : -(pitch / 2) ≠ θ := by
      intro e
      rw [show -θ - pitch = θ by rw [← e]; ring, sub_self, norm3_eq_zero.2 rfl] at hgap
      norm_num at hgap
    have hlt : -(pitch / 2) < θ := lt_of_le_of_ne hge hne
    obtain ⟨c, hc, hpl, hcen, hev⟩ := planar_arc hE r z0 (-θ - pitch) θ h.tooth.rootPos (by linarith)
      (by linarith [h.tooth.angleLt, h.tooth.pitchLe])
    rw [hc] at hrd
    obtain rfl := Option.some.inj hrd
    exact ⟨hcen, Or.inl (by rw [h.root]; exact hpl)⟩
  · obtain rfl := Option.some.inj hrd
    obtain ⟨i1, i2, -⟩ := inactiveArc rD z0 θ h.tooth.rootPos (by linarith [h.rootAngle])
      (by linarith [h.tooth.angleLt])
    refine ⟨i2, Or.inr ⟨i1, ?_⟩⟩
    rcases h.gaps.1 with h1 | h1
    · rw [hrs, h.root] at h1; exact absurd h1 hgap
    · rw [← hrs, h1]

/-- All that the outlines are made of. -/
structure Parts (o : CurveOps α) (asEuler : M3 → ℝ × ℝ × ℝ) (tooth : α) (T : ℝ → V3)
    (pitch r θ z0 ρ φ z1 rA rD rO zO coneAngle zc sMid : ℝ) (P : RefProfile α) (E : ExtProfile α) : Prop where
  made : closeProfile o asEuler tooth rA rD rO ![0, 0, zO] pitch = some P
  ext : profileExtensions o asEuler P coneAngle ![0, 0, zc] sMid = some E
  base : E.base = P
  tooth_eq : P.tooth = tooth
  pitch_eq : P.pitchAngle = pitch
  chain_eq : P.chain o = [.inr P.rd, .inl tooth, .inr P.ra, .inr P.mirror]
  toothSeg : Seg o tooth (T 0) (T 1)
  mirrorSeg : Seg curveOps P.mirror (flipY (T 1)) (flipY (T 0))
  ra : Plain P.ra (T 1) (flipY (T 1)) ∨ (P.ra.active = false ∧ T 1 = flipY (T 1))
  rd : Plain P.rd (rootStart T pitch) (T 0) ∨ (P.rd.active = false ∧ rootStart T pitch = T 0)
  ro : Plain P.ro (cyl rO (-θ - pitch) zO) (cyl rO (-θ) zO)
  roKind : ∃ M, P.ro.kind = .arc rO pitch ![0, 0, zO] M
  conn0 : Plain E.roConnector0 (cyl rO (-θ - pitch) zO) (rootStart T pitch)
  conn1 : Plain E.roConnector1 (cyl rO θ zO) (T 0)
  conn2 : Plain E.roConnector2 (cyl rO (-θ) zO) (flipY (T 0))
  rdConn : Plain E.rdConnector (T 0) (flipY (T 0))
  raConn : Plain E.raConnector (cyl (if φ = 0 then rA else ρ) (-φ - pitch) z1)
    (cyl (if φ = 0 then rA else ρ) φ z1)
  roTooth : P.ro.setStartOn sMid = some E.roTooth

theorem profile_path {P : RefProfile α} (ht : Seg o tooth (T 0) (T 1))
    (hm : Seg curveOps P.mirror (flipY (T 1)) (flipY (T 0)))
    (hra : Plain P.ra (T 1) (flipY (T 1)) ∨ (P.ra.active = false ∧ T 1 = flipY (T 1)))
    (hrd : Plain P.rd (rootStart T pitch) (T 0) ∨ (P.rd.active = false ∧ rootStart T pitch = T 0)) :
    Path (sumOps o curveOps) [.inr P.rd, .inl tooth, .inr P.ra, .inr P.mirror] (rootStart T pitch)
      (flipY (T 0)) := by
  have h3 : Path (sumOps o curveOps) [.inr P.ra, .inr P.mirror] (T 1) (flipY (T 0)) := by
    have h4 : Path (sumOps o curveOps) [.inr P.mirror] (flipY (T 1)) (flipY (T 0)) := .cons hm.inr (.nil _)
    rcases hra with h | ⟨h, e⟩
    · exact .cons h.seg.inr h4
    · exact .skip h (by rw [e]; exact h4)
  have h2 : Path (sumOps o curveOps) [.inl tooth, .inr P.ra, .inr P.mirror] (T 0) (flipY (T 0)) :=
    .cons ht.inl h3
  rcases hrd with h | ⟨h, e⟩
  · exact .cons h.seg.inr h2
  · exact .skip h (by rw [e]; exact h2)

theorem parts_exist (hE : EulerOk asEuler)
    (h : OutlineOk o tooth T pitch r θ z0 ρ φ z1 rA rO zO coneAngle zc) (rD sMid : ℝ)
    (hs : pitch * sMid = 2 * θ + pitch) :
    ∃ P E, Parts o asEuler tooth T pitch r θ z0 ρ φ z1 rA rD rO zO coneAngle zc sMid P E := by
  have hpi := pi_pos
  obtain ⟨P, hP, f, q0, q1, hq0, hq1, hro, hra, hrd⟩ := close_facts hE h.tooth rA rD rO ![0, 0, zO]
  obtain ⟨P', hP', -, hring⟩ := c55_ring hE h.tooth h.gaps rA rD rO ![0, 0, zO]
  rw [hP] at hP'
  obtain rfl := Option.some.inj hP'
  obtain ⟨P', a, b, hP', -, ha, hb, -⟩ := c55_profile hE h.tooth h.gaps rA rD rO ![0, 0, zO]
  rw [hP] at hP'
  obtain rfl := Option.some.inj hP'
  obtain ⟨t1, t2, t3, t4, t5⟩ := tipArc hE h hra
  obtain ⟨d1, d2⟩ := rootArc hE h hrd
  have hrs : rootStart T pitch = cyl r (-θ - pitch) z0 := by
    rw [rootStart_polar h.tooth, h.root]; simp [cyl]
  have hft : flipY (T 0) = cyl r (-θ) z0 := by rw [h.root, flipY_cyl]
  have hring' : ∀ s, P.ro.eval s = some (cyl rO (-θ - pitch + pitch * s) zO) := by
    intro s; rw [hring s]; congr 1; apply V3.ext3 <;> simp [cyl]
  have hseg : Seg o tooth (T 0) (T 1) := ⟨h.tooth.active, h.tooth.fix, h.tooth.len,
    ⟨T, h.tooth.cont, h.tooth.eval⟩, h.tooth.eval 0 (le_refl _) zero_le_one,
    h.tooth.eval 1 zero_le_one (le_refl _)⟩
  have hmir : Seg curveOps P.mirror (flipY (T 1)) (flipY (T 0)) :=
    ⟨f.mirrorActive, f.mirrorFix, f.mirrorLen, f.mirrorCont, f.mirror0, f.mirror1⟩
  have hra' : Plain P.ra (T 1) (flipY (T 1)) ∨ (P.ra.active = false ∧ T 1 = flipY (T 1)) := by
    rcases t5 with ⟨t5, -⟩ | ⟨t5, -, t6⟩
    · exact Or.inl t5
    · exact Or.inr ⟨t5, t6⟩
  have hpath := profile_path hseg hmir hra' d2
  obtain ⟨-, e0, e1⟩ := hpath.chain ⟨.inl tooth, by simp, h.tooth.active⟩
  rw [← f.chain_eq] at e0 e1
  obtain ⟨rdc, hrdc, rdp, -, rdev⟩ := planar_arc hE r z0 θ (-θ) h.tooth.rootPos
    (by linarith [h.tooth.angleLt]) (by linarith [h.rootAngle])
  have hρ' : 0 < (if φ = 0 then rA else ρ) := by
    split_ifs
    · exact h.addPos
    · exact h.tipPos
  obtain ⟨rac, hrac, rap, -, -⟩ := planar_arc hE (if φ = 0 then rA else ρ) z1 (-φ - pitch) φ hρ'
    (by linarith [h.tipGt]) (by linarith [h.tipLt])
  obtain ⟨c0, hc0, p0⟩ := connector_plain hE h.joinRing (-θ - pitch)
  obtain ⟨c1, hc1, p1⟩ := connector_plain hE h.joinRing θ
  obtain ⟨c2, hc2, p2⟩ := connector_plain hE h.joinRing (-θ)
  obtain ⟨cm, hcm, -⟩ := connector_plain hE h.joinMid 0
  have hs2t : ∃ t, P.ro.s2t sMid = some t := by
    have := hring' sMid
    rw [Curve.eval] at this
    cases hx : P.ro.s2t sMid with
    | none => rw [hx] at this; cases this
    | some t => exact ⟨t, rfl⟩
  obtain ⟨tm, htm⟩ := hs2t
  have hrod : ∃ c, P.ro.setEndOn sMid = some c := by rw [Curve.setEndOn, htm]; exact ⟨_, rfl⟩
  have hrot : ∃ c, P.ro.setStartOn sMid = some c := by rw [Curve.setStartOn, htm]; exact ⟨_, rfl⟩
  obtain ⟨rod, hrod⟩ := hrod
  obtain ⟨rot, hrot⟩ := hrot
  refine ⟨P, ⟨P, c0, c1, c2, rdc, rac, rot, rod, cm⟩, hP, ?_, rfl, f.tooth_eq, f.pitch_eq, f.chain_eq,
    hseg, hmir, hra', d2, ?_, ?_, ?_, ?_, ?_, ?_, rap, hrot⟩
  · have er : app (Rz (-P.pitchAngle)) (cyl (if φ = 0 then rA else ρ) (-φ) z1) =
        cyl (if φ = 0 then rA else ρ) (-φ - pitch) z1 := by
      rw [cyl_rot, f.pitch_eq, sub_eq_add_neg]
    have em : rdc.eval (1 / 2) = some (cyl r 0 z0) := by rw [rdev]; congr 2; ring
    have eh : P.ro.eval sMid = some (cyl rO θ zO) := by rw [hring', hs]; congr 2; ring
    have ez : P.ro.eval 0 = some (cyl rO (-θ - pitch) zO) := by rw [hring']; congr 2; ring
    have eo : P.ro.eval 1 = some (cyl rO (-θ) zO) := by rw [hring']; congr 2; ring
    simp only [profileExtensions, eh, hrot, hrod, f.tooth_eq, h.tooth.eval 0 (le_refl _) zero_le_one, f.mirror1,
      d1, h.root, flipY_cyl, hrdc, t1, t2, t3, t4, er, hrac, ez, eo, e0, hrs, hc0, hc1, hc2, em, hcm,
      Option.bind_eq_bind, Option.bind_some]
  · have ez : P.ro.eval 0 = some (cyl rO (-θ - pitch) zO) := by rw [hring']; congr 2; ring
    have eo : P.ro.eval 1 = some (cyl rO (-θ) zO) := by rw [hring']; congr 2; ring
    rw [e0] at hq0
    rw [e1] at hq1
    cases hq0
    cases hq1
    rw [hro] at ez eo ⊢
    refine arcInit_plain ?_ ez eo
    rw [hrs, hft]
    rw [show arctan2 (cyl r (-θ) z0 1) (cyl r (-θ) z0 0) = -θ from arctan2_polar h.tooth.rootPos
        (by linarith [h.tooth.angleLt]) (by linarith [h.rootAngle]),
      show arctan2 (cyl r (-θ - pitch) z0 1) (cyl r (-θ - pitch) z0 0) = -θ - pitch from
        arctan2_polar h.tooth.rootPos (by linarith [h.tooth.angleLt, h.tooth.pitchLe])
        (by linarith [h.rootAngle, h.tooth.pitchPos])]
    have := mul_pos h.ringPos h.tooth.pitchPos
    linarith
  · rw [e0] at hq0
    rw [e1] at hq1
    cases hq0
    cases hq1
    rw [hro, arcInit, made_kind, hrs, hft]
    rw [show arctan2 (cyl r (-θ) z0 1) (cyl r (-θ) z0 0) = -θ from arctan2_polar h.tooth.rootPos
        (by linarith [h.tooth.angleLt]) (by linarith [h.rootAngle]),
      show arctan2 (cyl r (-θ - pitch) z0 1) (cyl r (-θ - pitch) z0 0) = -θ - pitch from
        arctan2_polar h.tooth.rootPos (by linarith [h.tooth.angleLt, h.tooth.pitchLe])
        (by linarith [h.rootAngle, h.tooth.pitchPos])]
    exact ⟨_, by rw [show -θ - (-θ - pitch) = pitch by ring]⟩
  · rw [hrs]; exact p0
  · rw [h.root]; exact p1
  · rw [hft]; exact p2
  · rw [hft, h.root]; exact rdp

theorem chainUpdate_cons {β : Type} (q : CurveOps β) (x : β) (l : List β) :
    chainUpdate q (x :: l) = (if q.active x then q.updateLengths x else x) :: chainUpdate q l := rfl

theorem update_seg {β : Type} {q : CurveOps β} {x : β} {a b : V3} (h : Seg q x a b) :
    (if q.active x then q.updateLengths x else x) = x := by rw [if_pos h.active, h.fix]

theorem update_rev {c : Curve} {a b : V3} (h : Plain c a b) :
    (if (sumOps o curveOps).active (.inr c.reverse) then (sumOps o curveOps).updateLengths (.inr c.reverse)
      else .inr c.reverse) = (.inr c.reverse.updateLengths : α ⊕ Curve) :=
  if_pos h.seg.active

/-- **C58, the outlines in use (partial).** For every trimmed tooth, cylindrical or conical, the outline of
the tooth with its gap (`profile_closed`, and `generate_profile_closed` with the profile as a nested chain)
and the outline of the tooth alone (`tooth_profile_closed`) are continuous closed curves. Missing: the
outlines for ring gears, which are not closed, see below. -/
theorem c58_closed_partial (hE : EulerOk asEuler)
    (h : OutlineOk o tooth T pitch r θ z0 ρ φ z1 rA rO zO coneAngle zc) (rD sMid : ℝ)
    (hs : pitch * sMid = 2 * θ + pitch) :
    ∃ P E L, closeProfile o asEuler tooth rA rD rO ![0, 0, zO] pitch = some P ∧
      profileExtensions o asEuler P coneAngle ![0, 0, zc] sMid = some E ∧
      closedProfile o asEuler P coneAngle ![0, 0, zc] = some L ∧
      Spec.ClosedCurve (chainEval (sumOps o curveOps) (E.profileClosed o)) ∧
      Spec.ClosedCurve (chainEval (sumOps o curveOps) (E.toothClosed o)) ∧
      Spec.ClosedCurve (chainEval (sumOps (chainOps (sumOps o curveOps)) curveOps) L) := by
  obtain ⟨P, E, p⟩ := parts_exist hE h rD sMid hs
  have hpath := profile_path p.toothSeg p.mirrorSeg p.ra p.rd
  have hex : ∃ x ∈ ([.inr P.rd, .inl tooth, .inr P.ra, .inr P.mirror] : List (α ⊕ Curve)),
      (sumOps o curveOps).active x = true := ⟨.inl tooth, by simp, h.tooth.active⟩
  obtain ⟨hcont, e0, e1⟩ := hpath.chain hex
  have hft : flipY (T 0) = cyl r (-θ) z0 := by rw [h.root, flipY_cyl]
  obtain ⟨c2, hc2, p2⟩ := connector_plain hE h.joinRing.symm (-θ)
  rw [← hft] at hc2 p2
  obtain ⟨c0, hc0, p0⟩ := connector_plain hE h.joinRing (-θ - pitch)
  have hrs : rootStart T pitch = cyl r (-θ - pitch) z0 := by
    rw [rootStart_polar h.tooth, h.root]; simp [cyl]
  rw [← hrs] at hc0 p0
  rw [← p.chain_eq] at e0 e1
  refine ⟨P, E, chainUpdate (sumOps (chainOps (sumOps o curveOps)) curveOps) [.inl ⟨P.chain o, true⟩,
    .inr c2, .inr P.ro.reverse, .inr c0], p.made, p.ext, ?_, ?_, ?_, ?_⟩
  · simp only [closedProfile, p.ro.start, p.ro.stop, e0, e1, hc0, hc2, Option.bind_eq_bind, Option.bind_some]
  · have hl : Path (sumOps o curveOps) (E.profileClosed o) (rootStart T pitch) (rootStart T pitch) := by
      have hu := hpath.update
      simp only [chainUpdate_cons, List.cons.injEq] at hu
      rw [ExtProfile.profileClosed, p.base, p.tooth_eq]
      simp only [chainUpdate_cons, hu.1, hu.2.1, hu.2.2.1, hu.2.2.2.1, update_rev p.conn2, update_rev p.ro,
        update_seg (q := sumOps o curveOps) p.conn0.seg.inr]
      have := hpath.append (Path.cons (p := sumOps o curveOps) p.conn2.reverse.inr
        (.cons p.ro.reverse.inr (.cons p.conn0.seg.inr (.nil _))))
      exact this
    have hex' : ∃ x ∈ E.profileClosed o, (sumOps o curveOps).active x = true := by
      refine ⟨.inr E.roConnector0, ?_, p.conn0.seg.active⟩
      rw [ExtProfile.profileClosed]
      simp only [chainUpdate_cons, update_seg (q := sumOps o curveOps) p.conn0.seg.inr]
      simp
    obtain ⟨g1, g2, g3⟩ := hl.chain hex'
    exact ⟨g1, _, g2, g3⟩
  · have hl : Path (sumOps o curveOps) (E.toothClosed o) (T 0) (T 0) := by
      have hu := hpath.update
      simp only [chainUpdate_cons, List.cons.injEq] at hu
      rw [ExtProfile.toothClosed, p.base, p.tooth_eq]
      simp only [chainUpdate_cons, hu.2.1, hu.2.2.1, hu.2.2.2.1, update_rev p.rdConn]
      have h3 : Path (sumOps o curveOps) [.inr P.mirror, .inr E.rdConnector.reverse.updateLengths]
          (flipY (T 1)) (T 0) := .cons p.mirrorSeg.inr (.cons p.rdConn.reverse.inr (.nil _))
      refine .cons p.toothSeg.inl ?_
      rcases p.ra with h1 | ⟨h1, h2⟩
      · exact .cons h1.seg.inr h3
      · refine .skip h1 ?_
        rw [h2]; exact h3
    have hex' : ∃ x ∈ E.toothClosed o, (sumOps o curveOps).active x = true := by
      refine ⟨.inr E.rdConnector.reverse.updateLengths, ?_, p.rdConn.reverse.active⟩
      rw [ExtProfile.toothClosed]
      simp only [chainUpdate_cons, update_rev p.rdConn]
      simp
    obtain ⟨g1, g2, g3⟩ := hl.chain hex'
    exact ⟨g1, _, g2, g3⟩
  · have hl : Path (sumOps (chainOps (sumOps o curveOps)) curveOps)
        [.inl ⟨P.chain o, true⟩, .inr c2, .inr P.ro.reverse.updateLengths, .inr c0]
        (rootStart T pitch) (rootStart T pitch) := by
      rw [p.chain_eq]
      exact .cons (hpath.seg hex).inl (.cons p2.seg.inr (.cons p.ro.reverse.inr (.cons p0.seg.inr (.nil _))))
    have hu : chainUpdate (sumOps (chainOps (sumOps o curveOps)) curveOps)
        [.inl ⟨P.chain o, true⟩, .inr c2, .inr P.ro.reverse, .inr c0] =
        [.inl ⟨P.chain o, true⟩, .inr c2, .inr P.ro.reverse.updateLengths, .inr c0] := by
      have h1 := (hpath.seg hex).inl (q := curveOps)
      rw [← p.chain_eq] at h1
      have h2 := p2.seg.inr (q := chainOps (sumOps o curveOps))
      have h3 := p0.seg.inr (q := chainOps (sumOps o curveOps))
      have h4 : (if (sumOps (chainOps (sumOps o curveOps)) curveOps).active (.inr P.ro.reverse) then
          (sumOps (chainOps (sumOps o curveOps)) curveOps).updateLengths (.inr P.ro.reverse)
          else .inr P.ro.reverse) = (.inr P.ro.reverse.updateLengths : Chain (α ⊕ Curve) ⊕ Curve) :=
        if_pos p.ro.seg.active
      simp only [chainUpdate_cons, update_seg h1, update_seg h2, update_seg h3, h4]
      rfl
    rw [← hu] at hl
    obtain ⟨g1, g2, g3⟩ := hl.chain ⟨.inr c0, by rw [hu]; simp, p0.seg.active⟩
    exact ⟨g1, _, g2, g3⟩

/-- The rotated copy of the mirrored flank. -/
theorem rotated_seg {c : Curve} {a b : V3} (hc : Seg curveOps c a b) (hab : a ≠ b) (angle : ℝ) :
    ∃ m, rotatedCurve c.evalD c.active angle OUT ORIGIN = some m ∧ m.active = true ∧ m.updateLengths = m ∧
      0 < m.length ∧ m.eval 0 = some (app (Rz angle) a) ∧ m.eval 1 = some (app (Rz angle) b) := by
  obtain ⟨m, h1, h2, h3, h4⟩ := c51_rotated c.evalD c.active angle OUT ORIGIN OUT_ne
  have ca : c.active = true := hc.active
  have ev0 : c.evalD 0 = a := by rw [Curve.evalD, show c.eval 0 = some a from hc.start]; rfl
  have ev1 : c.evalD 1 = b := by rw [Curve.evalD, show c.eval 1 = some b from hc.stop]; rfl
  rw [norm3_OUT, inv_one, one_smul, ORIGIN_eq, sub_zero, zero_add, rodrigues_OUT] at h3 h4
  rw [ev0] at h3
  rw [ev1] at h4
  have hm : m = transformedCurve (rotateFunc angle ((norm3 OUT)⁻¹ • OUT) ORIGIN) c.evalD true := by
    rw [rotatedCurve, normalizeVector_some OUT_ne, ca] at h1
    simpa using h1.symm
  have hk : m = Curve.make (.generic (fun t => rotateFunc angle ((norm3 OUT)⁻¹ • OUT) ORIGIN (c.evalD t)) 20)
      true 0 1 := hm
  refine ⟨m, h1, ?_, ?_, ?_, h3, h4⟩
  · rw [hk, Curve.make, if_pos rfl, updateLengths_active]
  · rw [hk, updateLengths_fix_make]
  · obtain ⟨f, hf⟩ : ∃ f, f = fun t => rotateFunc angle ((norm3 OUT)⁻¹ • OUT) ORIGIN (c.evalD t) := ⟨_, rfl⟩
    rw [← hf] at hk
    have hl : m.length = chordLen f (linspace 0 1 20) 20 := by
      rw [hk, Curve.make, if_pos rfl, Curve.updateLengths]
    rw [hl]
    refine lt_of_le_of_ne (chordLen_nonneg _ _ _) fun e => hab ?_
    have := chordLen_eq_imp f (linspace 0 1 20) (Nat.zero_le 20) (by rw [← e]; rfl)
    have hT := updateLengths_tabled ⟨.generic f 20, true, 0, 1, 0, Lookup.default⟩ (by simp [CurveKind.Sampled])
    have hk' : m = (⟨.generic f 20, true, 0, 1, 0, Lookup.default⟩ : Curve).updateLengths := by
      rw [hk, Curve.make, if_pos rfl]
    rw [← hk'] at hT
    rw [hT.eval_zero] at h3
    rw [hT.eval_one] at h4
    have k0 : m.kind.fn m.t0 = f 0 := by rw [hk', updateLengths_kind, updateLengths_t0]; rfl
    have k1 : m.kind.fn m.t1 = f 1 := by rw [hk', updateLengths_kind, updateLengths_t1]; rfl
    rw [k0] at h3
    rw [k1] at h4
    rw [linspace_zero, linspace_last _ _ (by norm_num)] at this
    rw [Option.some.inj h3, Option.some.inj h4] at this
    have := congrArg (app (Rz (-angle))) this
    rwa [← app_mul, ← app_mul, ← Rz_add, neg_add_cancel, Rz_zero, app_one, app_one] at this

/-- **C58 violated, outer outline.** For every tooth the outline `tooth_profile_closed_outer` is not closed:
it starts at the tip of the previous tooth and ends at the tip of this tooth, because the arc along the
addendum circle is run in the wrong direction. -/
theorem c58_outer_violated (hE : EulerOk asEuler)
    (h : OutlineOk o tooth T pitch r θ z0 ρ φ z1 rA rO zO coneAngle zc) (rD sMid : ℝ)
    (hs : pitch * sMid = 2 * θ + pitch) :
    ∃ P E L a b, closeProfile o asEuler tooth rA rD rO ![0, 0, zO] pitch = some P ∧
      profileExtensions o asEuler P coneAngle ![0, 0, zc] sMid = some E ∧ E.toothClosedOuter o = some L ∧
      chainEval (sumOps o curveOps) L 0 = some a ∧ chainEval (sumOps o curveOps) L 1 = some b ∧ a ≠ b := by
  obtain ⟨P, E, p⟩ := parts_exist hE h rD sMid hs
  have hpath := profile_path p.toothSeg p.mirrorSeg p.ra p.rd
  obtain ⟨m, m1, m2, m3, m4, m5, m6⟩ := rotated_seg p.mirrorSeg (fun e => h.apart (flipY_inj e).symm) (-pitch)
  have hu := hpath.update
  simp only [chainUpdate_cons, List.cons.injEq] at hu
  have hL : E.toothClosedOuter o = some [.inr m, .inr P.rd, .inl tooth, .inr E.raConnector] := by
    rw [ExtProfile.toothClosedOuter, p.base, p.tooth_eq, p.pitch_eq, m1, Option.map_some]
    have e1 : (if (sumOps o curveOps).active (.inr m) then (sumOps o curveOps).updateLengths (.inr m)
        else .inr m) = (.inr m : α ⊕ Curve) := by
      rw [if_pos (show (sumOps o curveOps).active (.inr m) = true from m2)]
      exact congrArg Sum.inr m3
    simp only [chainUpdate_cons, e1, hu.1, hu.2.1, update_seg (q := sumOps o curveOps) p.raConn.seg.inr]
    rfl
  have hall : AllPos (sumOps o curveOps) [.inr m, .inr P.rd, .inl tooth, .inr E.raConnector] := by
    intro x hx hact
    simp only [List.mem_cons, List.not_mem_nil, or_false] at hx
    rcases hx with rfl | rfl | rfl | rfl
    · exact m4
    · exact hpath.allPos _ (by simp) hact
    · exact h.tooth.len
    · exact p.raConn.seg.len
  obtain ⟨e0, e1⟩ := c44_ends _ hall 0 3 (.inr m) (.inr E.raConnector) rfl rfl m2 p.raConn.seg.active
    (fun i c hi => by omega) (fun i c hi hc => by
      rw [List.getElem?_eq_none (by simp; omega)] at hc
      cases hc)
  refine ⟨P, E, _, _, _, p.made, p.ext, hL, e0.trans m5, e1.trans p.raConn.stop, ?_⟩
  rw [h.tip, flipY_cyl, cyl_rot]
  intro e
  have x0 := congrFun e 0
  have x1 := congrFun e 1
  simp only [cyl, Matrix.cons_val_zero, Matrix.cons_val_one] at x0 x1
  have hsin : 0 < sin (2 * φ + pitch) :=
    sin_pos_of_pos_of_lt_pi (by linarith [h.tipGt]) (by linarith [h.tipLt])
  have key : ρ * sin (2 * φ + pitch) = 0 := by
    rw [show 2 * φ + pitch = φ - (-φ + -pitch) by ring, sin_sub φ]
    linear_combination sin φ * x0 - cos φ * x1
  exact (mul_pos h.tipPos hsin).ne' key

/-- **C58 violated, ring outline.** For every tooth the outline `tooth_profile_closed_ring` is not closed: it
starts at the root of the tooth and ends on the ring, because the last connector is reversed once too
often. -/
theorem c58_ring_violated (hE : EulerOk asEuler)
    (h : OutlineOk o tooth T pitch r θ z0 ρ φ z1 rA rO zO coneAngle zc) (rD sMid : ℝ)
    (hs : pitch * sMid = 2 * θ + pitch) :
    ∃ P E a b, closeProfile o asEuler tooth rA rD rO ![0, 0, zO] pitch = some P ∧
      profileExtensions o asEuler P coneAngle ![0, 0, zc] sMid = some E ∧
      chainEval (sumOps o curveOps) (E.toothClosedRing o) 0 = some a ∧
      chainEval (sumOps o curveOps) (E.toothClosedRing o) 1 = some b ∧ a ≠ b := by
  obtain ⟨P, E, p⟩ := parts_exist hE h rD sMid hs
  have hro := p.roTooth
  have hroK : P.ro.active = true := p.ro.seg.active
  obtain ⟨t, ht⟩ : ∃ t, E.roTooth = { P.ro with t0 := t }.updateLengths := by
    rw [Curve.setStartOn] at hro
    obtain ⟨t, -, ht⟩ := Option.map_eq_some_iff.1 hro
    exact ⟨t, ht.symm⟩
  have ract : E.roTooth.reverse.active = true := by
    change E.roTooth.active = true
    rw [ht, updateLengths_active]; exact hroK
  have rlen : 0 < E.roTooth.reverse.updateLengths.length := by
    obtain ⟨M, hM⟩ := p.roKind
    have hrk : E.roTooth.reverse.kind = .arc rO pitch ![0, 0, zO] M := by
      change E.roTooth.kind = _
      rw [ht, updateLengths_kind, ← hM]
    rw [Curve.updateLengths, hrk]
    exact mul_pos h.ringPos h.tooth.pitchPos
  have hL : E.toothClosedRing o = [.inl tooth, .inr E.raConnector, .inr P.mirror, .inr E.roConnector2,
      .inr E.roTooth.reverse.updateLengths, .inr E.roConnector1.reverse.updateLengths] := by
    rw [ExtProfile.toothClosedRing, p.base, p.tooth_eq]
    have e1 : (if (sumOps o curveOps).active (.inr E.roTooth.reverse) then
        (sumOps o curveOps).updateLengths (.inr E.roTooth.reverse) else .inr E.roTooth.reverse) =
        (.inr E.roTooth.reverse.updateLengths : α ⊕ Curve) := if_pos ract
    simp only [chainUpdate_cons, e1, update_rev p.conn1, update_seg (q := sumOps o curveOps) p.raConn.seg.inr,
      update_seg (q := sumOps o curveOps) p.conn2.seg.inr, update_seg (q := sumOps o curveOps) p.mirrorSeg.inr,
      update_seg (q := sumOps o curveOps) p.toothSeg.inl]
    rfl
  have hall : AllPos (sumOps o curveOps) (E.toothClosedRing o) := by
    rw [hL]
    intro x hx hact
    simp only [List.mem_cons, List.not_mem_nil, or_false] at hx
    rcases hx with rfl | rfl | rfl | rfl | rfl | rfl
    · exact h.tooth.len
    · exact p.raConn.seg.len
    · exact p.mirrorSeg.len
    · exact p.conn2.seg.len
    · exact rlen
    · exact p.conn1.reverse.len
  obtain ⟨e0, e1⟩ := c44_ends _ hall 0 5 (.inl tooth) (.inr E.roConnector1.reverse.updateLengths)
    (by rw [hL]; rfl) (by rw [hL]; rfl) h.tooth.active p.conn1.reverse.active
    (fun i c hi => by omega) (fun i c hi hc => by
      rw [hL, List.getElem?_eq_none (by simp; omega)] at hc
      cases hc)
  refine ⟨P, E, _, _, p.made, p.ext, e0.trans p.toothSeg.start, e1.trans p.conn1.reverse.stop, ?_⟩
  rw [h.root]
  exact (h.joinRing.ne θ).symm

end

/-- The straight tooth of C55 meets the hypotheses, in a gear with a hole of radius 1. -/
theorem exampleOutline : OutlineOk curveOps (lineC ![√3, -1, 0] ![3, -1 / 2, 0]) exampleFlank (π / 2) 2 (-(π / 6)) 0
    (√(37 / 4)) (-arctan (1 / 6)) 0 (√(37 / 4)) 1 0 0 0 := by
  have hpi := pi_pos
  have h1 : 0 < arctan (1 / 6 : ℝ) := arctan_pos.2 (by norm_num)
  have h2 : arctan (1 / 6 : ℝ) < π / 4 := by
    rw [← arctan_one]; exact arctan_strictMono (by norm_num)
  have hs : (0 : ℝ) < √(37 / 4) := sqrt_pos.2 (by norm_num)
  have hsq : √(37 / 4 : ℝ) ^ 2 = 37 / 4 := sq_sqrt (by norm_num)
  have hkey : √(1 + (1 / 6 : ℝ) ^ 2) * 3 = √(37 / 4) := by
    rw [show (37 / 4 : ℝ) = (1 + (1 / 6) ^ 2) * 3 ^ 2 by norm_num, sqrt_mul (by norm_num), sqrt_sq (by norm_num)]
  have hpos : (0 : ℝ) < √(1 + (1 / 6 : ℝ) ^ 2) := sqrt_pos.2 (by norm_num)
  have hc : √(37 / 4) * cos (arctan (1 / 6)) = 3 := by
    rw [cos_arctan, ← hkey]; field_simp
  have hsn : √(37 / 4) * sin (arctan (1 / 6)) = 1 / 2 := by
    rw [sin_arctan, ← hkey]; field_simp; norm_num
  refine ⟨exampleFlank_ok, exampleFlank_gaps, by linarith, ?_, ?_, ?_, hs, by linarith, by linarith, by linarith, hs,
    by norm_num, ?_, ?_⟩
  · apply V3.ext3
    · simp [exampleFlank, cyl]; ring
    · simp [exampleFlank, cyl]
    · simp [exampleFlank, cyl]
  · apply V3.ext3
    · simp only [exampleFlank, cyl, cos_neg, hc]; simp
    · simp only [exampleFlank, cyl, sin_neg, mul_neg, hsn]; simp; norm_num
    · simp [exampleFlank, cyl]
  · intro e
    have := congrFun e 1
    simp [exampleFlank] at this
    norm_num at this
  · rw [JoinOk, if_pos rfl]; left; norm_num
  · rw [JoinOk, if_pos rfl]; left
    rw [ite_self]
    intro e
    rw [← e] at hsq
    norm_num at hsq

example : ∃ asEuler P E L, closeProfile curveOps asEuler (lineC ![√3, -1, 0] ![3, -1 / 2, 0]) (√(37 / 4)) 2 1 ![0, 0, 0]
        (π / 2) = some P ∧
      profileExtensions curveOps asEuler P 0 ![0, 0, 0] (1 / 3) = some E ∧
      closedProfile curveOps asEuler P 0 ![0, 0, 0] = some L ∧
      Spec.ClosedCurve (chainEval (sumOps curveOps curveOps) (E.profileClosed curveOps)) ∧
      Spec.ClosedCurve (chainEval (sumOps curveOps curveOps) (E.toothClosed curveOps)) ∧
      Spec.ClosedCurve (chainEval (sumOps (chainOps (sumOps curveOps curveOps)) curveOps) L) := by
  obtain ⟨asEuler, hE⟩ := eulerOk_exists
  obtain ⟨P, E, L, h⟩ := c58_closed_partial hE exampleOutline 2 (1 / 3) (by ring)
  exact ⟨asEuler, P, E, L, h⟩

end Verif
