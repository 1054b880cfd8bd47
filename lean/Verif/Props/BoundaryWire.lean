/-
C129: the edges of the boundary wire.
-/
import Verif.Props.ProfileNurb
import Verif.Props.Build
import Verif.Props.Report

namespace Verif

open Real Set

/-! ### One inner piece after `enforce_continuity` -/

theorem joined_get {α : Type*} {ls : List (List α)} (h : Joined ls) {i : ℕ} {p q : List α} (hp : ls[i]? = some p)
    (hq : ls[i + 1]? = some q) : p.getLast? = q.head? := by
  induction ls generalizing i with
  | nil => simp at hp
  | cons l ls ih =>
    cases ls with
    | nil => simp at hq
    | cons l' ls =>
      cases i with
      | zero =>
        simp only [List.getElem?_cons_zero, Option.some.injEq, zero_add, List.getElem?_cons_succ] at hp hq
        rw [← hp, ← hq]; exact h.1
      | succ i =>
        rw [List.getElem?_cons_succ] at hp hq
        exact ih h.2 hp hq

theorem enforce_inner {isClosed : List (Nurb V3) → Bool} {cs : List (Nurb V3)} (hp : Proper cs) {i : ℕ} {x d y : Nurb V3}
    {a b a' b' a'' b'' : V3} (hx : cs[i]? = some x) (hd : cs[i + 1]? = some d) (hy : cs[i + 2]? = some y)
    (kx : PieceOk x a b) (kd : PieceOk d a' b') (ky : PieceOk y a'' b'') :
    ∃ d', (enforceContinuity isClosed cs)[i + 1]? = some d' ∧
      PieceOk d' ((1 / 2 : ℝ) • (b + a')) ((1 / 2 : ℝ) • (b' + a'')) := by
  cases cs with
  | nil => simp at hx
  | cons c cs =>
    obtain ⟨-, x', x1, -, -, -, -, x2⟩ := c53_inner isClosed c cs hp i x hx
    obtain ⟨-, d', d1, d2, d3, -, -, d4⟩ := c53_inner isClosed c cs hp (i + 1) d hd
    obtain ⟨j1, j2, -⟩ := c53_continuous isClosed c cs hp
    have g1 := joined_get j1 (i := i) (p := x'.points) (q := d'.points) (by rw [List.getElem?_map, x1]; rfl)
      (by rw [List.getElem?_map, d1]; rfl)
    have g2 := joined_get j2 (i := i) (p := x'.weights) (q := d'.weights) (by rw [List.getElem?_map, x1]; rfl)
      (by rw [List.getElem?_map, d1]; rfl)
    have hone : (1 / 2 : ℝ) • ((1 : ℝ) + 1) = 1 := by rw [smul_eq_mul]; norm_num
    refine ⟨d', d1, by rw [d2]; exact kd.len, by rw [d2, d3]; exact kd.wlen, ?_, ?_, ?_, ?_⟩
    · rw [← g1]; exact (x2 d hd).1 _ _ kx.last kd.first
    · exact (d4 y hy).1 _ _ kd.last ky.first
    · rw [← g2, (x2 d hd).2 _ _ kx.wlast kd.wfirst, hone]
    · rw [(d4 y hy).2 _ _ kd.wlast ky.wfirst, hone]

/-- Where an active member of a chain is found among the edges. -/
theorem splines_get {cont : List (Nurb V3) → Bool} {a b : List NurbSeg} {d : NurbSeg} {d' : Nurb V3}
    (hd : d.active = true)
    (h : (enforceContinuity (nurbsClosed cont ((a ++ d :: b).map NurbSeg.active)) ((a ++ d :: b).map NurbSeg.nurb))[a.length]?
      = some d') :
    (genSplines (enforceSegs cont (a ++ d :: b)))[(a.filter NurbSeg.active).length]? = some (d'.points, d'.weights) := by
  rw [enforceSegs]
  obtain ⟨F, hF⟩ : ∃ F, F = enforceContinuity (nurbsClosed cont ((a ++ d :: b).map NurbSeg.active))
    ((a ++ d :: b).map NurbSeg.nurb) := ⟨_, rfl⟩
  rw [← hF] at h ⊢
  obtain ⟨hl, e⟩ := List.getElem?_eq_some_iff.1 h
  have hs : F = F.take a.length ++ d' :: F.drop (a.length + 1) := by
    rw [← e, List.getElem_cons_drop, List.take_append_drop]
  obtain ⟨G, hG⟩ : ∃ G, G = F.take a.length := ⟨_, rfl⟩
  have hGl : G.length = a.length := by rw [hG, List.length_take]; omega
  rw [hs, ← hG, List.zipWith_append (by rw [hGl]), genSplines, List.filter_append, List.map_append]
  have hlen : ((List.zipWith (fun n (s : NurbSeg) => (⟨n, s.active⟩ : NurbSeg)) G a).filter NurbSeg.active).length =
      (a.filter NurbSeg.active).length := by
    clear hF h e hs hG hl
    induction a generalizing G with
    | nil => simp
    | cons s a ih =>
      cases G with
      | nil => simp at hGl
      | cons g G =>
        have := ih G (by simpa using hGl)
        by_cases h1 : s.active = true <;> simp [h1, this]
  rw [List.getElem?_append_right (by rw [List.length_map, hlen]), List.length_map, hlen, Nat.sub_self,
    List.zipWith_cons_cons, List.filter_cons_of_pos (by exact hd)]
  rfl

theorem place_mid (t : GearTransform) (x y : V3) :
    applyGearTransform ((1 / 2 : ℝ) • (x + y)) t = (1 / 2 : ℝ) • (applyGearTransform x t + applyGearTransform y t) := by
  simp only [applyGearTransform_eq, app_smul, app_add]
  module

theorem cyl_mid (a b γ z : ℝ) : (1 / 2 : ℝ) • (cyl a γ z + cyl b γ z) = cyl ((a + b) / 2) γ z := by
  apply V3.ext3 <;> simp [cyl] <;> ring

theorem turned_place (t : GearTransform) (pitch : ℝ) (j : ℕ) (p : V3) :
    applyGearTransform p (turned t pitch j) = applyGearTransform (app (Rz (pitch * j)) p) t := by
  simp only [applyGearTransform_eq, turned]
  rw [← app_mul (Rz t.angle), ← Rz_add, mul_comm pitch]

section
variable {α : Type} {o : CurveOps α} {asEuler : M3 → ℝ × ℝ × ℝ} {tooth : α} {T : ℝ → V3}
  {pitch r θ z0 ρ φ z1 rA rD rO zO coneAngle zc sMid : ℝ} {P : RefProfile α} {members : α → List Curve}

theorem boundary_curves_eq (N : NurbProfile) (t : GearTransform) {k : ℕ} (hk0 : 0 < k) (hk : pitch * k = 2 * π) :
    boundaryCurves N pitch t (npRound (2 * π / pitch)).toNat =
      (List.range k).flatMap fun j => N.profile.map (NurbSeg.move fun p => applyGearTransform p (turned t pitch j)) := by
  have hp : pitch ≠ 0 := by
    rintro rfl
    rw [zero_mul] at hk
    exact (by positivity : (2 * π) ≠ 0) hk.symm
  have e : 2 * π / pitch = k := by rw [← hk]; field_simp
  rw [boundaryCurves, e, npRound_nat, Int.toNat_natCast, boundaryLoop_eq, List.flatMap_map]

/-- **C129** (`_partial`: teeth with a tip land and a gap that both have a width; the others are refuted below). The edges of
the boundary wire are the curves of the profile, copied to every tooth of the placed gear, and they form one closed wire,
whatever the optimiser returned. -/
theorem c129_boundary_partial (hE : EulerOk asEuler)
    (h : OutlineOk o tooth T pitch r θ z0 ρ φ z1 rA rO zO coneAngle zc) (rD : ℝ)
    (ht : Path curveOps (members tooth) (T 0) (T 1)) (hex : ∃ c ∈ members tooth, c.active = true)
    (opt : ℕ → ℝ → Curve → ℕ → ℝ) (trf : GearTransform) (ho : trf.orientation = 1) (h0 : trf.center 0 = 0)
    (h1 : trf.center 1 = 0) (hφ : φ ≠ 0) (hθ : -(pitch / 2) ≠ θ) (k : ℕ) (hk : pitch * k = 2 * π) (t : GearTransform) :
    ∃ P, closeProfile o asEuler tooth rA rD rO ![0, 0, zO] pitch = some P ∧
      ∀ N cont, profileToNurb members opt 4 2 trf P = some N →
        ∃ S, boundarySplines members opt cont trf t P = some S ∧
        S = ((List.range k).flatMap fun j => N.profile.map fun s => (s.nurb.points.map fun p =>
          applyGearTransform (app (Rz (pitch * j)) p) t, s.nurb.weights)) ∧
        ∃ a, Spec.Wire (S.map pieceFn) a a := by
  have hpp := h.tooth.pitchPos
  have hk0 : 0 < k := by
    rcases Nat.eq_zero_or_pos k with rfl | hk0
    · rw [Nat.cast_zero, mul_zero] at hk
      exact absurd hk.symm (by positivity)
    · exact hk0
  obtain ⟨P, E, p⟩ := parts_exist hE h rD ((2 * θ + pitch) / pitch) (by field_simp)
  refine ⟨P, p.made, fun N cont hN => ?_⟩
  have ht' : Path curveOps (members P.tooth) (T 0) (T 1) := by rw [p.tooth_eq]; exact ht
  have hex' : ∃ c ∈ members P.tooth, c.active = true := by rw [p.tooth_eq]; exact hex
  have f := nurb_facts (pitch := pitch) ht' hex' (by norm_num) (by norm_num) hN
  obtain ⟨g1, -⟩ := profile_pieces f p.ra p.rd
  have hra : P.ra.active = true := by
    rcases p.ra with q | ⟨-, q⟩
    · exact q.seg.active
    · exfalso
      rw [h.tip, flipY_cyl] at q
      have e1 := congrFun q 1
      simp only [cyl, Matrix.cons_val_one, Matrix.cons_val_zero, sin_neg] at e1
      have e2 : ρ * sin φ = 0 := by linarith
      rcases mul_eq_zero.1 e2 with e3 | e3
      · exact h.tipPos.ne' e3
      · exact hφ ((sin_eq_zero_iff_of_lt_of_lt (by linarith [h.tipGt, h.tooth.pitchLe, pi_pos])
          (by linarith [h.tipLe, pi_pos])).1 e3)
  have hrd : P.rd.active = true := by
    rcases p.rd with q | ⟨-, q⟩
    · exact q.seg.active
    · exfalso
      rw [show rootStart T pitch = cyl r (-θ - pitch) z0 by rw [rootStart_polar h.tooth, h.root]; simp [cyl],
        show -θ - pitch = θ - (2 * θ + pitch) by ring, h.root] at q
      have hge := h.tooth.angleGe
      have e := chord_cyl h.tooth.rootPos θ z0 (δ := 2 * θ + pitch) (by linarith)
        (by linarith [h.tooth.angleLt, h.tooth.pitchLe])
      rw [q, sub_self, norm3_eq_zero.2 rfl] at e
      have hs : 0 < sin ((2 * θ + pitch) / 2) := sin_pos_of_pos_of_lt_pi
        (by have := lt_of_le_of_ne hge hθ; linarith) (by linarith [h.tooth.angleLt, h.tooth.pitchLe, pi_pos])
      have := mul_pos (mul_pos two_pos h.tooth.rootPos) hs
      linarith
  have hact : ∀ s ∈ N.profile, s.active = true := by
    obtain ⟨ss, -, s2, -, s4, s5⟩ := f.tooth
    intro s hs
    rw [NurbProfile.profile, List.cons_append, List.mem_cons, List.mem_append, List.mem_cons] at hs
    rcases hs with rfl | hs | rfl | hs
    · exact f.rdActive.trans hrd
    · rw [s4, List.mem_map] at hs
      obtain ⟨x, hx, rfl⟩ := hs
      exact s2 x hx
    · exact f.raActive.trans hra
    · rw [s5, List.mem_map] at hs
      obtain ⟨x, hx, rfl⟩ := hs
      rw [List.mem_map] at hx
      obtain ⟨y, hy, rfl⟩ := hx
      exact s2 y (List.mem_reverse.1 hy)
  rw [activeNurbs_all hact] at g1
  obtain ⟨a, ha⟩ : ∃ a, a = applyGearTransform (rootStart T pitch) trf := ⟨_, rfl⟩
  have hb : applyGearTransform (flipY (T 0)) trf = app (Rz pitch) a := by
    rw [ha, ← coaxial_turn trf ho h0 h1, rootStart, ← app_mul, ← Rz_add, add_neg_cancel, Rz_zero, app_one]
  rw [← ha, hb] at g1
  have hcp : ∀ m : ℕ, Pieces (((List.range m).flatMap fun j => N.profile.map
      (NurbSeg.move fun p => applyGearTransform p (turned t pitch j))).map NurbSeg.nurb) (applyGearTransform a t)
      (applyGearTransform (app (Rz (pitch * m)) a) t) := by
    intro m
    induction m with
    | zero => rw [Nat.cast_zero, mul_zero, Rz_zero, app_one]; exact .nil _
    | succ m ih =>
      rw [List.range_succ, List.flatMap_append, List.map_append]
      refine ih.append ?_
      have := g1.map fun p => applyGearTransform p (turned t pitch m)
      rw [turned_place, turned_place, ← app_mul, ← Rz_add] at this
      rw [show pitch * ((m + 1 : ℕ) : ℝ) = pitch * m + pitch by push_cast; ring]
      simp only [List.flatMap_cons, List.flatMap_nil, List.append_nil]
      rw [move_nurbs]
      exact this
  have hc := hcp k
  rw [hk, show Rz (2 * π) = 1 by ext i j; fin_cases i <;> fin_cases j <;> simp [Rz], app_one] at hc
  have hall : ∀ s ∈ (List.range k).flatMap fun j => N.profile.map
      (NurbSeg.move fun p => applyGearTransform p (turned t pitch j)), s.active = true := by
    intro s hs
    rw [List.mem_flatMap] at hs
    obtain ⟨j, -, hs⟩ := hs
    rw [List.mem_map] at hs
    obtain ⟨x, hx, rfl⟩ := hs
    exact hact x hx
  have hS : genSplines (enforceSegs cont (boundaryCurves N pitch t (npRound (2 * π / pitch)).toNat)) =
      ((List.range k).flatMap fun j => N.profile.map fun s => (s.nurb.points.map fun p =>
          applyGearTransform (app (Rz (pitch * j)) p) t, s.nurb.weights)) := by
    rw [boundary_curves_eq N t hk0 hk, enforceSegs_noop hc hall fun _ => rfl, genSplines, List.filter_eq_self.2 hall,
      List.map_flatMap]
    congr 1
    funext j
    rw [List.map_map]
    apply List.map_congr_left
    intro s _
    simp only [Function.comp_apply, NurbSeg.move, turned_place]
  refine ⟨_, by rw [boundarySplines, hN, p.pitch_eq]; rfl, hS, applyGearTransform a t, ?_⟩
  rw [boundary_curves_eq N t hk0 hk, enforceSegs_noop hc hall fun _ => rfl, genSplines, List.filter_eq_self.2 hall]
  have := hc.wire
  simp only [List.map_map] at this ⊢
  exact this

/-- The ends of the flank after `enforce_continuity`. `x` is what comes before the flank's piece `d`, `y` what comes after. -/
theorem first_copy {N : NurbProfile} {trf t : GearTransform} {cont : List (Nurb V3) → Bool} (f : NurbFacts T pitch trf P N)
    {k : ℕ} (hk0 : 0 < k) (hk : pitch * k = 2 * π)
    {l m : List NurbSeg} {x d y : NurbSeg} (hN : N.profile = l ++ x :: d :: y :: m) (hd : d.active = true)
    {a b a' b' a'' b'' u v : V3} (hrd : PieceOk N.rd.nurb (applyGearTransform u trf) v)
    {u' v' : V3} (hra : PieceOk N.ra.nurb u' v')
    (kx : PieceOk x.nurb a b) (kd : PieceOk d.nurb a' b') (ky : PieceOk y.nurb a'' b'') :
    ∃ e, (genSplines (enforceSegs cont (boundaryCurves N pitch t (npRound (2 * π / pitch)).toNat)))[
        ((l ++ [x]).filter NurbSeg.active).length]? = some e ∧
      pieceFn e 0 = some (applyGearTransform ((1 / 2 : ℝ) • (b + a')) t) ∧
      pieceFn e 1 = some (applyGearTransform ((1 / 2 : ℝ) • (b' + a'')) t) := by
  have hpc : ∀ s ∈ N.profile, ∃ p q, PieceOk s.nurb p q := by
    obtain ⟨ss, s1, -, -, s4, s5⟩ := f.tooth
    intro s hs
    rw [NurbProfile.profile, List.cons_append, List.mem_cons, List.mem_append, List.mem_cons] at hs
    rcases hs with rfl | hs | rfl | hs
    · exact ⟨_, _, hrd⟩
    · have e := s1.map fun p => applyGearTransform p trf
      rw [← move_nurbs, ← s4] at e
      exact e.mem _ (List.mem_map_of_mem hs)
    · exact ⟨_, _, hra⟩
    · have e := (flip_rev_pieces s1).map fun p => applyGearTransform p trf
      rw [← move_nurbs, ← s5] at e
      exact e.mem _ (List.mem_map_of_mem hs)
  rw [boundary_curves_eq N t hk0 hk]
  have hprop : Proper (((List.range k).flatMap fun j => N.profile.map
      (NurbSeg.move fun p => applyGearTransform p (turned t pitch j))).map NurbSeg.nurb) := by
    intro c hc
    rw [List.mem_map] at hc
    obtain ⟨s, hs, rfl⟩ := hc
    rw [List.mem_flatMap] at hs
    obtain ⟨j, -, hs⟩ := hs
    rw [List.mem_map] at hs
    obtain ⟨w, hw, rfl⟩ := hs
    obtain ⟨p, q, g⟩ := hpc w hw
    have g' := g.map fun p => applyGearTransform p (turned t pitch j)
    exact ⟨g'.len, le_of_le_of_eq g'.len g'.wlen.symm⟩
  obtain ⟨k, rfl⟩ : ∃ k', k = k' + 1 := ⟨k - 1, by omega⟩
  have hl : ∃ rest, ((List.range (k + 1)).flatMap fun j => N.profile.map
      (NurbSeg.move fun p => applyGearTransform p (turned t pitch j))) =
      (l ++ [x]).map (NurbSeg.move fun p => applyGearTransform p t) ++ (d.move fun p => applyGearTransform p t) ::
        (y.move fun p => applyGearTransform p t) :: rest := by
    refine ⟨m.map (NurbSeg.move fun p => applyGearTransform p t) ++ (((List.range k).map Nat.succ).flatMap fun j =>
      N.profile.map (NurbSeg.move fun p => applyGearTransform p (turned t pitch j))), ?_⟩
    have e0 : turned t pitch 0 = t := by simp [turned]
    have e1 : N.profile.map (NurbSeg.move fun p => applyGearTransform p t) = (l ++ x :: d :: y :: m).map
      (NurbSeg.move fun p => applyGearTransform p t) := by rw [hN]
    rw [List.range_succ_eq_map, List.flatMap_cons, e0, e1]
    simp
  obtain ⟨rest, hl⟩ := hl
  rw [hl] at hprop ⊢
  obtain ⟨d', d1, d2⟩ := enforce_inner (isClosed := nurbsClosed cont ((((l ++ [x]).map
    (NurbSeg.move fun p => applyGearTransform p t) ++ (d.move fun p => applyGearTransform p t) ::
        (y.move fun p => applyGearTransform p t) :: rest)).map NurbSeg.active)) hprop (i := l.length)
    (x := (x.move fun p => applyGearTransform p t).nurb) (d := (d.move fun p => applyGearTransform p t).nurb)
    (y := (y.move fun p => applyGearTransform p t).nurb)
    (by simp [List.getElem?_append]) (by simp [List.getElem?_append]) (by simp [List.getElem?_append])
    (kx.map fun p => applyGearTransform p t) (kd.map fun p => applyGearTransform p t)
    (ky.map fun p => applyGearTransform p t)
  have hg := splines_get (cont := cont) (a := (l ++ [x]).map (NurbSeg.move fun p => applyGearTransform p t))
    (d := d.move fun p => applyGearTransform p t) (b := (y.move fun p => applyGearTransform p t) :: rest) hd
    (by rw [← d1]; simp)
  refine ⟨(d'.points, d'.weights), ?_, ?_, ?_⟩
  · rw [← hg]
    congr 1
    rw [List.filter_map, List.length_map]
    rfl
  · rw [place_mid]; exact d2.ends.1
  · rw [place_mid]; exact d2.ends.2

/-- **C129 is violated for pointed teeth.** If the flanks meet at radius `ρ` before they reach the addendum circle, the edge
of the last piece of the flank ends half way between the tip of the tooth and the addendum circle of radius `rA`. -/
theorem c129_pointed_violated (hE : EulerOk asEuler)
    (h : OutlineOk o tooth T pitch r θ z0 ρ φ z1 rA rO zO coneAngle zc) (rD : ℝ)
    (ht : Path curveOps (members tooth) (T 0) (T 1)) (hex : ∃ c ∈ members tooth, c.active = true)
    (opt : ℕ → ℝ → Curve → ℕ → ℝ) (trf : GearTransform) (hφ : φ = 0) (k : ℕ) (hk : pitch * k = 2 * π) (t : GearTransform) :
    ∃ P, closeProfile o asEuler tooth rA rD rO ![0, 0, zO] pitch = some P ∧
      ∀ N cont, profileToNurb members opt 4 2 trf P = some N →
        ∃ S d e, boundarySplines members opt cont trf t P = some S ∧ N.tooth.getLast? = some d ∧
          pieceFn (d.nurb.points, d.nurb.weights) 1 = some (applyGearTransform (cyl ρ 0 z1) trf) ∧
          S[((N.rd :: N.tooth.dropLast).filter NurbSeg.active).length]? = some e ∧
          pieceFn e 1 = some (applyGearTransform (applyGearTransform (cyl ((ρ + rA) / 2) 0 z1) trf) t) := by
  have hpp := h.tooth.pitchPos
  have hk0 : 0 < k := by
    rcases Nat.eq_zero_or_pos k with rfl | hk0
    · rw [Nat.cast_zero, mul_zero] at hk
      exact absurd hk.symm (by positivity)
    · exact hk0
  obtain ⟨P, hP, -, -, -, -, -, -, hra, hrd⟩ := close_facts hE h.tooth rA rD rO ![0, 0, zO]
  obtain ⟨P', E, p⟩ := parts_exist hE h rD ((2 * θ + pitch) / pitch) (by field_simp)
  rw [p.made] at hP
  obtain rfl := Option.some.inj hP
  refine ⟨P', p.made, fun N cont hN => ?_⟩
  have ht' : Path curveOps (members P'.tooth) (T 0) (T 1) := by rw [p.tooth_eq]; exact ht
  have hex' : ∃ c ∈ members P'.tooth, c.active = true := by rw [p.tooth_eq]; exact hex
  have f := nurb_facts (pitch := pitch) ht' hex' (by norm_num) (by norm_num) hN
  obtain ⟨t1, -, t3, -⟩ := tipArc hE h hra
  have kra := (f.ra _ _ t1 t3).2
  rw [if_pos hφ, hφ] at kra
  obtain ⟨u, v, krd⟩ : ∃ u v, PieceOk N.rd.nurb (applyGearTransform u trf) v := by
    rcases rootArc_ends hE h hrd with q | ⟨-, -, q⟩
    · exact ⟨_, _, (f.rd _ _ q.start q.stop).2⟩
    · exact ⟨_, _, (f.rd _ _ (q 0 le_rfl zero_le_one) (q 1 zero_le_one le_rfl)).2⟩
  obtain ⟨ss, s1, s2, s3, s4, -⟩ := f.tooth
  have hT := s1.map fun p => applyGearTransform p trf
  rw [← move_nurbs, ← s4] at hT
  have hne : N.tooth ≠ [] := by rw [s4]; simpa using s3
  have hsplit : N.tooth = N.tooth.dropLast ++ [N.tooth.getLast hne] := (List.dropLast_append_getLast hne).symm
  obtain ⟨d, hd⟩ : ∃ d, d = N.tooth.getLast hne := ⟨_, rfl⟩
  rw [← hd] at hsplit
  have hmem : d ∈ N.tooth := by rw [hd]; exact List.getLast_mem hne
  have hdact : d.active = true := by
    rw [s4, List.mem_map] at hmem
    obtain ⟨w, hw, rfl⟩ := hmem
    exact s2 w hw
  obtain ⟨p0, q0, kd⟩ := hT.mem d.nurb (List.mem_map_of_mem hmem)
  obtain ⟨y, y1, y2, -⟩ := hT.last (by simpa using hne)
  rw [hsplit, List.map_append, List.map_singleton, List.getLast?_concat] at y1
  obtain rfl := Option.some.inj y1
  rw [kd.last] at y2
  rw [Option.some.inj y2, h.tip, hφ] at kd
  have hpre : N.rd :: N.tooth.dropLast ≠ [] := by simp
  have hx : ∃ p q, PieceOk ((N.rd :: N.tooth.dropLast).getLast hpre).nurb p q := by
    have hm := List.getLast_mem hpre
    rw [List.mem_cons] at hm
    rcases hm with hm | hm
    · rw [hm]; exact ⟨_, _, krd⟩
    · exact hT.mem _ (List.mem_map_of_mem (List.mem_of_mem_dropLast hm))
  obtain ⟨p1, q1, kx⟩ := hx
  have hprof : N.profile = (N.rd :: N.tooth.dropLast).dropLast ++ (N.rd :: N.tooth.dropLast).getLast hpre :: d :: N.ra ::
      N.mirror := by
    have e : (N.rd :: N.tooth.dropLast).dropLast ++ [(N.rd :: N.tooth.dropLast).getLast hpre] = N.rd :: N.tooth.dropLast :=
      List.dropLast_append_getLast hpre
    rw [show (N.rd :: N.tooth.dropLast).dropLast ++ (N.rd :: N.tooth.dropLast).getLast hpre :: d :: N.ra :: N.mirror =
      ((N.rd :: N.tooth.dropLast).dropLast ++ [(N.rd :: N.tooth.dropLast).getLast hpre]) ++ (d :: N.ra :: N.mirror) by
      simp only [List.append_assoc, List.singleton_append], e, NurbProfile.profile]
    conv_lhs => rw [hsplit]
    simp
  obtain ⟨e, e1, -, e2⟩ := first_copy (t := t) (cont := cont) f hk0 hk hprof hdact krd kra kx kd kra
  rw [List.dropLast_append_getLast hpre] at e1
  refine ⟨_, d, e, by rw [boundarySplines, hN, p.pitch_eq]; rfl, ?_, kd.ends.2, e1, ?_⟩
  · rw [hd]; exact List.getLast?_eq_getLast_of_ne_nil hne
  · rw [e2, ← place_mid, cyl_mid]

/-- **C129 is violated for round gaps.** If the gap between two teeth has no bottom land, the first edge of the flank starts
half way between the bottom of the gap at radius `r` and the dedendum circle of radius `rD`. -/
theorem c129_gap_violated (hE : EulerOk asEuler)
    (h : OutlineOk o tooth T pitch r θ z0 ρ φ z1 rA rO zO coneAngle zc) (rD : ℝ)
    (ht : Path curveOps (members tooth) (T 0) (T 1)) (hex : ∃ c ∈ members tooth, c.active = true)
    (opt : ℕ → ℝ → Curve → ℕ → ℝ) (trf : GearTransform) (hθ : θ = -(pitch / 2)) (k : ℕ) (hk : pitch * k = 2 * π)
    (t : GearTransform) :
    ∃ P, closeProfile o asEuler tooth rA rD rO ![0, 0, zO] pitch = some P ∧
      ∀ N cont, profileToNurb members opt 4 2 trf P = some N →
        ∃ S d e, boundarySplines members opt cont trf t P = some S ∧ N.tooth.head? = some d ∧
          pieceFn (d.nurb.points, d.nurb.weights) 0 = some (applyGearTransform (cyl r θ z0) trf) ∧
          S.head? = some e ∧
          pieceFn e 0 = some (applyGearTransform (applyGearTransform (cyl ((rD + r) / 2) θ z0) trf) t) := by
  have hpp := h.tooth.pitchPos
  have hk0 : 0 < k := by
    rcases Nat.eq_zero_or_pos k with rfl | hk0
    · rw [Nat.cast_zero, mul_zero] at hk
      exact absurd hk.symm (by positivity)
    · exact hk0
  obtain ⟨P, hP, -, -, -, -, -, -, hra, hrd⟩ := close_facts hE h.tooth rA rD rO ![0, 0, zO]
  obtain ⟨P', E, p⟩ := parts_exist hE h rD ((2 * θ + pitch) / pitch) (by field_simp)
  rw [p.made] at hP
  obtain rfl := Option.some.inj hP
  refine ⟨P', p.made, fun N cont hN => ?_⟩
  have ht' : Path curveOps (members P'.tooth) (T 0) (T 1) := by rw [p.tooth_eq]; exact ht
  have hex' : ∃ c ∈ members P'.tooth, c.active = true := by rw [p.tooth_eq]; exact hex
  have f := nurb_facts (pitch := pitch) ht' hex' (by norm_num) (by norm_num) hN
  obtain ⟨t1, -, t3, -⟩ := tipArc hE h hra
  have kra := (f.ra _ _ t1 t3).2
  have hrs : rootStart T pitch = T 0 := by
    rw [show rootStart T pitch = cyl r (-θ - pitch) z0 by rw [rootStart_polar h.tooth, h.root]; simp [cyl], h.root]
    congr 1
    rw [hθ]; ring
  obtain ⟨q0, -, q⟩ : P'.rd.active = false ∧ rootStart T pitch = T 0 ∧
      ∀ s, 0 ≤ s → s ≤ 1 → P'.rd.eval s = some (cyl rD θ z0) := by
    rcases rootArc_ends hE h hrd with q | q
    · exfalso
      have hA : P'.rd.active = false := by
        rw [hrs, closingArc, if_neg (by rw [sub_self, norm3_eq_zero.2 rfl]; norm_num), h.root, midOnAxis_cyl] at hrd
        rw [← Option.some.inj hrd]
        exact (inactiveArc rD z0 θ h.tooth.rootPos (by linarith [h.rootAngle, pi_pos])
          (by linarith [h.tooth.angleLt, pi_pos])).1
      have hB : P'.rd.active = true := q.seg.active
      rw [hA] at hB
      cases hB
    · exact q
  have krd := (f.rd _ _ (q 0 le_rfl zero_le_one) (q 1 zero_le_one le_rfl)).2
  have hrdA : N.rd.active = false := f.rdActive.trans q0
  obtain ⟨ss, s1, s2, s3, s4, -⟩ := f.tooth
  have hT := s1.map fun p => applyGearTransform p trf
  rw [← move_nurbs, ← s4] at hT
  obtain ⟨d, ds, hds⟩ : ∃ d ds, N.tooth = d :: ds := by
    cases hN' : N.tooth with
    | nil => rw [s4] at hN'; simp [s3] at hN'
    | cons d ds => exact ⟨d, ds, rfl⟩
  have hmem : d ∈ N.tooth := by rw [hds]; simp
  have hdact : d.active = true := by
    rw [s4, List.mem_map] at hmem
    obtain ⟨w, hw, rfl⟩ := hmem
    exact s2 w hw
  obtain ⟨p0, q0', kd⟩ := hT.mem d.nurb (List.mem_map_of_mem hmem)
  obtain ⟨y, y1, y2, -⟩ := hT.first (by rw [hds]; simp)
  rw [hds, List.map_cons, List.head?_cons] at y1
  obtain rfl := Option.some.inj y1
  rw [kd.first] at y2
  rw [Option.some.inj y2, h.root] at kd
  obtain ⟨y, m, hym, p2, q2, ky⟩ : ∃ y m, ds ++ N.ra :: N.mirror = y :: m ∧ ∃ p q, PieceOk y.nurb p q := by
    cases hds' : ds with
    | nil => exact ⟨_, _, rfl, _, _, kra⟩
    | cons y m => exact ⟨_, _, rfl, hT.mem _ (List.mem_map_of_mem (by rw [hds, hds']; simp))⟩
  have hprof : N.profile = [] ++ N.rd :: d :: y :: m := by
    rw [NurbProfile.profile, hds, List.cons_append, List.cons_append, hym]; rfl
  obtain ⟨e, e1, e2, -⟩ := first_copy (t := t) (cont := cont) f hk0 hk hprof hdact krd kra krd kd ky
  refine ⟨_, d, e, by rw [boundarySplines, hN, p.pitch_eq]; rfl, by rw [hds]; rfl, kd.ends.1, ?_, ?_⟩
  · rw [List.head?_eq_getElem?, ← e1]
    simp [hrdA]
  · rw [e2, ← place_mid, cyl_mid]

theorem ext_base {opt : ℕ → ℝ → Curve → ℕ → ℝ} {n : ℕ} {ratio : ℝ} {trf : GearTransform} {E : ExtProfile α} {N : NurbProfileExt}
    (h : profileToNurbExt members opt n ratio trf E = some N) :
    profileToNurb members opt n ratio trf E.base = some N.base := by
  simp only [profileToNurbExt, Option.bind_eq_bind, Option.bind_eq_some_iff] at h
  obtain ⟨B, h1, c0, -, c2, -, h4⟩ := h
  obtain rfl := Option.some.inj h4
  exact h1

/-- The conversion of one slice succeeds; from C128. -/
theorem base_converts (hE : EulerOk asEuler)
    (h : OutlineOk o tooth T pitch r θ z0 ρ φ z1 rA rO zO 0 zc) (hrD : 0 < rD) (hp3 : pitch < π)
    (ht : Path curveOps (members tooth) (T 0) (T 1)) (hex : ∃ c ∈ members tooth, c.active = true)
    (hm : ∀ c ∈ members tooth, Exact c ∨ ∃ f k, c.kind = .generic f k)
    (opt : ℕ → ℝ → Curve → ℕ → ℝ) (trf : GearTransform)
    (hP : closeProfile o asEuler tooth rA rD rO ![0, 0, zO] pitch = some P) :
    ∃ N, profileToNurb members opt 4 2 trf P = some N := by
  have hpp := h.tooth.pitchPos
  obtain ⟨P', E, N, e1, e2, e3⟩ := c128_converts hE h rD ((2 * θ + pitch) / pitch) hrD hp3 (by field_simp) ht hex hm opt 4
    (by norm_num) 2 (by norm_num) trf
  obtain ⟨P'', E', p⟩ := parts_exist hE h rD ((2 * θ + pitch) / pitch) (by field_simp)
  rw [p.made] at hP e1
  obtain rfl := Option.some.inj hP
  obtain rfl := Option.some.inj e1
  rw [p.ext] at e2
  obtain rfl := Option.some.inj e2
  have := ext_base e3
  rw [p.base] at this
  exact ⟨_, this⟩

end

theorem line_members {q : V3} (hq : q 1 ≠ -1) :
    Path curveOps [lineC ![√3, -1, 0] q] (lineFlank q 0) (lineFlank q 1) ∧
      (∃ c ∈ [lineC ![√3, -1, 0] q], c.active = true) ∧
      ∀ c ∈ [lineC ![√3, -1, 0] q], Exact c ∨ ∃ f k, c.kind = .generic f k := by
  have hl : Plain (lineC ![√3, -1, 0] q) (lineFlank q 0) (lineFlank q 1) := by
    have hne : (![√3, -1, 0] : V3) ≠ q := by
      intro e
      rw [← e] at hq
      exact hq (by simp)
    rw [show lineFlank q 0 = ![√3, -1, 0] by simp [lineFlank], show lineFlank q 1 = q by simp [lineFlank]]
    exact line_plain hne
  refine ⟨.cons hl.seg (.nil _), ⟨_, by simp, hl.seg.active⟩, fun c hc => ?_⟩
  rw [List.mem_singleton] at hc
  rw [hc]
  exact Or.inl (Or.inl ⟨_, _, made_kind _ _ _⟩)

theorem place_unit (p : V3) : applyGearTransform p ⟨⟨ORIGIN, 1, 1⟩, 0⟩ = p := by
  rw [applyGearTransform_eq, app_one, Rz_zero, app_one, one_smul]
  apply V3.ext3 <;> simp [ORIGIN]

/-- Concrete case for C129: the tooth of C128 with a tip land. -/
example (opt : ℕ → ℝ → Curve → ℕ → ℝ) (cont : List (Nurb V3) → Bool) (t : GearTransform) :
    ∃ asEuler P S, closeProfile curveOps asEuler (lineC ![√3, -1, 0] ![3, -1 / 2, 0]) (√(37 / 4)) 2 1 ![0, 0, 0]
        (π / 2) = some P ∧
      boundarySplines (fun c => [c]) opt cont ⟨⟨ORIGIN, 1, 1⟩, 0⟩ t P = some S ∧ ∃ a, Spec.Wire (S.map pieceFn) a a := by
  obtain ⟨asEuler, hE⟩ := eulerOk_exists
  obtain ⟨m1, m2, m3⟩ := line_members (q := ![3, -1 / 2, 0]) (by norm_num)
  have h6 : arctan (1 / 6 : ℝ) ≠ 0 := (arctan_pos.2 (by norm_num)).ne'
  obtain ⟨P, hP, h⟩ := c129_boundary_partial (members := fun c => [c]) hE exampleOutline 2 m1 m2 opt ⟨⟨ORIGIN, 1, 1⟩, 0⟩ rfl
    (by simp [ORIGIN]) (by simp [ORIGIN]) (neg_ne_zero.2 h6) (by have := pi_pos; intro e; linarith) 4 (by push_cast; ring) t
  obtain ⟨N, hN⟩ := base_converts (members := fun c => [c]) hE exampleOutline (rD := 2) (by norm_num) (by linarith [pi_pos])
    m1 m2 m3 opt ⟨⟨ORIGIN, 1, 1⟩, 0⟩ hP
  obtain ⟨S, h1, -, h2⟩ := h N cont hN
  exact ⟨asEuler, P, S, hP, h1, h2⟩

theorem pointedOutline : OutlineOk curveOps (lineC ![√3, -1, 0] ![3, 0, 0]) (lineFlank ![3, 0, 0]) (π / 2) 2 (-(π / 6)) 0
    3 0 0 4 1 0 0 0 := by
  have hpi := pi_pos
  have hq0 : (0 : ℝ) < (![3, 0, 0] : V3) 0 := by simp
  have hq1 : (![3, 0, 0] : V3) 1 ≠ -1 := by norm_num
  refine ⟨lineFlank_ok hq0 hq1, ⟨Or.inl (lineFlank_root _ hq0 hq1), Or.inr ?_⟩, by linarith, ?_, ?_, ?_, by norm_num,
    by linarith, le_rfl, by linarith, by norm_num, by norm_num, ?_, ?_⟩
  · apply V3.ext3 <;> simp [lineFlank, flipY]
  · apply V3.ext3
    · simp [lineFlank, cyl]; ring
    · simp [lineFlank, cyl]
    · simp [lineFlank, cyl]
  · apply V3.ext3 <;> simp [lineFlank, cyl]
  · intro e
    have := congrFun e 1
    simp [lineFlank] at this
  · rw [JoinOk, if_pos rfl]; left; norm_num
  · rw [JoinOk, if_pos rfl]; left; norm_num

/-- Four pointed teeth with the tip at radius 3 and an addendum circle of radius 4: the flank of the first tooth is exported
with its end at radius 3.5. -/
theorem c129_pointed_case (opt : ℕ → ℝ → Curve → ℕ → ℝ) (cont : List (Nurb V3) → Bool) :
    ∃ asEuler P S e, EulerOk asEuler ∧ lineFlank ![3, 0, 0] 1 = ![3, 0, 0] ∧
      closeProfile curveOps asEuler (lineC ![√3, -1, 0] ![3, 0, 0]) 4 2 1 ![0, 0, 0] (π / 2) = some P ∧
      boundarySplines (fun c => [c]) opt cont ⟨⟨ORIGIN, 1, 1⟩, 0⟩ ⟨⟨ORIGIN, 1, 1⟩, 0⟩ P = some S ∧ e ∈ S ∧
      pieceFn e 1 = some ![7 / 2, 0, 0] := by
  obtain ⟨asEuler, hE⟩ := eulerOk_exists
  obtain ⟨m1, m2, m3⟩ := line_members (q := ![3, 0, 0]) (by norm_num)
  obtain ⟨P, hP, h⟩ := c129_pointed_violated (members := fun c => [c]) hE pointedOutline 2 m1 m2 opt ⟨⟨ORIGIN, 1, 1⟩, 0⟩ rfl
    4 (by push_cast; ring) ⟨⟨ORIGIN, 1, 1⟩, 0⟩
  obtain ⟨N, hN⟩ := base_converts (members := fun c => [c]) hE pointedOutline (rD := 2) (by norm_num) (by linarith [pi_pos])
    m1 m2 m3 opt ⟨⟨ORIGIN, 1, 1⟩, 0⟩ hP
  obtain ⟨S, d, e, h1, -, -, h4, h5⟩ := h N cont hN
  refine ⟨asEuler, P, S, e, hE, by simp [lineFlank], hP, h1, List.mem_of_getElem? h4, ?_⟩
  rw [h5, place_unit, place_unit]
  congr 1
  apply V3.ext3 <;> simp [cyl] <;> norm_num

theorem gapOutline : OutlineOk curveOps (lineC ![√3, -1, 0] ![3, -1 / 2, 0]) (lineFlank ![3, -1 / 2, 0]) (π / 3) 2 (-(π / 6)) 0
    (√(37 / 4)) (-arctan (1 / 6)) 0 (√(37 / 4)) (1 / 2) 0 0 0 := by
  have hpi := pi_pos
  have hq0 : (0 : ℝ) < (![3, -1 / 2, 0] : V3) 0 := by simp
  have hq1 : (![3, -1 / 2, 0] : V3) 1 ≠ -1 := by norm_num
  have he := exampleOutline
  have heq : lineFlank ![3, -1 / 2, 0] = exampleFlank := rfl
  have ht : ToothOk curveOps (lineC ![√3, -1, 0] ![3, -1 / 2, 0]) exampleFlank (π / 3) 2 (-(π / 6)) :=
    ⟨he.tooth.active, he.tooth.fix, he.tooth.len, he.tooth.eval, he.tooth.cont, he.tooth.distinct, by linarith, by linarith,
      he.tooth.rootPos, he.tooth.rootX, he.tooth.rootY, by linarith, he.tooth.angleLt, he.tooth.tip⟩
  have h1 : 0 < arctan (1 / 6 : ℝ) := arctan_pos.2 (by norm_num)
  have h2 : arctan (1 / 6 : ℝ) < π / 6 := by
    rw [← arctan_inv_sqrt_three]
    apply arctan_strictMono
    rw [one_div, inv_lt_inv₀ (by norm_num) (by positivity)]
    rw [sqrt_lt' (by norm_num)]; norm_num
  rw [heq]
  refine ⟨ht, ⟨Or.inr ?_, he.gaps.2⟩, he.rootAngle, he.root, he.tip, he.apart, he.tipPos, by linarith, he.tipLe, by linarith,
    he.addPos, by norm_num, ?_, he.joinMid⟩
  · rw [show rootStart exampleFlank (π / 3) = cyl 2 (-(-(π / 6)) - π / 3) 0 by
      rw [rootStart_polar ht, he.root]; simp [cyl], he.root]
    congr 1
    ring
  · rw [JoinOk, if_pos rfl]; left; norm_num

/-- Six teeth without bottom land: the flanks meet at radius 2, the dedendum circle has radius 1. The first flank is exported
with its start at radius 1.5. -/
theorem c129_gap_case (opt : ℕ → ℝ → Curve → ℕ → ℝ) (cont : List (Nurb V3) → Bool) :
    ∃ asEuler P S e, EulerOk asEuler ∧ lineFlank ![3, -1 / 2, 0] 0 = cyl 2 (-(π / 6)) 0 ∧
      closeProfile curveOps asEuler (lineC ![√3, -1, 0] ![3, -1 / 2, 0]) (√(37 / 4)) 1 (1 / 2) ![0, 0, 0] (π / 3) = some P ∧
      boundarySplines (fun c => [c]) opt cont ⟨⟨ORIGIN, 1, 1⟩, 0⟩ ⟨⟨ORIGIN, 1, 1⟩, 0⟩ P = some S ∧ S.head? = some e ∧
      pieceFn e 0 = some (cyl (3 / 2) (-(π / 6)) 0) := by
  obtain ⟨asEuler, hE⟩ := eulerOk_exists
  obtain ⟨m1, m2, m3⟩ := line_members (q := ![3, -1 / 2, 0]) (by norm_num)
  obtain ⟨P, hP, h⟩ := c129_gap_violated (members := fun c => [c]) hE gapOutline 1 m1 m2 opt ⟨⟨ORIGIN, 1, 1⟩, 0⟩ (by ring)
    6 (by push_cast; ring) ⟨⟨ORIGIN, 1, 1⟩, 0⟩
  obtain ⟨N, hN⟩ := base_converts (members := fun c => [c]) hE gapOutline (rD := 1) (by norm_num) (by linarith [pi_pos])
    m1 m2 m3 opt ⟨⟨ORIGIN, 1, 1⟩, 0⟩ hP
  obtain ⟨S, d, e, h1, -, -, h4, h5⟩ := h N cont hN
  refine ⟨asEuler, P, S, e, hE, gapOutline.root, hP, h1, h4, ?_⟩
  rw [h5, place_unit, place_unit]
  norm_num

end Verif
