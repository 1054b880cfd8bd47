import Verif.Model.PartState
import Verif.Props.Reported

/-! # Property C149: the part follows the gear -/

namespace Verif

open Real

/-- scipy's contract for degrees. -/
def EulerDeg (euler : M3 → Fin 3 → ℝ) : Prop :=
  ∀ R, IsRot R → eulerZYX (euler R 0 * π / 180) (euler R 1 * π / 180) (euler R 2 * π / 180) = R

/-- Such a function exists. -/
theorem eulerDeg_exists : ∃ euler, EulerDeg euler := by
  have h : ∀ R : M3, ∃ d : Fin 3 → ℝ, IsRot R → eulerZYX (d 0 * π / 180) (d 1 * π / 180) (d 2 * π / 180) = R := by
    intro R
    by_cases hR : IsRot R
    · obtain ⟨d, hd⟩ := c19_euler_exists hR
      exact ⟨d, fun _ => hd⟩
    · exact ⟨0, fun h => absurd h hR⟩
  choose e he using h
  exact ⟨e, he⟩

/-- The world before the first call. -/
def PartWorld.empty : PartWorld := ⟨[], fun _ => none⟩

variable {solve : (ℝ → ℝ) → ℝ} {euler : M3 → Fin 3 → ℝ} {solidOf : Option ℕ → Option ℕ → GearObj → Option (Set V3)}

theorem build_gears {w w' : PartWorld} {k : ℕ} {a b : Option ℕ} (e : w.build euler solidOf k a b = some w') :
    w'.gears = w.gears := by
  rw [PartWorld.build, Option.bind_eq_some_iff] at e
  obtain ⟨g, -, e⟩ := e
  obtain ⟨S, -, rfl⟩ := Option.map_eq_some_iff.1 e
  rfl

theorem update_gears {w w' : PartWorld} {k : ℕ} (e : w.update euler solidOf k = some w') : w'.gears = w.gears := by
  rw [PartWorld.update, Option.bind_eq_some_iff] at e
  obtain ⟨w1, e1, e⟩ := e
  have h1 : w1.gears = w.gears := by
    split_ifs at e1
    · exact build_gears e1
    · rw [Option.some.injEq] at e1; rw [e1]
  split at e
  · rw [Option.some.injEq] at e; rw [← e]; exact h1
  · simp at e

/-- Every gear of a history is at a rotation. -/
theorem runParts_rot {ops : List PartOp} {w : PartWorld} (e : runParts solve euler solidOf .empty ops = some w) :
    ∀ g ∈ w.gears, IsRot g.transform.orientation := by
  have key : ∀ (ops : List PartOp) (w0 w : PartWorld), (∀ g ∈ w0.gears, g.Sound) →
      runParts solve euler solidOf w0 ops = some w → ∀ g ∈ w.gears, g.Sound := by
    intro ops
    induction ops with
    | nil => intro w0 w h e; simp only [runParts, Option.some.injEq] at e; rw [← e]; exact h
    | cons op ops ih =>
      intro w0 w h e
      simp only [runParts] at e
      obtain ⟨w1, e1, e2⟩ := Option.bind_eq_some_iff.1 e
      refine ih w1 w ?_ e2
      cases op with
      | move op =>
        simp only [PartOp.step] at e1
        obtain ⟨gs, eg, rfl⟩ := Option.map_eq_some_iff.1 e1
        exact step_sound h eg
      | build k a b => rw [build_gears e1]; exact h
      | update k => rw [update_gears e1]; exact h
  exact fun g hg => (key ops .empty w (by simp [PartWorld.empty]) e g hg).rot

theorem place_eq (hE : EulerDeg euler) {g : GearObj} (hg : IsRot g.transform.orientation) (S : Set V3) :
    placePart euler g S = (fun p => applyGearTransform p g.transform) '' S := by
  rw [placePart]
  congr 1
  funext p
  exact (c19_location g.transform _ (hE _ hg) p).2

/-- The builder of gear `k` holds the solid made with these arguments. -/
def HoldsSolid (solidOf : Option ℕ → Option ℕ → GearObj → Option (Set V3)) (w : PartWorld) (k : ℕ) (a b : Option ℕ) : Prop :=
  ∃ g p, w.gears[k]? = some g ∧ w.built k = some p ∧ solidOf a b g.atHome = some p.solid

theorem build_holds {w w' : PartWorld} {k : ℕ} {a b : Option ℕ} (e : w.build euler solidOf k a b = some w') :
    HoldsSolid solidOf w' k a b := by
  rw [PartWorld.build, Option.bind_eq_some_iff] at e
  obtain ⟨g, hg, e⟩ := e
  obtain ⟨S, hS, rfl⟩ := Option.map_eq_some_iff.1 e
  exact ⟨g, ⟨S, _⟩, hg, Function.update_self .., hS⟩

theorem build_other {w w' : PartWorld} {j k : ℕ} {a b : Option ℕ} (e : w.build euler solidOf k a b = some w') (h : j ≠ k) :
    w'.built j = w.built j := by
  rw [PartWorld.build, Option.bind_eq_some_iff] at e
  obtain ⟨g, hg, e⟩ := e
  obtain ⟨S, hS, rfl⟩ := Option.map_eq_some_iff.1 e
  simp [Function.update_of_ne h]

theorem update_other {w w' : PartWorld} {j k : ℕ} (e : w.update euler solidOf k = some w') (h : j ≠ k) :
    w'.built j = w.built j := by
  rw [PartWorld.update, Option.bind_eq_some_iff] at e
  obtain ⟨w1, e1, e⟩ := e
  have h1 : w1.built j = w.built j := by
    split_ifs at e1
    · exact build_other e1 h
    · rw [Option.some.injEq] at e1; rw [e1]
  split at e
  · rw [Option.some.injEq] at e; rw [← e]; simp [Function.update_of_ne h, h1]
  · simp at e

/-- With a builder, `update_part` is `build_part` with the arguments of the last build. -/
theorem update_eq_build {w : PartWorld} {k : ℕ} {a b : Option ℕ} (h : HoldsSolid solidOf w k a b) :
    w.update euler solidOf k = w.build euler solidOf k a b := by
  obtain ⟨g, p, hg, hp, hS⟩ := h
  rw [PartWorld.update, if_neg (by rw [hp]; simp), Option.bind_some, PartWorld.build]
  simp only [hg, hp, hS, Option.bind_some, Option.map_some]

/-- Without one, it is `build_part()`. -/
theorem update_eq_first {w : PartWorld} {k : ℕ} (h : w.built k = none) :
    w.update euler solidOf k = w.build euler solidOf k none none := by
  rw [PartWorld.update, if_pos (by rw [h]; rfl)]
  cases e : w.build euler solidOf k none none with
  | none => rfl
  | some w1 =>
    rw [Option.bind_some]
    have e' := e
    rw [PartWorld.build, Option.bind_eq_some_iff] at e'
    obtain ⟨g, hg, e'⟩ := e'
    obtain ⟨S, hS, rfl⟩ := Option.map_eq_some_iff.1 e'
    simp [hg]

/-- **C149, position.** After any history of calls, a `build_part` or `update_part` on a gear gives the solid of that gear
placed by the gear's current transformation. It moves no gear and leaves the parts of all other gears as they are. -/
theorem c149_placed (hE : EulerDeg euler) (ops : List PartOp) (w w' : PartWorld) (k : ℕ) (op : PartOp)
    (hop : op = .update k ∨ ∃ a b, op = .build k a b) (e : runParts solve euler solidOf .empty ops = some w)
    (e' : op.step solve euler solidOf w = some w') :
    w'.gears = w.gears ∧ (∀ j ≠ k, w'.built j = w.built j) ∧ ∃ g p, w.gears[k]? = some g ∧ w'.built k = some p ∧
      p.placed = (fun x => applyGearTransform x g.transform) '' p.solid := by
  have hb : ∀ a b, w.build euler solidOf k a b = some w' → ∃ g p, w.gears[k]? = some g ∧ w'.built k = some p ∧
      p.placed = (fun x => applyGearTransform x g.transform) '' p.solid := by
    intro a b e
    rw [PartWorld.build, Option.bind_eq_some_iff] at e
    obtain ⟨g, hg, e⟩ := e
    obtain ⟨S, hS, rfl⟩ := Option.map_eq_some_iff.1 e
    exact ⟨g, _, hg, Function.update_self ..,
      place_eq hE (runParts_rot (by assumption) g (List.mem_of_getElem? hg)) S⟩
  rcases hop with rfl | ⟨a, b, rfl⟩
  · refine ⟨update_gears e', fun j hj => update_other e' hj, ?_⟩
    simp only [PartOp.step] at e'
    have e2 := e'
    rw [PartWorld.update, Option.bind_eq_some_iff] at e2
    obtain ⟨w1, e1, e2⟩ := e2
    have h1 : w1.gears = w.gears := by
      split_ifs at e1
      · exact build_gears e1
      · rw [Option.some.injEq] at e1; rw [e1]
    split at e2
    · rename_i g p hg hp
      rw [Option.some.injEq] at e2
      rw [h1] at hg
      refine ⟨g, _, hg, by rw [← e2]; exact Function.update_self ..,
        place_eq hE (runParts_rot e g (List.mem_of_getElem? hg)) _⟩
    · simp at e2
  · exact ⟨build_gears e', fun j hj => build_other e' hj, hb a b e'⟩

/-- **C149, `update_part` is as good as a new build.** Whatever happened to the gears since the last `build_part` of gear `k`
(placing and meshing any gear, new gears, builds of other gears, updates): `update_part` gives exactly what `build_part` with
the same arguments would give now. Before the first build it gives what `build_part()` gives. -/
theorem c149_as_new (w0 w1 w : PartWorld) (k : ℕ) (a b : Option ℕ) (ops : List PartOp)
    (e0 : (PartOp.build k a b).step solve euler solidOf w0 = some w1) (e : runParts solve euler solidOf w1 ops = some w)
    (hops : ∀ a b, PartOp.build k a b ∉ ops) :
    (PartOp.update k).step solve euler solidOf w = (PartOp.build k a b).step solve euler solidOf w := by
  have key : ∀ (ops : List PartOp) (w1 w : PartWorld), HoldsSolid solidOf w1 k a b →
      runParts solve euler solidOf w1 ops = some w → (∀ a b, PartOp.build k a b ∉ ops) → HoldsSolid solidOf w k a b := by
    intro ops
    induction ops with
    | nil => intro w1 w h e _; simp only [runParts, Option.some.injEq] at e; rw [← e]; exact h
    | cons op ops ih =>
      intro w1 w h e hn
      simp only [runParts] at e
      obtain ⟨w2, e1, e2⟩ := Option.bind_eq_some_iff.1 e
      refine ih w2 w ?_ e2 fun a b hm => hn a b (List.mem_cons_of_mem _ hm)
      cases op with
      | move op =>
        simp only [PartOp.step] at e1
        obtain ⟨gs, eg, rfl⟩ := Option.map_eq_some_iff.1 e1
        obtain ⟨g, p, hg, hp, hS⟩ := h
        obtain ⟨c, o, t, hg'⟩ := step_placedAt eg hg
        exact ⟨_, p, hg', hp, hS⟩
      | build j a' b' =>
        have hj : k ≠ j := by rintro rfl; exact hn a' b' List.mem_cons_self
        obtain ⟨g, p, hg, hp, hS⟩ := h
        exact ⟨g, p, by rw [build_gears e1, hg], by rw [build_other e1 hj, hp], hS⟩
      | update j =>
        by_cases hj : k = j
        · subst hj
          simp only [PartOp.step] at e1
          rw [update_eq_build h] at e1
          exact build_holds e1
        · obtain ⟨g, p, hg, hp, hS⟩ := h
          exact ⟨g, p, by rw [update_gears e1, hg], by rw [update_other e1 hj, hp], hS⟩
  exact update_eq_build (key ops w1 w (build_holds e0) e hops)

/-- **C149, first part.** `update_part` of a gear that was never built gives what `build_part()` gives. -/
theorem c149_first (ops : List PartOp) (w : PartWorld) (k : ℕ) (e : runParts solve euler solidOf .empty ops = some w)
    (hb : ∀ a b, PartOp.build k a b ∉ ops) (hu : PartOp.update k ∉ ops) :
    (PartOp.update k).step solve euler solidOf w = (PartOp.build k none none).step solve euler solidOf w := by
  have key : ∀ (ops : List PartOp) (w0 w : PartWorld), w0.built k = none → runParts solve euler solidOf w0 ops = some w →
      (∀ a b, PartOp.build k a b ∉ ops) → PartOp.update k ∉ ops → w.built k = none := by
    intro ops
    induction ops with
    | nil => intro w0 w h e _ _; simp only [runParts, Option.some.injEq] at e; rw [← e]; exact h
    | cons op ops ih =>
      intro w0 w h e hb hu
      simp only [runParts] at e
      obtain ⟨w1, e1, e2⟩ := Option.bind_eq_some_iff.1 e
      refine ih w1 w ?_ e2 (fun a b hm => hb a b (List.mem_cons_of_mem _ hm)) fun hm => hu (List.mem_cons_of_mem _ hm)
      cases op with
      | move op =>
        simp only [PartOp.step] at e1
        obtain ⟨gs, eg, rfl⟩ := Option.map_eq_some_iff.1 e1
        exact h
      | build j a b =>
        have hj : k ≠ j := by rintro rfl; exact hb a b List.mem_cons_self
        rw [build_other e1 hj, h]
      | update j =>
        have hj : k ≠ j := by rintro rfl; exact hu List.mem_cons_self
        rw [update_other e1 hj, h]
  exact update_eq_first (key ops .empty w rfl e hb hu)

/-- A gear that is built, moved and updated: the part is at the new place; without the update it would be at the old one. -/
theorem c149_case (hE : EulerDeg euler) (p : InvParam) (hc : p.center = 0) :
    ∃ w w', runParts (fun _ => 0) euler (fun _ _ _ => some {0}) .empty
        [.move (.construct false p 0), .build 0 none none, .move (.setCenter 0 UP)] = some w ∧
      (PartOp.update 0).step (fun _ => 0) euler (fun _ _ _ => some {0}) w = some w' ∧
      (∃ b, w.built 0 = some b ∧ b.placed = {0}) ∧ ∃ b, w'.built 0 = some b ∧ b.placed = {UP} := by
  obtain ⟨g, hg⟩ : ∃ g, g = p.construct .involute 0 := ⟨_, rfl⟩
  have hctr : g.transform.center = 0 := by
    rw [hg]; simp only [InvParam.construct, InvParam.normalise]; split_ifs <;> exact hc
  have hrot : IsRot g.transform.orientation := by
    have := c36_history (fun _ => 0) [.construct false p 0] [g] (by rw [hg]; simp [runOps, GearOp.step]) g (by simp)
    exact this.1
  have hpl : ∀ g : GearObj, IsRot g.transform.orientation → placePart euler g {0} = {g.transform.center} := by
    intro g hg
    rw [place_eq hE hg, Set.image_singleton, applyGearTransform_eq]
    congr 1
    apply V3.ext3 <;> simp [app]
  refine ⟨⟨[g.setCenter UP], Function.update (fun _ => none) 0 (some ⟨{0}, placePart euler g {0}⟩)⟩,
    ⟨[g.setCenter UP], Function.update (Function.update (fun _ => none) 0 (some ⟨{0}, placePart euler g {0}⟩)) 0
      (some ⟨{0}, placePart euler (g.setCenter UP) {0}⟩)⟩, ?_, ?_, ?_, ?_⟩
  · simp [runParts, PartOp.step, GearOp.step, PartWorld.empty, PartWorld.build, ← hg]
  · simp only [PartOp.step]
    rw [update_eq_build (a := none) (b := none) ⟨g.setCenter UP, ⟨{0}, placePart euler g {0}⟩, rfl, by simp, rfl⟩]
    rfl
  · exact ⟨⟨{0}, placePart euler g {0}⟩, by simp only [Function.update_self], by rw [hpl g hrot, hctr]⟩
  · exact ⟨⟨{0}, placePart euler (g.setCenter UP) {0}⟩, by simp only [Function.update_self],
      hpl (g.setCenter UP) hrot⟩

end Verif
