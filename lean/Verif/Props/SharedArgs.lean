import Verif.Spec.SharedArgs
import Verif.Props.CoreGear

/-! # Property C136: core gears and the objects they are made from -/

namespace Verif

open Real

/-! ## Lookups -/

theorem sight_some {H : CoreHeap} {a : ℕ} {s : GearSight} (h : H.sight a = some s) :
    ∃ g r T G, H.gears[a]? = some g ∧ H.recipes[g.recipe]? = some r ∧ H.transforms[g.transform]? = some T ∧
      H.gens[r.gen]? = some G ∧ s = g.sight r T G := by
  unfold CoreHeap.sight at h
  cases hg : H.gears[a]? with
  | none => simp [hg] at h
  | some g =>
    cases hr : H.recipes[g.recipe]? with
    | none => simp [hg, hr] at h
    | some r =>
      cases hT : H.transforms[g.transform]? with
      | none => simp [hg, hr, hT] at h
      | some T =>
        simp only [hg, hr, hT, Option.map_eq_some_iff] at h
        obtain ⟨G, hG, e⟩ := h
        exact ⟨g, r, T, G, rfl, hr, hT, hG, e.symm⟩

theorem sight_mk {H : CoreHeap} {a : ℕ} {g : GearRec} {r : RecipeObj} {T : GearTransform} {G : FlankGen}
    (hg : H.gears[a]? = some g) (hr : H.recipes[g.recipe]? = some r) (hT : H.transforms[g.transform]? = some T)
    (hG : H.gens[r.gen]? = some G) : H.sight a = some (g.sight r T G) := by
  simp [CoreHeap.sight, hg, hr, hT, hG]

/-- Different places of the list have different keys. -/
def KeyInj {α : Type} (f : α → ℕ) (l : List α) : Prop :=
  ∀ (i j : ℕ) (x y : α), l[i]? = some x → l[j]? = some y → f x = f y → i = j

theorem keyInj_append {α : Type} {f : α → ℕ} {l : List α} {a : α} (h : KeyInj f l) (ha : ∀ x ∈ l, f x ≠ f a) :
    KeyInj f (l ++ [a]) := by
  intro i j x y hx hy e
  have key : ∀ (k : ℕ) z, (l ++ [a])[k]? = some z → (l[k]? = some z) ∨ (k = l.length ∧ z = a) := by
    intro (k : ℕ) z hz
    rcases lt_or_ge k l.length with hk | hk
    · left; rwa [List.getElem?_append_left hk] at hz
    · right
      rw [List.getElem?_append_right hk] at hz
      obtain ⟨h1, h2⟩ := List.getElem?_eq_some_iff.1 hz
      simp only [List.length_singleton] at h1
      refine ⟨by omega, ?_⟩
      simp only [List.getElem_singleton] at h2
      exact h2.symm
  rcases key i x hx with h1 | ⟨h1, rfl⟩ <;> rcases key j y hy with h2 | ⟨h2, rfl⟩
  · exact h i j x y h1 h2 e
  · exact absurd e (ha x (List.mem_of_getElem? h1))
  · exact absurd e.symm (ha y (List.mem_of_getElem? h2))
  · omega

theorem keyInj_set {α : Type} {f : α → ℕ} {l : List α} {k : ℕ} {a b : α} (h : KeyInj f l) (hk : l[k]? = some b)
    (ha : f a = f b ∨ ∀ x ∈ l, f x ≠ f a) : KeyInj f (l.set k a) := by
  intro i j x y hx hy e
  have hl : k < l.length := (List.getElem?_eq_some_iff.1 hk).1
  have key : ∀ (m : ℕ) z, (l.set k a)[m]? = some z → (m ≠ k ∧ l[m]? = some z) ∨ (m = k ∧ z = a) := by
    intro m z hz
    by_cases hm : m = k
    · subst hm
      rw [List.getElem?_set_self hl] at hz
      exact Or.inr ⟨rfl, (Option.some.inj hz).symm⟩
    · rw [List.getElem?_set_ne (Ne.symm hm)] at hz
      exact Or.inl ⟨hm, hz⟩
  rcases key i x hx with ⟨m1, h1⟩ | ⟨h1, rfl⟩ <;> rcases key j y hy with ⟨m2, h2⟩ | ⟨h2, rfl⟩
  · exact h i j x y h1 h2 e
  · rcases ha with ha | ha
    · exact absurd (h i k x b h1 hk (e.trans ha)) m1
    · exact absurd e (ha x (List.mem_of_getElem? h1))
  · rcases ha with ha | ha
    · exact absurd (h j k y b h2 hk (e.symm.trans ha)) m2
    · exact absurd e.symm (ha y (List.mem_of_getElem? h2))
  · omega

/-- The references are valid, and no two gears or recipes share an object. -/
structure Apart (H : CoreHeap) : Prop where
  gear : ∀ g ∈ H.gears, g.gen < H.gens.length ∧ g.recipe < H.recipes.length ∧ g.transform < H.transforms.length
  recipe : ∀ r ∈ H.recipes, r.gen < H.gens.length
  recipes : KeyInj GearRec.recipe H.gears
  transforms : KeyInj GearRec.transform H.gears
  gens : KeyInj RecipeObj.gen H.recipes

theorem newGear_some {H H' : CoreHeap} {zVals : List ℝ} {m : ℝ} {tooth : GearToothParam}
    {gen recipe transform cone : Option ℕ} (h : H.newGear zVals m tooth gen recipe transform cone = some H') :
    ∃ gens recipes transforms cones g r t, H' = ⟨gens, recipes, transforms, cones, H.gears ++ [⟨m, zVals, tooth, g, r, t⟩]⟩ ∧
      H.gens.length ≤ gens.length ∧
      (∀ i < H.gens.length, recipe ≠ none ∨ gen ≠ some i → gens[i]? = H.gens[i]?) ∧
      ((gen = some g ∧ gens.length = H.gens.length) ∨ (gen = none ∧ g = H.gens.length ∧ gens.length = H.gens.length + 1)) ∧
      ((recipe = some r ∧ recipes = H.recipes) ∨ (recipe = none ∧ r = H.recipes.length ∧
        ∃ gamma G rec, (∀ i, gen = some i → H.gens[i]? = some G) ∧ (gen = none → G = .default) ∧
          (cone = none → gamma = 0) ∧ (∀ k, cone = some k → ∃ c, H.cones[k]? = some c ∧ gamma = c.gamma) ∧
          rec = gearRecipeFromCurve tooth.numTeeth (defaultRefCurve tooth.numTeeth gamma zVals).eval
            (fun z => z / (zVals.getLastD 0 - zVals.headD 0)) DELTA ∧
          gens[g]? = some (G.fit tooth.numTeeth gamma rec) ∧
          recipes = H.recipes ++ [⟨if gamma = 0 then fun z => (rec z).map fun s => { s with coneAngle := 0 } else rec, g⟩])) ∧
      ((transform = some t ∧ transforms = H.transforms) ∨ (transform = none ∧ t = H.transforms.length ∧
        transforms = H.transforms ++ [{ GearTransform.default with scale := m }])) ∧
      (cone = none → cones = H.cones) ∧
      ∀ k, cone = some k → ∃ c, H.cones[k]? = some c ∧ cones = H.cones.set k { c with baseRadius := tooth.numTeeth / 2 } := by
  rw [CoreHeap.newGear] at h
  obtain ⟨H1, g, hg, hgen⟩ : ∃ H1 g, H.takeGen gen = (H1, g) ∧ ∃ l, H1 = { H with gens := H.gens ++ l } ∧
      ((gen = some g ∧ l = []) ∨ (gen = none ∧ g = H.gens.length ∧ l = [.default])) := by
    cases gen with
    | none => exact ⟨_, _, rfl, _, rfl, Or.inr ⟨rfl, rfl, rfl⟩⟩
    | some i => exact ⟨_, _, rfl, [], by simp, Or.inl ⟨rfl, rfl⟩⟩
  obtain ⟨l, rfl, hl⟩ := hgen
  simp only [hg] at h
  cases hc : CoreHeap.takeCone { H with gens := H.gens ++ l } tooth.numTeeth cone with
  | none => simp [hc] at h
  | some w =>
  obtain ⟨H2, gamma⟩ := w
  simp only [hc] at h
  obtain ⟨cones, rfl, hc1, hc2, hc3⟩ : ∃ cones, H2 = { H with gens := H.gens ++ l, cones := cones } ∧
      (cone = none → gamma = 0 ∧ cones = H.cones) ∧ (∀ k, cone = some k → ∃ c, H.cones[k]? = some c ∧ gamma = c.gamma) ∧
      ∀ k, cone = some k → ∃ c, H.cones[k]? = some c ∧
        cones = H.cones.set k { c with baseRadius := tooth.numTeeth / 2 } := by
    cases cone with
    | none =>
      simp only [CoreHeap.takeCone, Option.some.injEq, Prod.mk.injEq] at hc
      obtain ⟨rfl, rfl⟩ := hc
      exact ⟨_, rfl, by simp, by simp, by simp⟩
    | some k =>
      rw [CoreHeap.takeCone] at hc
      cases hk : H.cones[k]? with
      | none => simp [hk] at hc
      | some c =>
        simp only [hk, Option.some.injEq, Prod.mk.injEq] at hc
        obtain ⟨rfl, rfl⟩ := hc
        exact ⟨_, rfl, by simp, by rintro _ ⟨⟩; exact ⟨c, hk, rfl⟩, by rintro _ ⟨⟩; exact ⟨c, hk, rfl⟩⟩
  cases hr : CoreHeap.takeRecipe { H with gens := H.gens ++ l, cones := cones } zVals tooth.numTeeth gamma g recipe with
  | none => simp [hr] at h
  | some w =>
  obtain ⟨H3, r⟩ := w
  simp only [hr, Option.some.injEq] at h
  have hgl : ∀ i < H.gens.length, (H.gens ++ l)[i]? = H.gens[i]? := fun i hi => List.getElem?_append_left hi
  obtain ⟨t, ts, ht, rfl⟩ : ∃ t ts, ((transform = some t ∧ ts = H3.transforms) ∨
      (transform = none ∧ t = H3.transforms.length ∧
        ts = H3.transforms ++ [{ GearTransform.default with scale := m }])) ∧
      H' = { H3 with transforms := ts, gears := H3.gears ++ [⟨m, zVals, tooth, g, r, t⟩] } := by
    cases transform with
    | none => exact ⟨_, _, Or.inr ⟨rfl, rfl, rfl⟩, h.symm⟩
    | some t => exact ⟨t, _, Or.inl ⟨rfl, rfl⟩, h.symm⟩
  cases recipe with
  | some r' =>
    simp only [CoreHeap.takeRecipe, Option.some.injEq, Prod.mk.injEq] at hr
    obtain ⟨rfl, rfl⟩ := hr
    refine ⟨_, _, _, _, _, _, _, rfl, by simp, fun i hi _ => hgl i hi, ?_, Or.inl ⟨rfl, rfl⟩, ht, fun h => (hc1 h).2, hc3⟩
    rcases hl with ⟨h1, rfl⟩ | ⟨h1, h2, rfl⟩
    · exact Or.inl ⟨h1, by simp⟩
    · exact Or.inr ⟨h1, h2, by simp⟩
  | none =>
    rw [CoreHeap.takeRecipe] at hr
    cases hG : (H.gens ++ l)[g]? with
    | none => simp [hG] at hr
    | some G =>
      simp only [hG, Option.some.injEq, Prod.mk.injEq] at hr
      obtain ⟨rfl, rfl⟩ := hr
      have hlt : g < (H.gens ++ l).length := (List.getElem?_eq_some_iff.1 hG).1
      refine ⟨_, _, _, _, _, _, _, rfl, by simp, ?_, ?_, Or.inr ⟨rfl, rfl, gamma, G, _, ?_, ?_, fun h => (hc1 h).1, hc2,
        rfl, List.getElem?_set_self hlt, rfl⟩, ht, fun h => (hc1 h).2, hc3⟩
      · intro i hi hne
        have : g ≠ i := by
          rintro rfl
          rcases hl with ⟨h1, -⟩ | ⟨-, h2, -⟩
          · simp [h1] at hne
          · omega
        rw [List.getElem?_set_ne this]
        exact hgl i hi
      · rcases hl with ⟨h1, rfl⟩ | ⟨h1, h2, rfl⟩
        · exact Or.inl ⟨h1, by simp⟩
        · exact Or.inr ⟨h1, h2, by simp⟩
      · rintro i rfl
        rcases hl with ⟨h1, rfl⟩ | ⟨h1, -⟩
        · cases h1
          simpa using hG
        · simp at h1
      · rintro rfl
        rcases hl with ⟨h1, -⟩ | ⟨-, rfl, rfl⟩
        · simp at h1
        · simpa using hG.symm

theorem swapGen_some {H H' : CoreHeap} {a gen : ℕ} (h : H.swapGen a gen = some H') :
    ∃ g G r old c, H.gears[a]? = some g ∧ H.gens[gen]? = some G ∧ H.recipes[g.recipe]? = some r ∧
      H.gens[r.gen]? = some old ∧ old.coneAngle = some c ∧
      H' = { H with
        gens := H.gens ++ [{ G with pitchRadius := old.pitchRadius, coneAngle := some c, pitchIntersectAngle := old.pitchIntersectAngle }]
        gears := H.gears.set a { g with gen := H.gens.length }
        recipes := H.recipes.set g.recipe { r with gen := H.gens.length } } := by
  unfold CoreHeap.swapGen at h
  cases hg : H.gears[a]? with
  | none => simp [hg] at h
  | some g =>
  cases hG : H.gens[gen]? with
  | none => simp [hg, hG] at h
  | some G =>
  cases hr : H.recipes[g.recipe]? with
  | none => simp [hg, hG, hr] at h
  | some r =>
  cases ho : H.gens[r.gen]? with
  | none => simp [hg, hG, hr, ho] at h
  | some old =>
  cases hc : old.coneAngle with
  | none => simp [hg, hG, hr, ho, hc] at h
  | some c =>
    simp only [hg, hG, hr, ho, hc, Option.some.injEq] at h
    exact ⟨g, G, r, old, c, rfl, rfl, hr, ho, hc, h.symm⟩

theorem copyGear_some {H H' : CoreHeap} {a : ℕ} (h : H.copyGear a = some H') :
    ∃ g r T G l n m, H.gears[a]? = some g ∧ H.recipes[g.recipe]? = some r ∧ H.transforms[g.transform]? = some T ∧
      H.gens[r.gen]? = some G ∧ n < (H.gens ++ l).length ∧ m < (H.gens ++ l).length ∧ H.gens.length ≤ n ∧
      (H.gens ++ l)[n]? = some G ∧
      H' = { H with
        gens := H.gens ++ l
        recipes := H.recipes ++ [{ r with gen := n }]
        transforms := H.transforms ++ [T]
        gears := H.gears ++ [{ g with gen := m, recipe := H.recipes.length, transform := H.transforms.length }] } := by
  unfold CoreHeap.copyGear at h
  cases hg : H.gears[a]? with
  | none => simp [hg] at h
  | some g =>
  cases hG : H.gens[g.gen]? with
  | none => simp [hg, hG] at h
  | some G =>
  cases hr : H.recipes[g.recipe]? with
  | none => simp [hg, hG, hr] at h
  | some r =>
  cases hT : H.transforms[g.transform]? with
  | none => simp [hg, hG, hr, hT] at h
  | some T =>
  cases ho : H.gens[r.gen]? with
  | none => simp [hg, hG, hr, hT, ho] at h
  | some G2 =>
    simp only [hg, hG, hr, hT, ho, Option.some.injEq] at h
    by_cases one : r.gen = g.gen
    · refine ⟨g, r, T, G2, _, _, _, rfl, hr, hT, ho, ?_, ?_, ?_, ?_, h.symm⟩ <;> simp [one]
      rw [← one, ho] at hG
      exact (Option.some.inj hG).symm
    · refine ⟨g, r, T, G2, _, _, _, rfl, hr, hT, ho, ?_, ?_, ?_, ?_, h.symm⟩ <;> simp [one]

theorem turn_some {H H' : CoreHeap} {t u : ℕ} {s o : CoreGear} {m : M3} (h : H.turn t u s o m = some H') :
    ∃ T, t < H.transforms.length ∧ H' = { H with transforms := H.transforms.set t T } := by
  unfold CoreHeap.turn at h
  cases hT : H.transforms[t]? with
  | none => simp [hT] at h
  | some T =>
    have hlt := (List.getElem?_eq_some_iff.1 hT).1
    simp only [hT] at h
    split at h
    · simp only [Option.some.injEq, List.set_set] at h
      exact ⟨_, hlt, h.symm⟩
    · simp at h

theorem mesh_some {H H' : CoreHeap} {a b : ℕ} {d : V3} (h : H.mesh a b d = some H') :
    ∃ g T, H.gears[a]? = some g ∧ g.transform < H.transforms.length ∧
      H' = { H with transforms := H.transforms.set g.transform T } := by
  unfold CoreHeap.mesh at h
  split at h
  · rename_i g k s o hg hk hs ho
    split at h
    · split at h
      · split at h
        · simp at h
        · simp only at h
          split at h
          · simp at h
          · split at h
            · simp at h
            · obtain ⟨T, h1, rfl⟩ := turn_some h
              exact ⟨g, T, hg, by simpa using h1, by simp⟩
      · simp only at h
        split at h
        · simp at h
        · obtain ⟨T, h1, rfl⟩ := turn_some h
          exact ⟨g, T, hg, by simpa using h1, by simp⟩
    · simp at h
  · simp at h

theorem setCenter_some {H H' : CoreHeap} {a : ℕ} {c : V3} (h : H.setCenter a c = some H') :
    ∃ g T, H.gears[a]? = some g ∧ H.transforms[g.transform]? = some T ∧
      H' = { H with transforms := H.transforms.set g.transform { T with center := c } } := by
  unfold CoreHeap.setCenter at h
  cases hg : H.gears[a]? with
  | none => simp [hg] at h
  | some g =>
  cases hT : H.transforms[g.transform]? with
  | none => simp [hg, hT] at h
  | some T =>
    simp only [hg, hT, Option.some.injEq] at h
    exact ⟨g, T, rfl, hT, h.symm⟩

/-! ## The invariant -/

theorem apart_step {H H' : CoreHeap} {x : CoreAct} (hA : Apart H) (hx : Spec.Unused H x) (h : H.step x = some H') :
    Apart H' := by
  obtain ⟨ag, ar, kr, kt, kg⟩ := hA
  cases x with
  | makeGen G =>
    simp only [CoreHeap.step, Option.some.injEq] at h
    subst h
    refine ⟨fun g hg => ?_, fun r hr => ?_, kr, kt, kg⟩
    · have := ag g hg
      simp only [List.length_append, List.length_singleton]
      refine ⟨?_, ?_, ?_⟩ <;> (try dsimp only) <;> omega
    · have := ar r hr
      simp only [List.length_append, List.length_singleton]
      omega
  | makeRecipe s g =>
    rw [CoreHeap.step] at h
    split_ifs at h with hg
    simp only [Option.some.injEq] at h
    subst h
    refine ⟨fun g hg => ?_, fun r hr => ?_, kr, kt, keyInj_append kg (by simpa [Spec.Unused] using hx)⟩
    · have := ag g hg
      simp only [List.length_append, List.length_singleton]
      refine ⟨?_, ?_, ?_⟩ <;> (try dsimp only) <;> omega
    · rcases List.mem_append.1 hr with hr | hr
      · exact ar r hr
      · simp only [List.mem_singleton] at hr
        subst hr
        exact hg
  | makeTransform T =>
    simp only [CoreHeap.step, Option.some.injEq] at h
    subst h
    refine ⟨fun g hg => ?_, ar, kr, kt, kg⟩
    have := ag g hg
    simp only [List.length_append, List.length_singleton]
    refine ⟨?_, ?_, ?_⟩ <;> (try dsimp only) <;> omega
  | makeCone c =>
    simp only [CoreHeap.step, Option.some.injEq] at h
    subst h
    exact ⟨ag, ar, kr, kt, kg⟩
  | makeGear zVals m tooth gen recipe transform cone =>
    rw [CoreHeap.step] at h
    split_ifs at h with hv
    obtain ⟨v1, v2, v3⟩ := hv
    obtain ⟨x1, x2, x3⟩ := hx
    obtain ⟨gens, recipes, ts, cones, g, r, t, rfl, hle, -, hg, hr, ht, -, -⟩ := newGear_some h
    have hglt : g < gens.length := by
      rcases hg with ⟨e, hl⟩ | ⟨-, e, hl⟩
      · have := v1 g e; omega
      · omega
    have hrle : H.recipes.length ≤ recipes.length ∧ r < recipes.length := by
      rcases hr with ⟨e, rfl⟩ | ⟨-, e, _, _, _, -, -, -, -, -, -, rfl⟩
      · exact ⟨le_rfl, v2 r e⟩
      · simp; omega
    have htle : H.transforms.length ≤ ts.length ∧ t < ts.length := by
      rcases ht with ⟨e, rfl⟩ | ⟨-, e, rfl⟩
      · exact ⟨le_rfl, v3 t e⟩
      · simp; omega
    refine ⟨fun k hk => ?_, fun k hk => ?_, keyInj_append kr ?_, keyInj_append kt ?_, ?_⟩
    · rcases List.mem_append.1 hk with hk | hk
      · have := ag k hk
        refine ⟨?_, ?_, ?_⟩ <;> (try dsimp only) <;> omega
      · simp only [List.mem_singleton] at hk
        subst hk
        exact ⟨hglt, hrle.2, htle.2⟩
    · rcases hr with ⟨e, rfl⟩ | ⟨-, e, _, _, _, -, -, -, -, -, -, rfl⟩
      · have := ar k hk; (try dsimp only); omega
      · rcases List.mem_append.1 hk with hk | hk
        · have := ar k hk; (try dsimp only); omega
        · simp only [List.mem_singleton] at hk
          subst hk
          exact hglt
    · intro k hk
      rcases hr with ⟨e, rfl⟩ | ⟨-, e, -⟩
      · exact x2 r e k hk
      · have := (ag k hk).2.1
        simp only
        omega
    · intro k hk
      rcases ht with ⟨e, rfl⟩ | ⟨-, e, -⟩
      · exact x3 t e k hk
      · have := (ag k hk).2.2
        simp only
        omega
    · rcases hr with ⟨e, rfl⟩ | ⟨e0, e, _, _, _, -, -, -, -, -, -, rfl⟩
      · exact kg
      · refine keyInj_append kg fun k hk => ?_
        rcases hg with ⟨e, hl⟩ | ⟨-, e, hl⟩
        · exact x1 e0 g e k hk
        · have := ar k hk
          simp only
          omega
  | swap a gen =>
    obtain ⟨g, G, r, old, c, hg, hG, hr, ho, hc, rfl⟩ := swapGen_some h
    refine ⟨fun k hk => ?_, fun k hk => ?_, keyInj_set kr hg (Or.inl rfl), keyInj_set kt hg (Or.inl rfl),
      keyInj_set kg hr (Or.inr fun k hk => ?_)⟩
    · simp only [List.length_append, List.length_singleton, List.length_set]
      rcases List.mem_or_eq_of_mem_set hk with hk | rfl
      · have := ag k hk
        refine ⟨?_, ?_, ?_⟩ <;> (try dsimp only) <;> omega
      · have := ag g (List.mem_of_getElem? hg)
        exact ⟨by simp, this.2.1, this.2.2⟩
    · simp only [List.length_append, List.length_singleton]
      rcases List.mem_or_eq_of_mem_set hk with hk | rfl
      · have := ar k hk; (try dsimp only); omega
      · simp
    · have := ar k hk
      simp only
      omega
  | copy a =>
    obtain ⟨g, r, T, G, l, n, m, hg, hr, hT, hG, hn, hm, hge, hnG, rfl⟩ := copyGear_some h
    refine ⟨fun k hk => ?_, fun k hk => ?_, keyInj_append kr fun k hk => ?_, keyInj_append kt fun k hk => ?_,
      keyInj_append kg fun k hk => ?_⟩
    · simp only [List.length_append, List.length_singleton]
      simp only [List.length_append] at hn hm
      rcases List.mem_append.1 hk with hk | hk
      · have := ag k hk
        refine ⟨?_, ?_, ?_⟩ <;> (try dsimp only) <;> omega
      · simp only [List.mem_singleton] at hk
        subst hk
        exact ⟨hm, by simp, by simp⟩
    · rcases List.mem_append.1 hk with hk | hk
      · have := ar k hk
        simp only [List.length_append]
        omega
      · simp only [List.mem_singleton] at hk
        subst hk
        exact hn
    · have := (ag k hk).2.1
      simp only
      omega
    · have := (ag k hk).2.2
      simp only
      omega
    · have := ar k hk
      simp only
      omega
  | mesh a b d =>
    obtain ⟨g, T, hg, hT, rfl⟩ := mesh_some h
    exact ⟨fun k hk => by simpa using ag k hk, ar, kr, kt, kg⟩
  | center a c =>
    obtain ⟨g, T, hg, hT, rfl⟩ := setCenter_some h
    exact ⟨fun k hk => by simpa using ag k hk, ar, kr, kt, kg⟩

theorem apart_program {xs : List CoreAct} {H : CoreHeap} (h : Spec.Program xs H) : Apart H := by
  induction h with
  | nil => exact ⟨by simp [CoreHeap.empty], by simp [CoreHeap.empty], by simp [KeyInj, CoreHeap.empty],
      by simp [KeyInj, CoreHeap.empty], by simp [KeyInj, CoreHeap.empty]⟩
  | snoc _ hx hs ih => exact apart_step ih hx hs

/-- Every gear of a heap with valid references is seen. -/
theorem sight_exists {H : CoreHeap} (hA : Apart H) {a : ℕ} (ha : a < H.gears.length) : ∃ s, H.sight a = some s := by
  obtain ⟨-, h1, h2⟩ := hA.gear _ (List.getElem_mem ha)
  have h3 := hA.recipe _ (List.getElem_mem h1)
  exact ⟨_, sight_mk (List.getElem?_eq_getElem ha) (List.getElem?_eq_getElem h1) (List.getElem?_eq_getElem h2)
    (List.getElem?_eq_getElem h3)⟩

theorem sight_frame {H H' : CoreHeap} {x : CoreAct} (hA : Apart H) (hx : Spec.Unused H x) (h : H.step x = some H')
    {b : ℕ} {s : GearSight} (hb : Spec.target x ≠ some b) (hs : H.sight b = some s) : H'.sight b = some s := by
  obtain ⟨g, r, T, G, hg, hr, hT, hG, rfl⟩ := sight_some hs
  have lg := (List.getElem?_eq_some_iff.1 hg).1
  have lr := (List.getElem?_eq_some_iff.1 hr).1
  have lT := (List.getElem?_eq_some_iff.1 hT).1
  have lG := (List.getElem?_eq_some_iff.1 hG).1
  have app : ∀ {α : Type} {l : List α} {i : ℕ} {y : α} (l' : List α), l[i]? = some y → (l ++ l')[i]? = some y := by
    intro α l i y l' hy
    rwa [List.getElem?_append_left (List.getElem?_eq_some_iff.1 hy).1]
  cases x with
  | makeGen G' =>
    simp only [CoreHeap.step, Option.some.injEq] at h
    subst h
    exact sight_mk hg hr hT (app _ hG)
  | makeRecipe s' g' =>
    rw [CoreHeap.step] at h
    split_ifs at h
    simp only [Option.some.injEq] at h
    subst h
    exact sight_mk hg (app _ hr) hT hG
  | makeTransform T' =>
    simp only [CoreHeap.step, Option.some.injEq] at h
    subst h
    exact sight_mk hg hr (app _ hT) hG
  | makeCone c =>
    simp only [CoreHeap.step, Option.some.injEq] at h
    subst h
    exact sight_mk hg hr hT hG
  | makeGear zVals m tooth gen recipe transform cone =>
    rw [CoreHeap.step] at h
    split_ifs at h with hv
    obtain ⟨x1, x2, x3⟩ := hx
    obtain ⟨gens, recipes, ts, cones, g', r', t', rfl, hle, hkeep, hg', hr', ht', -, -⟩ := newGear_some h
    refine sight_mk (app _ hg) (r := r) ?_ (T := T) ?_ (G := G) ?_
    · rcases hr' with ⟨-, rfl⟩ | ⟨-, -, _, _, _, -, -, -, -, -, -, rfl⟩
      · exact hr
      · exact app _ hr
    · rcases ht' with ⟨-, rfl⟩ | ⟨-, -, rfl⟩
      · exact hT
      · exact app _ hT
    · rw [hkeep r.gen lG]
      · exact hG
      · by_cases e0 : recipe = none
        · right
          intro e
          exact x1 e0 _ e r (List.mem_of_getElem? hr) rfl
        · exact Or.inl e0
  | swap a gen =>
    obtain ⟨g1, G1, r1, old, c, hg1, hG1, hr1, ho, hc, rfl⟩ := swapGen_some h
    have hab : a ≠ b := fun e => hb (by simp [Spec.target, e])
    have hne : g1.recipe ≠ g.recipe := fun e => hab (hA.recipes _ _ _ _ hg1 hg e)
    refine sight_mk (g := g) (r := r) ?_ ?_ hT (app _ hG)
    · simp only [List.getElem?_set_ne hab]; exact hg
    · simp only [List.getElem?_set_ne hne]; exact hr
  | copy a =>
    obtain ⟨g1, r1, T1, G1, l, n, m, -, -, -, -, -, -, -, -, rfl⟩ := copyGear_some h
    exact sight_mk (app _ hg) (app _ hr) (app _ hT) (app _ hG)
  | mesh a k d =>
    obtain ⟨g1, T1, hg1, hT1, rfl⟩ := mesh_some h
    have hab : a ≠ b := fun e => hb (by simp [Spec.target, e])
    have hne : g1.transform ≠ g.transform := fun e => hab (hA.transforms _ _ _ _ hg1 hg e)
    refine sight_mk hg hr (T := T) ?_ hG
    simp only [List.getElem?_set_ne hne]; exact hT
  | center a c =>
    obtain ⟨g1, T1, hg1, hT1, rfl⟩ := setCenter_some h
    have hab : a ≠ b := fun e => hb (by simp [Spec.target, e])
    have hne : g1.transform ≠ g.transform := fun e => hab (hA.transforms _ _ _ _ hg1 hg e)
    refine sight_mk hg hr (T := T) ?_ hG
    simp only [List.getElem?_set_ne hne]; exact hT

/-! ## Gears that share nothing -/

/-- **C136, independence.** In every program whose gears are made from objects that no other gear uses, a statement changes what
is seen of a gear only if it is a method of this gear: making further gears, copies and argument objects, meshing, moving and
giving new tooth generators to other gears leave tooth data, slices, tooth flanks and placement as they are.

What is missing for the full statement: gears made from the same generator, recipe or transform, see
`c136_generator_violated` and `c136_transform_violated`. -/
theorem c136_independent_partial {xs : List CoreAct} {x : CoreAct} {H H' : CoreHeap} {b : ℕ} {s : GearSight}
    (hp : Spec.Program xs H) (hx : Spec.Unused H x) (h : H.step x = some H') (hb : Spec.target x ≠ some b)
    (hs : H.sight b = some s) : H'.sight b = some s :=
  sight_frame (apart_program hp) hx h hb hs

theorem eval_fit {G : FlankGen} {N gamma z : ℝ} {rec : ℝ → Option CoreSlice} (hG : G.cls ≠ .flat) :
    (G.fit N gamma rec).eval z = (if gamma = 0 then some 0 else (rec z).map fun s => s.coneAngle).map fun a =>
      ⟨G.cls, G.own z, 2 * π / N / 4, N / 2, some a, G.pitchAngle⟩ := by
  simp only [FlankGen.eval, FlankGen.fit, hG, if_false]
  split_ifs <;> rfl

/-- **C136, construction.** A gear made without a recipe, from a tooth generator that is not a plain `GearToothGenerator`, is the
gear with the number of teeth, module, heights, cone angle and placement of the arguments (`CoreGear.make` of C115), and its tooth
flanks have the form given by the generator and fit the gear at every height.

What is missing: plain generators (`c136_flat_violated`) and the pitch angle of the undercut generators
(`c136_pitch_angle_violated`). -/
theorem c136_construct_partial {H H' : CoreHeap} {zVals : List ℝ} {m : ℝ} {tooth : GearToothParam}
    {gen transform cone : Option ℕ} {G : FlankGen}
    (h : H.step (.makeGear zVals m tooth gen none transform cone) = some H')
    (hG : gen.elim (G = .default) fun i => H.gens[i]? = some G) (hcls : G.cls ≠ .flat) :
    ∃ s, H'.sight H.gears.length = some s ∧
      s.core = CoreGear.make zVals m tooth (((cone.bind fun k => H.cones[k]?).map fun c => c.coneAngle).getD 0)
        (transform.bind fun t => H.transforms[t]?) ∧
      Spec.Fits s ∧ ∀ z f, s.flank z = some f → f.cls = G.cls ∧ f.own = G.own z ∧ f.pitchAngle = G.pitchAngle := by
  rw [CoreHeap.step] at h
  split_ifs at h with hv
  obtain ⟨-, -, v3⟩ := hv
  obtain ⟨gens, recipes, ts, cones, g, r, t, rfl, -, -, hg, hr, ht, -, -⟩ := newGear_some h
  rcases hr with ⟨e, -⟩ | ⟨-, er, gamma, G', rec, hG1, hG2, hc1, hc2, hrec, hfit, hrs⟩
  · simp at e
  have eG : G' = G := by
    cases gen with
    | none => exact (hG2 rfl).trans (show G = .default from hG).symm
    | some i => exact Option.some.inj ((hG1 i rfl).symm.trans hG)
  subst eG
  have ea : gamma = ((cone.bind fun k => H.cones[k]?).map fun c => c.coneAngle).getD 0 / 2 := by
    cases cone with
    | none => simp [hc1 rfl]
    | some k =>
      obtain ⟨c, h1, h2⟩ := hc2 k rfl
      simp [h1, h2, ConicData.gamma]
  obtain ⟨a, ha⟩ : ∃ a, a = ((cone.bind fun k => H.cones[k]?).map fun c => c.coneAngle).getD 0 := ⟨_, rfl⟩
  rw [← ha] at ea ⊢
  obtain ⟨T, hT, hT2⟩ : ∃ T, ts[t]? = some T ∧
      T = (transform.bind fun t => H.transforms[t]?).getD { GearTransform.default with scale := m } := by
    rcases ht with ⟨rfl, rfl⟩ | ⟨rfl, rfl, rfl⟩
    · have := v3 t rfl
      refine ⟨_, List.getElem?_eq_getElem this, ?_⟩
      simp [List.getElem?_eq_getElem this]
    · exact ⟨_, by simp, rfl⟩
  obtain ⟨R, hR⟩ : ∃ R : RecipeObj, R = ⟨if gamma = 0 then fun z => (rec z).map fun s => { s with coneAngle := 0 } else rec, g⟩ :=
    ⟨_, rfl⟩
  rw [← hR] at hrs
  have hsl : ∀ z, ((G'.fit tooth.numTeeth gamma rec).eval z).bind (fun _ => R.slice z) = R.slice z := by
    intro z
    rw [eval_fit hcls, hR]
    by_cases h0 : gamma = 0
    · simp [h0]
    · simp only [h0, if_false]
      cases rec z <;> simp
  have hsi : H.gears.length < (H.gears ++ [(⟨m, zVals, tooth, g, r, t⟩ : GearRec)]).length := by simp
  refine ⟨_, sight_mk (g := ⟨m, zVals, tooth, g, r, t⟩) (r := R) (by simp) (by simp [hrs, er]) hT (by rw [hR]; exact hfit),
    ?_, ?_, ?_⟩
  · simp only [GearRec.sight, hsl, CoreGear.make, ← ea, ← hrec, hT2]
    rw [hR]
  · intro z c hz
    simp only [GearRec.sight, hsl] at hz ⊢
    rw [hz, Option.bind_some, eval_fit hcls]
    rw [hR] at hz
    by_cases h0 : gamma = 0
    · simp only [h0, if_true] at hz ⊢
      rw [Option.map_eq_some_iff] at hz
      obtain ⟨c', h1, rfl⟩ := hz
      rw [hrec] at h1
      refine ⟨_, rfl, ?_, rfl, by ring⟩
      unfold gearRecipeFromCurve at h1
      split at h1
      · simp at h1
      · simp only [Option.some.injEq] at h1
        rw [← h1]
    · simp only [h0, if_false] at hz ⊢
      rw [hz]
      refine ⟨_, rfl, ?_, rfl, by ring⟩
      rw [hrec] at hz
      unfold gearRecipeFromCurve at hz
      split at hz
      · simp at hz
      · simp only [Option.some.injEq] at hz
        rw [← hz]
  · intro z f hf
    simp only [GearRec.sight] at hf
    rw [Option.bind_eq_some_iff] at hf
    obtain ⟨c, -, hf⟩ := hf
    rw [eval_fit hcls, Option.map_eq_some_iff] at hf
    obtain ⟨_, -, rfl⟩ := hf
    exact ⟨rfl, rfl, rfl⟩

/-- **C136, new tooth form.** `swap_tooth_generator` with a generator that is not a plain `GearToothGenerator` gives the gear the
form of the generator; pitch radius, cone angle and pitch intersect angle of the flank are as before at every height, and so are
tooth data, slices and placement. The generator handed over stays as it is.

What is missing: plain generators, see `c136_swap_flat_violated`. -/
theorem c136_swap_partial {H H' : CoreHeap} {a gen : ℕ} {s : GearSight} {G : FlankGen}
    (h : H.step (.swap a gen) = some H') (hs : H.sight a = some s) (hG : H.gens[gen]? = some G) (hcls : G.cls ≠ .flat) :
    H'.gens[gen]? = some G ∧ ∃ s', H'.sight a = some s' ∧ s'.core.tooth = s.core.tooth ∧
      s'.core.module_ = s.core.module_ ∧ s'.core.zVals = s.core.zVals ∧ s'.core.transform = s.core.transform ∧
      (∀ z c, s.core.slice z = some c → s'.core.slice z = some c) ∧
      ∀ z f, s.flank z = some f → s'.flank z =
        some { f with cls := G.cls, own := G.own z, pitchAngle := G.pitchAngle } := by
  obtain ⟨g, G1, r, old, c, hg, hG1, hr, ho, hc, rfl⟩ := swapGen_some h
  obtain ⟨g', r', T, old', hg', hr', hT, ho', rfl⟩ := sight_some hs
  obtain rfl := Option.some.inj (hg.symm.trans hg')
  obtain rfl := Option.some.inj (hr.symm.trans hr')
  obtain rfl := Option.some.inj (ho.symm.trans ho')
  obtain rfl := Option.some.inj (hG1.symm.trans hG)
  have la := (List.getElem?_eq_some_iff.1 hg).1
  have lr := (List.getElem?_eq_some_iff.1 hr).1
  refine ⟨by rw [List.getElem?_append_left (List.getElem?_eq_some_iff.1 hG).1]; exact hG, _,
    sight_mk (g := { g with gen := H.gens.length }) (r := { r with gen := H.gens.length })
      (G := { G1 with pitchRadius := old.pitchRadius, coneAngle := some c, pitchIntersectAngle := old.pitchIntersectAngle })
      (by simp [la]) (by simp [lr]) hT (by simp), rfl, rfl, rfl, rfl, ?_, ?_⟩
  · intro z k hz
    simp only [GearRec.sight, Option.bind_eq_some_iff] at hz ⊢
    obtain ⟨f, hf, hk⟩ := hz
    rw [FlankGen.eval, hc] at hf
    simp only at hf
    split_ifs at hf
    rw [Option.map_eq_some_iff] at hf
    obtain ⟨v, hv, -⟩ := hf
    exact ⟨_, by simp [FlankGen.eval, hcls, hv]; rfl, hk⟩
  · intro z f hz
    simp only [GearRec.sight, Option.bind_eq_some_iff] at hz ⊢
    obtain ⟨k, hk, hf⟩ := hz
    rw [FlankGen.eval, hc] at hf
    simp only at hf
    split_ifs at hf
    rw [Option.map_eq_some_iff] at hf
    obtain ⟨v, hv, rfl⟩ := hf
    exact ⟨k, hk, by simp [FlankGen.eval, hcls, hv]⟩

/-- **C136, there and back.** If a gear gets any other tooth generator and then one with the form it had at first, everything is
seen as at the start. -/
theorem c136_swap_back {H H1 H2 : CoreHeap} {a gen gen0 : ℕ} {g : GearRec} {r : RecipeObj} {old G0 : FlankGen}
    {s : GearSight} (hs : H.sight a = some s) (hg : H.gears[a]? = some g) (hr : H.recipes[g.recipe]? = some r) (ho : H.gens[r.gen]? = some old)
    (hG0 : H.gens[gen0]? = some G0) (hform : G0.cls = old.cls ∧ G0.own = old.own ∧ G0.pitchAngle = old.pitchAngle)
    (h1 : H.step (.swap a gen) = some H1) (h2 : H1.step (.swap a gen0) = some H2) : H2.sight a = some s := by
  obtain ⟨g1, G1, r1, o1, c1, hg1, hG1, hr1, ho1, hc1, rfl⟩ := swapGen_some h1
  obtain rfl := Option.some.inj (hg.symm.trans hg1)
  obtain rfl := Option.some.inj (hr.symm.trans hr1)
  obtain rfl := Option.some.inj (ho.symm.trans ho1)
  have la := (List.getElem?_eq_some_iff.1 hg).1
  have lr := (List.getElem?_eq_some_iff.1 hr).1
  have l0 := (List.getElem?_eq_some_iff.1 hG0).1
  obtain ⟨g2, G2, r2, o2, c2, hg2, hG2, hr2, ho2, hc2, rfl⟩ := swapGen_some h2
  simp only [List.getElem?_set_self la, Option.some.injEq] at hg2
  subst hg2
  simp only [List.getElem?_set_self lr, Option.some.injEq] at hr2
  subst hr2
  simp only [List.length_append, List.length_singleton, List.getElem?_concat_length, Option.some.injEq] at ho2
  subst ho2
  simp only [Option.some.injEq] at hc2
  subst hc2
  simp only [List.getElem?_append_left l0, hG0, Option.some.injEq] at hG2
  subst hG2
  have e : ({ G0 with pitchRadius := old.pitchRadius, coneAngle := some c1, pitchIntersectAngle := old.pitchIntersectAngle } : FlankGen) =
      old := by
    obtain ⟨f1, f2, f3⟩ := hform
    cases old
    cases G0
    simp only at f1 f2 f3 hc1 ⊢
    subst f1 f2 f3 hc1
    rfl
  simp only [e]
  obtain ⟨g', r', T, G', hg', hr', hT, hG', rfl⟩ := sight_some hs
  obtain rfl := Option.some.inj (hg.symm.trans hg')
  obtain rfl := Option.some.inj (hr.symm.trans hr')
  obtain rfl := Option.some.inj (ho.symm.trans hG')
  exact sight_mk (g := { g with gen := H.gens.length + 1 }) (r := { r with gen := H.gens.length + 1 }) (T := T) (G := old)
    (by simp [la]) (by simp [lr]) hT (by simp)

/-- **C136, copy.** The copy of a gear is seen like the gear. That both stay independent is `c136_independent_partial`. -/
theorem c136_copy {H H' : CoreHeap} {a : ℕ} {s : GearSight} (h : H.step (.copy a) = some H') (hs : H.sight a = some s) :
    H'.sight H.gears.length = some s := by
  obtain ⟨g, r, T, G, l, n, m, hg, hr, hT, hG, hn, hm, hge, hnG, rfl⟩ := copyGear_some h
  obtain ⟨g', r', T', G', hg', hr', hT', hG', rfl⟩ := sight_some hs
  obtain rfl := Option.some.inj (hg.symm.trans hg')
  obtain rfl := Option.some.inj (hr.symm.trans hr')
  obtain rfl := Option.some.inj (hT.symm.trans hT')
  obtain rfl := Option.some.inj (hG.symm.trans hG')
  exact sight_mk (g := { g with gen := m, recipe := H.recipes.length, transform := H.transforms.length })
    (r := { r with gen := n }) (by simp) (by simp) (by simp) hnG

/-- **C136, moving.** The setter `center` changes the centre and nothing else. -/
theorem c136_center {H H' : CoreHeap} {a : ℕ} {c : V3} {s : GearSight} (h : H.step (.center a c) = some H')
    (hs : H.sight a = some s) :
    H'.sight a = some { s with core := { s.core with transform := { s.core.transform with center := c } } } := by
  obtain ⟨g, T, hg, hT, rfl⟩ := setCenter_some h
  obtain ⟨g', r', T', G', hg', hr', hT', hG', rfl⟩ := sight_some hs
  obtain rfl := Option.some.inj (hg.symm.trans hg')
  obtain rfl := Option.some.inj (hT.symm.trans hT')
  have lT := (List.getElem?_eq_some_iff.1 hT).1
  exact sight_mk (T := { T with center := c }) hg hr' (by simp [lT]) hG'

/-- **C136, meshing.** In every program without shared objects, `mesh_to` of one gear to another, statement by statement with all
the assignments it makes, places the gear as `CoreGear.meshTo` of C116 computes from what is seen of the two gears, keeps its tooth
flanks, and raises if that fails. -/
theorem c136_mesh_partial {xs : List CoreAct} {H : CoreHeap} {a b : ℕ} {d : V3} {s o : GearSight}
    (hp : Spec.Program xs H) (hab : a ≠ b) (hs : H.sight a = some s) (ho : H.sight b = some o) :
    (H.step (.mesh a b d)).bind (fun H' => H'.sight a) = (s.core.meshTo o.core d).map fun c => ⟨c, s.flank⟩ := by
  have hA := apart_program hp
  have hs' := hs
  have ho' := ho
  obtain ⟨g, r, T, G, hg, hr, hT, hG, rfl⟩ := sight_some hs
  obtain ⟨h, r2, U, G2, hh, hr2, hU, hG2, rfl⟩ := sight_some ho
  have hne : g.transform ≠ h.transform := fun e => hab (hA.transforms _ _ _ _ hg hh e)
  have lT := (List.getElem?_eq_some_iff.1 hT).1
  have key : ∀ T' : GearTransform, CoreHeap.sight { H with transforms := H.transforms.set g.transform T' } a =
      some (g.sight r T' G) := fun T' => sight_mk hg hr (by simp [lT]) hG
  have turn : ∀ (T' : GearTransform) (m : M3), (CoreHeap.turn { H with transforms := H.transforms.set g.transform T' }
      g.transform h.transform (g.sight r T G).core (h.sight r2 U G2).core m).bind (fun H' => H'.sight a) =
      some (g.sight r { T' with orientation := m, angle := (calcMeshAngle { T' with orientation := m } U
        g.tooth.pitchAngle h.tooth.pitchAngle g.tooth.insideTeeth h.tooth.insideTeeth) } G) := by
    intro T' m
    simp only [CoreHeap.turn, List.getElem?_set_self lT, List.set_set, List.getElem?_set_ne hne, hU, Option.bind_some, key]
    rfl
  rw [CoreHeap.step, CoreHeap.mesh]
  simp only [hg, hh, hs', ho']
  unfold CoreGear.meshTo
  cases h1 : (g.sight r T G).core.cone with
  | none => rfl
  | some c1 =>
  cases h2 : (h.sight r2 U G2).core.cone with
  | none => rfl
  | some c2 =>
    simp only
    by_cases hc : c1.coneAngle ≠ 0 ∨ c2.coneAngle ≠ 0
    · rw [if_pos hc, if_pos hc]
      have e1 : (g.sight r T G).core.tooth = g.tooth := rfl
      have e2 : (h.sight r2 U G2).core.tooth = h.tooth := rfl
      have e3 : (h.sight r2 U G2).core.transform = U := rfl
      rw [e1, e2, e3]
      cases hv : calcBevelGearPlacementVector d c1 c2 g.tooth.insideTeeth h.tooth.insideTeeth 0 with
      | none => rfl
      | some v0 =>
        simp only [List.getElem?_set_ne hne, hU]
        cases hm : calcMeshOrientation c1.coneAngle c2.coneAngle c1.R U g.tooth.insideTeeth h.tooth.insideTeeth d 0 with
        | none => rfl
        | some m =>
          simp only [turn]
          rfl
    · rw [if_neg hc, if_neg hc]
      simp only [List.getElem?_set_ne hne, hU, turn]
      rfl

theorem nonflat_step {H H' : CoreHeap} {x : CoreAct} (hf : ∀ G ∈ H.gens, G.cls ≠ .flat) (hx : Spec.Plain x)
    (h : H.step x = some H') : ∀ G ∈ H'.gens, G.cls ≠ .flat := by
  cases x with
  | makeGen G =>
    simp only [CoreHeap.step, Option.some.injEq] at h
    subst h
    intro K hK
    rcases List.mem_append.1 hK with hK | hK
    · exact hf K hK
    · rw [List.mem_singleton.1 hK]; exact hx
  | makeRecipe s g => exact hx.elim
  | makeTransform T =>
    simp only [CoreHeap.step, Option.some.injEq] at h
    subst h
    exact hf
  | makeCone c =>
    simp only [CoreHeap.step, Option.some.injEq] at h
    subst h
    exact hf
  | makeGear zVals m tooth gen recipe transform cone =>
    obtain rfl : recipe = none := hx
    rw [CoreHeap.step] at h
    split_ifs at h with hv
    obtain ⟨gens, recipes, ts, cones, g, r, t, rfl, hle, hkeep, hg, hr, -, -, -⟩ := newGear_some h
    rcases hr with ⟨e, -⟩ | ⟨-, -, gamma, G, rec, hG1, hG2, -, -, -, hfit, -⟩
    · simp at e
    have hGf : (G.fit tooth.numTeeth gamma rec).cls ≠ .flat := by
      rcases hg with ⟨e, -⟩ | ⟨e, -⟩
      · exact hf G (List.mem_of_getElem? (hG1 g e))
      · rw [hG2 e]; simp [FlankGen.fit, FlankGen.default]
    intro K hK
    obtain ⟨i, hi, rfl⟩ := List.getElem_of_mem hK
    by_cases hig : i = g
    · subst hig
      rw [List.getElem?_eq_getElem hi, Option.some.injEq] at hfit
      simp only [hfit]
      exact hGf
    · have hlt : i < H.gens.length := by
        simp only at hi
        rcases hg with ⟨-, e⟩ | ⟨-, e1, e2⟩ <;> omega
      have := hkeep i hlt (Or.inr (by
        rcases hg with ⟨rfl, -⟩ | ⟨rfl, -⟩
        · simpa using fun e => hig e.symm
        · simp))
      simp only at hi
      rw [List.getElem?_eq_getElem hi, List.getElem?_eq_getElem hlt, Option.some.injEq] at this
      simp only [this]
      exact hf _ (List.getElem_mem hlt)
  | swap a gen =>
    obtain ⟨g, G, r, old, c, hg, hG, hr, ho, hc, rfl⟩ := swapGen_some h
    intro K hK
    rcases List.mem_append.1 hK with hK | hK
    · exact hf K hK
    · rw [List.mem_singleton.1 hK]; exact hf G (List.mem_of_getElem? hG)
  | copy a =>
    rw [CoreHeap.step, CoreHeap.copyGear] at h
    split at h
    · simp at h
    · split at h
      · split at h
        · simp at h
        · rename_i _ G _ _ hG _ _ _ G2 hG2
          simp only [Option.some.injEq] at h
          subst h
          intro K hK
          rcases List.mem_append.1 hK with hK | hK
          · exact hf K hK
          · split_ifs at hK
            · rw [List.mem_singleton.1 hK]; exact hf _ (List.mem_of_getElem? hG)
            · simp only [List.mem_cons, List.not_mem_nil, or_false] at hK
              rcases hK with rfl | rfl
              · exact hf _ (List.mem_of_getElem? hG)
              · exact hf _ (List.mem_of_getElem? hG2)
      · simp at h
  | mesh a b d =>
    obtain ⟨g, T, hg, hT, rfl⟩ := mesh_some h
    exact hf
  | center a c =>
    obtain ⟨g, T, hg, hT, rfl⟩ := setCenter_some h
    exact hf

theorem swap_slice {g : GearRec} {r : RecipeObj} {T : GearTransform} {G old : FlankGen} {c : ℝ → Option ℝ} {n : ℕ}
    (hc : old.coneAngle = some c) (h1 : G.cls ≠ .flat) (h2 : old.cls ≠ .flat) :
    (GearRec.sight { g with gen := n } { r with gen := n } T { G with
      pitchRadius := old.pitchRadius, coneAngle := some c, pitchIntersectAngle := old.pitchIntersectAngle }).core =
    (g.sight r T old).core := by
  simp only [GearRec.sight, CoreGear.mk.injEq, true_and, and_true]
  funext z
  simp only [FlankGen.eval, hc, h1, h2, if_false]
  cases c z <;> rfl

/-- **C136, the teeth fit.** In every program whose gears are made from objects that no other gear uses, from generators that are
not plain `GearToothGenerator`s and without own recipes, the tooth flanks of every gear fit it at every height: whatever is made,
meshed, moved, copied and swapped before. Cones may be used for several gears. -/
theorem c136_fits_partial {xs : List CoreAct} {H : CoreHeap} (hp : Spec.Program xs H) (hx : ∀ x ∈ xs, Spec.Plain x) :
    ∀ a s, H.sight a = some s → Spec.Fits s := by
  suffices h : (∀ G ∈ H.gens, G.cls ≠ .flat) ∧ ∀ a s, H.sight a = some s → Spec.Fits s from h.2
  induction hp with
  | nil => exact ⟨by simp [CoreHeap.empty], by simp [CoreHeap.empty, CoreHeap.sight]⟩
  | @snoc xs H x H' hp hu hs ih =>
    obtain ⟨ih1, ih2⟩ := ih fun y hy => hx y (by simp [hy])
    have hpl := hx x (by simp)
    have hA := apart_program hp
    have hA' := apart_step hA hu hs
    refine ⟨nonflat_step ih1 hpl hs, fun b s' hs' => ?_⟩
    by_cases ht : Spec.target x = some b
    · cases x with
      | swap a gen =>
        obtain rfl : a = b := by simpa [Spec.target] using ht
        obtain ⟨g, G, r, old, c, hg, hG, hr, ho, hc, rfl⟩ := swapGen_some hs
        have la := (List.getElem?_eq_some_iff.1 hg).1
        have lr := (List.getElem?_eq_some_iff.1 hr).1
        obtain ⟨s, hsa⟩ := sight_exists hA la
        have hfit := ih2 a s hsa
        obtain ⟨-, s2, hs2, -, -, -, -, -, hfl⟩ := c136_swap_partial hs hsa hG (ih1 G (List.mem_of_getElem? hG))
        obtain rfl := Option.some.inj (hs2.symm.trans hs')
        obtain ⟨g', r', T, G', hg', hr', hT, hG', rfl⟩ := sight_some hsa
        obtain rfl := Option.some.inj (hg.symm.trans hg')
        obtain rfl := Option.some.inj (hr.symm.trans hr')
        obtain rfl := Option.some.inj (ho.symm.trans hG')
        have e := sight_mk (a := a) (g := { g with gen := H.gens.length }) (r := { r with gen := H.gens.length }) (T := T)
          (G := { G with pitchRadius := old.pitchRadius, coneAngle := some c, pitchIntersectAngle := old.pitchIntersectAngle })
          (H := { H with
            gens := H.gens ++ [{ G with pitchRadius := old.pitchRadius, coneAngle := some c, pitchIntersectAngle := old.pitchIntersectAngle }]
            gears := H.gears.set a { g with gen := H.gens.length }
            recipes := H.recipes.set g.recipe { r with gen := H.gens.length } })
          (by simp [la]) (by simp [lr]) hT (by simp)
        have e2 := Option.some.inj (e.symm.trans hs')
        have ecore := swap_slice (g := g) (r := r) (T := T) (n := H.gens.length) hc (ih1 G (List.mem_of_getElem? hG))
          (ih1 old (List.mem_of_getElem? ho))
        rw [e2] at ecore
        intro z k hz
        rw [ecore] at hz ⊢
        obtain ⟨f, h1, h2, h3, h4⟩ := hfit z k hz
        exact ⟨_, hfl z f h1, h2, h3, h4⟩
      | mesh a k d =>
        obtain rfl : a = b := by simpa [Spec.target] using ht
        obtain ⟨g, T, hg, hT, rfl⟩ := mesh_some hs
        obtain ⟨s, hsa⟩ := sight_exists hA (List.getElem?_eq_some_iff.1 hg).1
        have hfit := ih2 a s hsa
        obtain ⟨g1, r1, T1, G1, hg1, hr1, hT1, hG1, rfl⟩ := sight_some hsa
        obtain ⟨g2, r2, T2, G2, hg2, hr2, hT2, hG2, rfl⟩ := sight_some hs'
        obtain rfl := Option.some.inj (hg1.symm.trans hg2)
        obtain rfl := Option.some.inj (hr1.symm.trans hr2)
        obtain rfl := Option.some.inj (hG1.symm.trans hG2)
        exact hfit
      | center a c =>
        obtain rfl : a = b := by simpa [Spec.target] using ht
        obtain ⟨g, T, hg, hT, rfl⟩ := setCenter_some hs
        obtain ⟨s, hsa⟩ := sight_exists hA (List.getElem?_eq_some_iff.1 hg).1
        have hfit := ih2 a s hsa
        obtain ⟨g1, r1, T1, G1, hg1, hr1, hT1, hG1, rfl⟩ := sight_some hsa
        obtain ⟨g2, r2, T2, G2, hg2, hr2, hT2, hG2, rfl⟩ := sight_some hs'
        obtain rfl := Option.some.inj (hg1.symm.trans hg2)
        obtain rfl := Option.some.inj (hr1.symm.trans hr2)
        obtain rfl := Option.some.inj (hG1.symm.trans hG2)
        exact hfit
      | _ => simp [Spec.target] at ht
    · by_cases hb : b < H.gears.length
      · obtain ⟨s, hsb⟩ := sight_exists hA hb
        have := sight_frame hA hu hs ht hsb
        obtain rfl := Option.some.inj (this.symm.trans hs')
        exact ih2 b s hsb
      · have hb' : b < H'.gears.length := by
          obtain ⟨g, -, -, -, hg, -⟩ := sight_some hs'
          exact (List.getElem?_eq_some_iff.1 hg).1
        cases x with
        | makeGear zVals m tooth gen recipe transform cone =>
          obtain rfl : recipe = none := hpl
          have hv := hs
          rw [CoreHeap.step] at hv
          split_ifs at hv with hv1
          obtain ⟨gens, recipes, ts, cones, g, r, t, rfl, -⟩ := newGear_some hv
          have eb : b = H.gears.length := by
            simp only [List.length_append, List.length_singleton] at hb'
            omega
          subst eb
          obtain ⟨G, hG, hGf⟩ : ∃ G, (gen.elim (G = .default) fun i => H.gens[i]? = some G) ∧ G.cls ≠ .flat := by
            cases gen with
            | none => exact ⟨_, rfl, by simp [FlankGen.default]⟩
            | some i =>
              have hi := hv1.1 i rfl
              exact ⟨_, List.getElem?_eq_getElem hi, ih1 _ (List.getElem_mem hi)⟩
          obtain ⟨s, h1, -, h2, -⟩ := c136_construct_partial hs hG hGf
          obtain rfl := Option.some.inj (h1.symm.trans hs')
          exact h2
        | copy a =>
          have hv := hs
          obtain ⟨g, r, T, G, l, n, m, hg, hr, hT, hG, -, -, -, -, rfl⟩ := copyGear_some hs
          have eb : b = H.gears.length := by
            simp only [List.length_append, List.length_singleton] at hb'
            omega
          subst eb
          have hsa := sight_mk hg hr hT hG
          have := c136_copy hv hsa
          obtain rfl := Option.some.inj (this.symm.trans hs')
          exact ih2 a _ hsa
        | swap a gen =>
          obtain ⟨g, G, r, old, c, hg, hG, hr, ho, hc, rfl⟩ := swapGen_some hs
          simp at hb'
          omega
        | mesh a k d =>
          obtain ⟨g, T, hg, hT, rfl⟩ := mesh_some hs
          exact absurd hb' hb
        | center a c =>
          obtain ⟨g, T, hg, hT, rfl⟩ := setCenter_some hs
          exact absurd hb' hb
        | makeRecipe s g => exact hpl.elim
        | _ =>
          simp only [CoreHeap.step, Option.some.injEq] at hs
          subst hs
          exact absurd hb' hb

/-! ## Gears that share objects, and arguments that do not work -/

/-- A cylindrical gear with `N` teeth, heights 0 and 1, module 1, and the given objects. -/
noncomputable def plainGear (N : ℝ) (gen transform : Option ℕ) : CoreAct :=
  .makeGear [0, 1] 1 ⟨N, 0, false⟩ gen none transform none

/-- Its recipe before the cone angle is replaced by 0. -/
noncomputable def plainRec (N : ℝ) : ℝ → Option CoreSlice :=
  gearRecipeFromCurve N (defaultRefCurve N 0 [0, 1]).eval
    (fun z => z / (([0, 1] : List ℝ).getLastD 0 - ([0, 1] : List ℝ).headD 0)) DELTA

theorem plain_slice {N : ℝ} (hN : 0 < N) (z : ℝ) :
    (plainRec N z).map (fun s => { s with coneAngle := 0 }) = some ⟨0, N / 2, ⟨⟨z • OUT, 1, 1⟩, 0⟩⟩ := by
  have h := make_slice [0, 1] 1 ⟨N, 0, false⟩ 0 none 1 z (by simp) one_pos hN (by linarith [pi_pos]) pi_pos.le
    (by simpa using hN) (by simp; linarith) (by simp; linarith)
  simpa [CoreGear.make, defaultGamma, plainRec] using h

theorem plain_step {H : CoreHeap} {N : ℝ} {i : ℕ} {G : FlankGen} (hG : H.gens[i]? = some G) :
    H.step (plainGear N (some i) none) = some { H with
      gens := H.gens.set i (G.fit N 0 (plainRec N))
      recipes := H.recipes ++ [⟨fun z => (plainRec N z).map fun s => { s with coneAngle := 0 }, i⟩]
      transforms := H.transforms ++ [GearTransform.default]
      gears := H.gears ++ [⟨1, [0, 1], ⟨N, 0, false⟩, i, H.recipes.length, H.transforms.length⟩] } := by
  obtain ⟨hi, rfl⟩ := List.getElem?_eq_some_iff.1 hG
  simp [CoreHeap.step, plainGear, CoreHeap.newGear, CoreHeap.takeGen, CoreHeap.takeCone, CoreHeap.takeRecipe,
    CoreHeap.takeTransform, hi, plainRec]
  rfl

theorem plain_step_at {H : CoreHeap} {N : ℝ} {t : ℕ} (ht : t < H.transforms.length) :
    H.step (plainGear N none (some t)) = some { H with
      gens := H.gens ++ [FlankGen.default.fit N 0 (plainRec N)]
      recipes := H.recipes ++ [⟨fun z => (plainRec N z).map fun s => { s with coneAngle := 0 }, H.gens.length⟩]
      gears := H.gears ++ [⟨1, [0, 1], ⟨N, 0, false⟩, H.gens.length, H.recipes.length, t⟩] } := by
  simp [CoreHeap.step, plainGear, CoreHeap.newGear, CoreHeap.takeGen, CoreHeap.takeCone, CoreHeap.takeRecipe,
    CoreHeap.takeTransform, ht, plainRec]

theorem plain_fit {G : FlankGen} {N z : ℝ} {rec : ℝ → Option CoreSlice} (hG : G.cls ≠ .flat) :
    (G.fit N 0 rec).eval z = some ⟨G.cls, G.own z, 2 * π / N / 4, N / 2, some 0, G.pitchAngle⟩ := by
  rw [eval_fit hG]; simp

/-- **C136 is violated for gears made from one tooth generator.** `Gear.__init__` writes the numbers of the gear into the generator
it is given. When a second gear is made from the same generator, the tooth flanks of the first one become those of the second: the
first gear keeps its number of teeth and pitch circle, and its flanks are made for another pitch radius and spacing, whatever the
(different) numbers of teeth. -/
theorem c136_generator_violated (N1 N2 : ℝ) (h1 : 0 < N1) (hne : N1 ≠ N2) :
    ∃ H0 H s0 s, CoreHeap.empty.run [.makeGen .default, plainGear N1 (some 0) none] = some H0 ∧
      H0.step (plainGear N2 (some 0) none) = some H ∧ H0.sight 0 = some s0 ∧ H.sight 0 = some s ∧
      Spec.Fits s0 ∧ ¬ Spec.Fits s ∧ s.core = s0.core ∧ ∀ z, ∃ f, s.flank z = some f ∧ f.pitchRadius = N2 / 2 ∧
        4 * f.pitchIntersectAngle = 2 * π / N2 := by
  have hr1 : CoreHeap.empty.run [.makeGen .default, plainGear N1 (some 0) none] = _ :=
    show ((CoreHeap.mk [.default] [] [] [] []).step (plainGear N1 (some 0) none)).bind (fun H => some H) = _ by
      rw [plain_step (G := .default) rfl, Option.bind_some]
  have hs1 := plain_step (N := N2) (i := 0) (G := FlankGen.default.fit N1 0 (plainRec N1))
    (H := ⟨[FlankGen.default.fit N1 0 (plainRec N1)], [⟨fun z => (plainRec N1 z).map fun s => { s with coneAngle := 0 }, 0⟩],
      [GearTransform.default], [], [⟨1, [0, 1], ⟨N1, 0, false⟩, 0, 0, 0⟩]⟩) rfl
  refine ⟨_, _, _, _, hr1, hs1, sight_mk rfl rfl rfl rfl, sight_mk rfl rfl rfl rfl, ?_, ?_, ?_, ?_⟩
  · intro z c hz
    simp only [GearRec.sight, plain_fit (show FlankGen.default.cls ≠ .flat by simp [FlankGen.default]), plain_slice h1,
      Option.bind_some, Option.some.injEq] at hz ⊢
    exact ⟨_, rfl, by rw [← hz], by rw [← hz], by ring⟩
  · intro hF
    have hz : (GearRec.sight ⟨1, [0, 1], ⟨N1, 0, false⟩, 0, 0, 0⟩
        ⟨fun z => (plainRec N1 z).map fun s => { s with coneAngle := 0 }, 0⟩ GearTransform.default
        ((FlankGen.default.fit N1 0 (plainRec N1)).fit N2 0 (plainRec N2))).core.slice 0 =
        some ⟨0, N1 / 2, ⟨⟨(0 : ℝ) • OUT, 1, 1⟩, 0⟩⟩ := by
      simp only [GearRec.sight, plain_slice h1]
      rw [plain_fit (by simp [FlankGen.default, FlankGen.fit])]
      rfl
    obtain ⟨f, hf, h3, -⟩ := hF _ _ hz
    simp only [GearRec.sight, plain_slice h1] at hf
    rw [plain_fit (by simp [FlankGen.default, FlankGen.fit]), Option.bind_some, Option.some.injEq] at hf
    rw [← hf] at h3
    simp only at h3
    exact hne (by linarith)
  · simp only [GearRec.sight, plain_slice h1, CoreGear.mk.injEq, true_and, and_true]
    funext z
    rw [plain_fit (by simp [FlankGen.default, FlankGen.fit]), plain_fit (by simp [FlankGen.default])]
    rfl
  · intro z
    simp only [GearRec.sight, plain_slice h1]
    rw [plain_fit (by simp [FlankGen.default, FlankGen.fit])]
    exact ⟨_, rfl, rfl, by ring⟩

/-- **C136 is violated for gears made with one transform.** `Gear.__init__` keeps the transform it is given, and the methods
write into it. After meshing two cylindrical gears that were made with the same transform, both have been moved by the
distance of the axes: they are in the same place instead of being side by side. -/
theorem c136_transform_violated (N1 N2 : ℝ) (h1 : 0 < N1) (h2 : 0 < N2) (T : GearTransform) (d : V3) :
    ∃ H0 H s0 s1 s, CoreHeap.empty.run [.makeTransform T, plainGear N1 none (some 0), plainGear N2 none (some 0)] = some H0 ∧
      H0.step (.mesh 1 0 d) = some H ∧ H0.sight 0 = some s0 ∧ H.sight 0 = some s ∧ H.sight 1 = some s1 ∧
      s.core.transform.center = s0.core.transform.center + (N1 / 2 + N2 / 2) • d ∧
      s1.core.transform = s.core.transform := by
  obtain ⟨H0, hH0⟩ : ∃ H0 : CoreHeap, H0 = ⟨[FlankGen.default.fit N1 0 (plainRec N1), FlankGen.default.fit N2 0 (plainRec N2)],
    [⟨fun z => (plainRec N1 z).map fun s => { s with coneAngle := 0 }, 0⟩,
      ⟨fun z => (plainRec N2 z).map fun s => { s with coneAngle := 0 }, 1⟩], [T], [],
    [⟨1, [0, 1], ⟨N1, 0, false⟩, 0, 0, 0⟩, ⟨1, [0, 1], ⟨N2, 0, false⟩, 1, 1, 0⟩]⟩ := ⟨_, rfl⟩
  have hr : CoreHeap.empty.run [.makeTransform T, plainGear N1 none (some 0), plainGear N2 none (some 0)] = some H0 := by
    rw [hH0]
    show ((CoreHeap.mk [] [] [T] [] []).step (plainGear N1 none (some 0))).bind
      (fun H => (H.step (plainGear N2 none (some 0))).bind fun H => some H) = _
    rw [plain_step_at (by simp), Option.bind_some, plain_step_at (by simp), Option.bind_some]
    rfl
  have hc : ∀ N : ℝ, 0 < N → ∀ (n : ℕ) (g : GearRec),
      (g.sight ⟨fun z => (plainRec N z).map fun s => { s with coneAngle := 0 }, n⟩ T (FlankGen.default.fit N 0 (plainRec N))).core.cone = some ⟨0, N / 2, TransformData.default⟩ := by
    intro N hN n g
    simp only [CoreGear.cone, GearRec.sight, plain_slice hN]
    rw [plain_fit (by simp [FlankGen.default])]
    rfl
  have e0 : H0.sight 0 = some (GearRec.sight ⟨1, [0, 1], ⟨N1, 0, false⟩, 0, 0, 0⟩
      ⟨fun z => (plainRec N1 z).map fun s => { s with coneAngle := 0 }, 0⟩ T (FlankGen.default.fit N1 0 (plainRec N1))) := by
    rw [hH0]; exact sight_mk rfl rfl rfl rfl
  have e1 : H0.sight 1 = some (GearRec.sight ⟨1, [0, 1], ⟨N2, 0, false⟩, 1, 1, 0⟩
      ⟨fun z => (plainRec N2 z).map fun s => { s with coneAngle := 0 }, 1⟩ T (FlankGen.default.fit N2 0 (plainRec N2))) := by
    rw [hH0]; exact sight_mk rfl rfl rfl rfl
  have g0 : H0.gears[0]? = some ⟨1, [0, 1], ⟨N1, 0, false⟩, 0, 0, 0⟩ := by rw [hH0]; rfl
  have g1 : H0.gears[1]? = some ⟨1, [0, 1], ⟨N2, 0, false⟩, 1, 1, 0⟩ := by rw [hH0]; rfl
  have t0 : H0.transforms = [T] := by rw [hH0]
  have hm : ∃ T' : GearTransform, T'.center = T.center + (N1 / 2 + N2 / 2) • d ∧
      H0.step (.mesh 1 0 d) = some { H0 with transforms := [T'] } := by
    rw [CoreHeap.step, CoreHeap.mesh]
    simp only [g0, g1, e0, e1, hc N1 h1, hc N2 h2]
    simp only [ne_eq, not_true_eq_false, or_self, if_false, t0, Bool.or_self, CoreHeap.turn]
    simp [GearRec.sight, CoreGear.rp]
    module
  obtain ⟨T', hT', hm⟩ := hm
  have k0 := sight_mk (H := { H0 with transforms := [T'] }) (a := 0) (T := T') (g := ⟨1, [0, 1], ⟨N1, 0, false⟩, 0, 0, 0⟩)
    (r := ⟨fun z => (plainRec N1 z).map fun s => { s with coneAngle := 0 }, 0⟩) (G := FlankGen.default.fit N1 0 (plainRec N1))
    g0 (by rw [hH0]; rfl) rfl (by rw [hH0]; rfl)
  have k1 := sight_mk (H := { H0 with transforms := [T'] }) (a := 1) (T := T') (g := ⟨1, [0, 1], ⟨N2, 0, false⟩, 1, 1, 0⟩)
    (r := ⟨fun z => (plainRec N2 z).map fun s => { s with coneAngle := 0 }, 1⟩) (G := FlankGen.default.fit N2 0 (plainRec N2))
    g1 (by rw [hH0]; rfl) rfl (by rw [hH0]; rfl)
  exact ⟨H0, _, _, _, _, hr, hm, e0, k0, k1, hT', rfl⟩

/-- **C136 is violated for the arguments.** Making a gear changes the cone and the tooth generator that the caller handed over: the
base radius of the cone becomes half the number of teeth, and the generator gets the numbers of the gear. -/
theorem c136_argument_violated (H : CoreHeap) (zVals : List ℝ) (m : ℝ) (tooth : GearToothParam) (i k : ℕ) (G : FlankGen)
    (c : ConicData) (hG : H.gens[i]? = some G) (hc : H.cones[k]? = some c) :
    ∃ H' G', H.step (.makeGear zVals m tooth (some i) none none (some k)) = some H' ∧
      H'.cones[k]? = some { c with baseRadius := tooth.numTeeth / 2 } ∧ H'.gens[i]? = some G' ∧
      G'.pitchRadius = (fun _ => tooth.numTeeth / 2) ∧ G'.pitchIntersectAngle = fun _ => tooth.pitchAngle / 4 := by
  have hi := (List.getElem?_eq_some_iff.1 hG).1
  obtain ⟨H', h⟩ : ∃ H', H.newGear zVals m tooth (some i) none none (some k) = some H' := by
    simp only [CoreHeap.newGear, CoreHeap.takeGen, CoreHeap.takeCone, CoreHeap.takeRecipe, hG, hc]
    exact ⟨_, rfl⟩
  have hs : H.step (.makeGear zVals m tooth (some i) none none (some k)) = some H' := by
    simp [CoreHeap.step, hi, h]
  obtain ⟨gens, recipes, ts, cones, g, r, t, rfl, -, -, hg, hr, -, -, hc2⟩ := newGear_some h
  obtain ⟨c', h1, rfl⟩ := hc2 k rfl
  obtain rfl := Option.some.inj (hc.symm.trans h1)
  rcases hg with ⟨e, -⟩ | ⟨e, -⟩
  swap
  · simp at e
  obtain rfl := Option.some.inj e
  rcases hr with ⟨e, -⟩ | ⟨-, -, gamma, G', rec, -, -, -, -, -, hfit, -⟩
  · simp at e
  refine ⟨_, _, hs, ?_, hfit, rfl, rfl⟩
  simp [(List.getElem?_eq_some_iff.1 hc).1]

/-- **C136 is violated for plain tooth generators.** A gear made from a `GearToothGenerator`, the type its constructor asks for,
cannot be evaluated at any height: the constructor adds the attribute `cone_angle`, which `GearToothGenerator.__init__` does not
accept when the recipe is evaluated. -/
theorem c136_flat_violated (H : CoreHeap) (zVals : List ℝ) (m : ℝ) (tooth : GearToothParam) (i : ℕ) (G : FlankGen)
    (hG : H.gens[i]? = some G) (hf : G.cls = .flat) :
    ∃ H' s, H.step (.makeGear zVals m tooth (some i) none none none) = some H' ∧ H'.sight H.gears.length = some s ∧
      s.core.cone = none ∧ ∀ z, s.core.slice z = none ∧ s.flank z = none := by
  have hi := (List.getElem?_eq_some_iff.1 hG).1
  obtain ⟨H', h⟩ : ∃ H', H.newGear zVals m tooth (some i) none none none = some H' := by
    simp only [CoreHeap.newGear, CoreHeap.takeGen, CoreHeap.takeCone, CoreHeap.takeRecipe, hG]
    exact ⟨_, rfl⟩
  have hs : H.step (.makeGear zVals m tooth (some i) none none none) = some H' := by
    simp [CoreHeap.step, hi, h]
  obtain ⟨gens, recipes, ts, cones, g, r, t, rfl, -, -, hg, hr, ht, -, -⟩ := newGear_some h
  rcases hg with ⟨e, -⟩ | ⟨e, -⟩
  swap
  · simp at e
  obtain rfl := Option.some.inj e
  rcases ht with ⟨e, -⟩ | ⟨-, et, hts⟩
  · simp at e
  rcases hr with ⟨e, -⟩ | ⟨-, er, gamma, G', rec, hG1, -, -, -, -, hfit, hrs⟩
  · simp at e
  obtain rfl := Option.some.inj (hG.symm.trans (hG1 _ rfl))
  have hev : ∀ z, (G.fit tooth.numTeeth gamma rec).eval z = none := by
    intro z
    simp [FlankGen.eval, FlankGen.fit, hf]
  refine ⟨_, _, hs, sight_mk (g := ⟨m, zVals, tooth, i, r, t⟩) (by simp) (by simp only [hrs, er]; exact List.getElem?_concat_length)
    (by simp only [hts, et]; exact List.getElem?_concat_length) hfit, ?_, fun z => ?_⟩
  · simp [CoreGear.cone, GearRec.sight, hev]
  · simp [GearRec.sight, hev]

/-- **C136 is violated when a plain tooth generator is swapped in**: `swap_tooth_generator` succeeds and the gear cannot be
evaluated at any height afterwards. -/
theorem c136_swap_flat_violated {H H' : CoreHeap} {a gen : ℕ} {s : GearSight} {G : FlankGen}
    (h : H.step (.swap a gen) = some H') (hs : H.sight a = some s) (hG : H.gens[gen]? = some G) (hf : G.cls = .flat) :
    ∃ s', H'.sight a = some s' ∧ s'.core.cone = none ∧ ∀ z, s'.core.slice z = none ∧ s'.flank z = none := by
  obtain ⟨g, G1, r, old, c, hg, hG1, hr, ho, hc, rfl⟩ := swapGen_some h
  obtain ⟨g', r', T, old', hg', hr', hT, ho', rfl⟩ := sight_some hs
  obtain rfl := Option.some.inj (hg.symm.trans hg')
  obtain rfl := Option.some.inj (hG1.symm.trans hG)
  have la := (List.getElem?_eq_some_iff.1 hg).1
  have lr := (List.getElem?_eq_some_iff.1 hr).1
  refine ⟨_, sight_mk (g := { g with gen := H.gens.length }) (r := { r with gen := H.gens.length })
      (G := { G1 with pitchRadius := old.pitchRadius, coneAngle := some c, pitchIntersectAngle := old.pitchIntersectAngle })
      (by simp [la]) (by simp [lr]) hT (by simp), ?_, fun z => ?_⟩
  · simp [CoreGear.cone, GearRec.sight, FlankGen.eval, hf]
  · simp [GearRec.sight, FlankGen.eval, hf]

/-- **C136 is violated for undercut generators.** The generators with undercut also have a pitch angle, which places the cutting
rack. The gear does not set it: the default value fits 32 teeth only. -/
theorem c136_pitch_angle_violated {H H' : CoreHeap} {zVals : List ℝ} {m : ℝ} {tooth : GearToothParam} {i : ℕ}
    {transform cone : Option ℕ} {G : FlankGen} (hN : 0 < tooth.numTeeth)
    (h : H.step (.makeGear zVals m tooth (some i) none transform cone) = some H') (hG : H.gens[i]? = some G)
    (hcls : G.cls = .involuteUndercut ∨ G.cls = .octoidUndercut) (hp : G.pitchAngle = some (π / 16)) :
    ∃ s, H'.sight H.gears.length = some s ∧ ∀ z f, s.flank z = some f →
      f.pitchAngle = some (π / 16) ∧ (f.pitchAngle = some s.core.tooth.pitchAngle ↔ tooth.numTeeth = 32) := by
  obtain ⟨s, h1, h2, -, h4⟩ := c136_construct_partial h (G := G) hG (by rcases hcls with e | e <;> simp [e])
  refine ⟨s, h1, fun z f hz => ?_⟩
  obtain ⟨-, -, h5⟩ := h4 z f hz
  rw [h5, hp]
  refine ⟨rfl, ?_⟩
  have e : s.core.tooth = tooth := by rw [h2]; rfl
  rw [e, Option.some.injEq, GearToothParam.pitchAngle, div_eq_div_iff (by norm_num) hN.ne']
  constructor
  · intro h6
    have := pi_pos
    nlinarith
  · intro h6
    rw [h6]
    ring

theorem plain_step_flat {H : CoreHeap} {N : ℝ} {i : ℕ} {G : FlankGen} (hG : H.gens[i]? = some G) :
    H.step (plainGear N (some i) none) = some { H with
      gens := H.gens.set i { G with pitchRadius := fun _ => N / 2, coneAngle := some fun _ => some 0
                                    pitchIntersectAngle := fun _ => 2 * π / N / 4 }
      recipes := H.recipes ++ [⟨fun z => (plainRec N z).map fun s => { s with coneAngle := 0 }, i⟩]
      transforms := H.transforms ++ [GearTransform.default]
      gears := H.gears ++ [⟨1, [0, 1], ⟨N, 0, false⟩, i, H.recipes.length, H.transforms.length⟩] } := by
  rw [plain_step hG]
  simp [FlankGen.fit]

/-- An involute generator of the user's. -/
noncomputable def involuteGen : FlankGen :=
  ⟨.involute, fun _ => [π / 9, 1, 12 / 10, 2], fun _ => π / 16, fun _ => 1, some fun _ => some (π / 4), none⟩

/-- Concrete case for the theorems above: a gear from a generator of its own, a copy, another tooth form for the first gear,
and a further gear with the generator that was used for the swap. -/
theorem c136_case : ∃ H, Spec.Program [.makeGen .default, .makeGen involuteGen, plainGear 10 (some 0) none, .copy 0, .swap 0 1,
    plainGear 20 (some 1) none] H ∧ (∀ x ∈ ([.makeGen .default, .makeGen involuteGen, plainGear 10 (some 0) none, .copy 0, .swap 0 1,
    plainGear 20 (some 1) none] : List CoreAct), Spec.Plain x) ∧ H.gears.length = 3 ∧
    (∃ s f, H.sight 0 = some s ∧ s.flank 0 = some f ∧ f.cls = .involute ∧ f.pitchRadius = 5) ∧
    (∃ s f, H.sight 1 = some s ∧ s.flank 0 = some f ∧ f.cls = .conic ∧ f.pitchRadius = 5) ∧
    (∃ s f, H.sight 2 = some s ∧ s.flank 0 = some f ∧ f.cls = .involute ∧ f.pitchRadius = 10) ∧
    ∃ H', H.step (.mesh 0 2 RIGHT) = some H' := by
  have p0 : Spec.Program [] .empty := .nil
  have p1 := p0.snoc (x := .makeGen .default) trivial rfl
  have p2 := p1.snoc (x := .makeGen involuteGen) trivial rfl
  have p3 := p2.snoc (x := plainGear 10 (some 0) none) (by simp [Spec.Unused, plainGear, CoreHeap.empty])
    (plain_step_flat (G := .default) rfl)
  have p4 := p3.snoc (x := .copy 0) trivial rfl
  have p5 := p4.snoc (x := .swap 0 1) trivial rfl
  have p6 := p5.snoc (x := plainGear 20 (some 1) none) (by simp [Spec.Unused, plainGear, CoreHeap.empty])
    (plain_step_flat (G := involuteGen) rfl)
  have q10 := plain_slice (N := 10) (by norm_num) 0
  have q20 := plain_slice (N := 20) (by norm_num) 0
  refine ⟨_, p6, ?_, rfl,
    ⟨_, ⟨.involute, [π / 9, 1, 12 / 10, 2], 2 * π / 10 / 4, 10 / 2, some 0, none⟩, sight_mk rfl rfl rfl rfl, ?_, rfl, by norm_num⟩,
    ⟨_, ⟨.conic, [0, 1, 12 / 10, 2], 2 * π / 10 / 4, 10 / 2, some 0, none⟩, sight_mk rfl rfl rfl rfl, ?_, rfl, by norm_num⟩,
    ⟨_, ⟨.involute, [π / 9, 1, 12 / 10, 2], 2 * π / 20 / 4, 20 / 2, some 0, none⟩, sight_mk rfl rfl rfl rfl, ?_, rfl, by norm_num⟩, ?_⟩
  · simp [Spec.Plain, plainGear, FlankGen.default, involuteGen]
  · simp only [GearRec.sight]
    rw [q10]
    rfl
  · simp only [GearRec.sight]
    rw [q10]
    rfl
  · simp only [GearRec.sight]
    rw [q20]
    rfl
  · have hm := c136_mesh_partial (a := 0) (b := 2) (d := RIGHT) p6 (by norm_num) (sight_mk rfl rfl rfl rfl) (sight_mk rfl rfl rfl rfl)
    rw [CoreGear.meshTo] at hm
    simp only [CoreGear.cone, GearRec.sight] at hm
    rw [q10, q20] at hm
    have e1 : ∀ (G : FlankGen) (f : FlankData) (c : CoreSlice), G.eval 0 = some f →
        ((G.eval 0).bind fun _ => some c) = some c := by
      intro G f c h
      rw [h]; rfl
    rw [e1 _ ⟨.involute, [π / 9, 1, 12 / 10, 2], 2 * π / 10 / 4, 10 / 2, some 0, none⟩ _ rfl,
      e1 _ ⟨.involute, [π / 9, 1, 12 / 10, 2], 2 * π / 20 / 4, 20 / 2, some 0, none⟩ _ rfl] at hm
    simp only [Option.map_some, ne_eq, not_true_eq_false, or_self, if_false] at hm
    rw [Option.bind_eq_some_iff] at hm
    exact ⟨_, hm.choose_spec.1⟩

end Verif
