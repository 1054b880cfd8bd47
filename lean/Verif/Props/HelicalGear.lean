import Verif.Props.Wrapper

/-! # Properties C64 and C65: helical gears -/

namespace Verif

open Real

theorem refine_recipe (c : GearCore) : c.refine.recipe = c.recipe ∧ c.refine.transform = c.transform ∧
    c.refine.tooth = c.tooth ∧ c.refine.module_ = c.module_ := by
  rw [GearCore.refine]; split_ifs <;> exact ⟨rfl, rfl, rfl, rfl⟩

/-- What both helical classes store, apart from sections and twist. -/
theorem helical_fields (hb : Bool) (p : GearInput) (hn : 0 < p.numTeeth) (g : WGear)
    (hg : g = helicalGear hb p ∨ g = helicalRingGear hb p) :
    ∃ q : GearInput, g.input = q ∧ (q = p.transverse ∨ q = { p.transverse with insideTeeth := true }) ∧
      g.core.module_ = q.module_ ∧ g.core.tooth.numTeeth = p.numTeeth ∧ g.core.recipe.limits = q.involuteLimits ∧
      g.core.recipe.gen = q.involuteGen ∧ g.core.transform.scale = q.module_ ∧
      g.core.recipe.center = (q.calcParams ⟨q.numTeeth, 0, q.insideTeeth⟩).recipe.center ∧
      g.core.recipe.scale = (q.calcParams ⟨q.numTeeth, 0, q.insideTeeth⟩).recipe.scale := by
  rcases hg with rfl | rfl
  · have e : involuteGear p.transverse = ⟨p.transverse, p.transverse.calcParams ⟨p.numTeeth, 0, p.insideTeeth⟩⟩ := by
      rw [involuteGear, normalise_pos (p := p.transverse) hn, make_pos (n := p.transverse.numTeeth) hn]; rfl
    refine ⟨p.transverse, ?_⟩
    obtain ⟨r1, r2, r3, r4⟩ := refine_recipe
      (if hb then (involuteGear p.transverse).core.herringbone else (involuteGear p.transverse).core)
    simp only [helicalGear]
    rw [r1, r2, r3, r4, e]
    refine ⟨rfl, Or.inl trivial, ?_, ?_, ?_, ?_, ?_, ?_, ?_⟩ <;> cases hb <;> rfl
  · have e : ({ p.transverse with insideTeeth := true } : GearInput).normalise =
        { p.transverse with insideTeeth := true } := normalise_pos (p := { p.transverse with insideTeeth := true }) hn
    refine ⟨{ p.transverse with insideTeeth := true }, ?_⟩
    simp only [helicalRingGear]
    rw [e, make_pos (n := p.transverse.numTeeth) hn]
    refine ⟨rfl, Or.inr trivial, ?_, ?_, ?_, ?_, ?_, ?_, ?_⟩ <;> cases hb <;> rfl

/-- The pressure angle handed to the tooth generator. -/
def ToothGen.pressure : ToothGen → ℝ
  | .involute a _ _ _ _ => a
  | .involuteUndercut a _ _ _ _ _ => a
  | .octoid a _ _ _ => a
  | .octoidUndercut a _ _ _ _ _ => a
  | .cycloid _ _ _ _ _ => 0

/-- **C64, planes**. A helical gear or helical ring gear made from normal-plane data has: transverse module `mn / cos β`,
transverse pressure angle with `tan αt = tan αn / cos β`, addendum and dedendum heights (in world units, profile shift
included) of the coefficients times the normal module, and a tooth half width which measures
`mn (π/4 + x tan αn - backlash)` in the normal plane. -/
theorem c64_planes (hb : Bool) (p : GearInput) (hn : 0 < p.numTeeth) (hβ : 0 < cos p.helixAngle)
    (hcr : p.crowning = 0) (g : WGear) (hg : g = helicalGear hb p ∨ g = helicalRingGear hb p) :
    g.module_ * cos p.helixAngle = p.module_ ∧
      g.core.transform.scale = g.module_ ∧
      tan g.core.recipe.gen.pressure * cos p.helixAngle = tan p.pressureAngle ∧
      g.module_ * g.core.recipe.limits.hA = p.module_ * (p.addendum + p.profileShift) ∧
      g.module_ * g.core.recipe.limits.hD = p.module_ * (p.dedendum - p.profileShift) ∧
      g.pitchRadius * cos p.helixAngle = p.numTeeth * p.module_ / 2 ∧
      ∀ z, g.pitchRadius * g.core.recipe.gen.pitchIntersectAngle z * cos p.helixAngle =
        p.module_ * (π / 4 + p.profileShift * tan p.pressureAngle - p.backlash) := by
  obtain ⟨q, h1, h2, h3, h4, h5, h6, h7, -, -⟩ := helical_fields hb p hn g hg
  have hm : q.module_ = p.module_ / cos p.helixAngle := by rcases h2 with rfl | rfl <;> rfl
  have hp : q.involuteGen.pressure = arctan (tan p.pressureAngle / cos p.helixAngle) := by
    rcases h2 with rfl | rfl <;> rw [GearInput.involuteGen] <;> split_ifs <;> rfl
  have ha : q.involuteLimits.hA = p.addendum * cos p.helixAngle + p.profileShift * cos p.helixAngle := by
    rcases h2 with rfl | rfl <;> rfl
  have hd : q.involuteLimits.hD = p.dedendum * cos p.helixAngle - p.profileShift * cos p.helixAngle := by
    rcases h2 with rfl | rfl <;> rfl
  have hq : ∀ z, q.crowningFunc z q.toothAngle = 2 * π / p.numTeeth / 4 +
      p.profileShift * cos p.helixAngle * (tan p.pressureAngle / cos p.helixAngle) / (p.numTeeth / 2) -
        p.backlash / (p.numTeeth / 2) := by
    intro z
    rcases h2 with rfl | rfl <;>
      simp [GearInput.crowningFunc, GearInput.toothAngle, GearInput.transverse, hcr, tan_arctan]
  rw [WGear.module_, WGear.pitchRadius, h3, h4, h5, h6, h7, hm, hp, ha, hd, tan_arctan]
  refine ⟨by field_simp, rfl, by field_simp, by field_simp, by field_simp, by field_simp, fun z => ?_⟩
  rw [involuteGen_pia, hq]
  field_simp

theorem insertSorted_mid {lo mid hi : ℝ} (h1 : lo < mid) (h2 : mid ≤ hi) :
    insertSorted [lo, hi] mid = [lo, mid, hi] := by
  simp [insertSorted, h1, not_lt.2 h2]

/-- The sections a helical gear starts with. -/
noncomputable def startSections (hb : Bool) (lo hi : ℝ) : List ℝ := if hb then [lo, (hi + lo) / 2, hi] else [lo, hi]

/-- The twist function of a helical gear. -/
noncomputable def twistFun (hb : Bool) (k lo hi z : ℝ) : ℝ :=
  if hb then ((hi + lo) / 2 - |(hi + lo) / 2 - z|) * k else z * k

/-- Sections and twist before the refinement. -/
theorem helical_sections (hb : Bool) (c : GearCore) {lo hi k : ℝ} (hlt : lo < hi) (hz : c.zVals = [lo, hi])
    (ha : c.recipe.angle = fun z => z * k) :
    (if hb then c.herringbone else c).zVals = startSections hb lo hi ∧
      (if hb then c.herringbone else c).recipe.angle = twistFun hb k lo hi := by
  cases hb
  · exact ⟨hz, by rw [if_neg (by simp), ha]; rfl⟩
  · simp only [if_true, GearCore.herringbone, hz, ha, List.headD_cons, List.getLastD_cons, List.getLastD_nil]
    exact ⟨insertSorted_mid (by linarith) (by linarith), rfl⟩

/-- The ends of the sections of a helical gear. -/
noncomputable def lowEnd (p : GearInput) : ℝ := -(p.height / (p.module_ / cos p.helixAngle)) * p.zAnchor
/-- The upper end. -/
noncomputable def highEnd (p : GearInput) : ℝ := p.height / (p.module_ / cos p.helixAngle) * (1 - p.zAnchor)

theorem ends_sub (p : GearInput) : highEnd p - lowEnd p = p.height / (p.module_ / cos p.helixAngle) := by
  rw [highEnd, lowEnd]; ring

theorem helical_start (hb : Bool) (p : GearInput) (hn : 0 < p.numTeeth) (hlt : lowEnd p < highEnd p) :
    ∃ c : GearCore, c.zVals = startSections hb (lowEnd p) (highEnd p) ∧
      c.recipe.angle = twistFun hb (tan p.helixAngle / (p.numTeeth / 2)) (lowEnd p) (highEnd p) ∧
      (helicalGear hb p).core = c.refine := by
  have e : involuteGear p.transverse = ⟨p.transverse, p.transverse.calcParams ⟨p.numTeeth, 0, p.insideTeeth⟩⟩ := by
    rw [involuteGear, normalise_pos (p := p.transverse) hn, make_pos (n := p.transverse.numTeeth) hn]; rfl
  obtain ⟨h1, h2⟩ := helical_sections hb (p.transverse.calcParams ⟨p.numTeeth, 0, p.insideTeeth⟩)
    (lo := lowEnd p) (hi := highEnd p) (k := tan p.helixAngle / (p.numTeeth / 2)) hlt rfl rfl
  exact ⟨_, h1, h2, by simp only [helicalGear]; rw [e]⟩

theorem helical_ring_start (hb : Bool) (p : GearInput) (hn : 0 < p.numTeeth) (hlt : lowEnd p < highEnd p) :
    (helicalRingGear hb p).core.zVals = startSections hb (lowEnd p) (highEnd p) ∧
      (helicalRingGear hb p).core.recipe.angle =
        twistFun hb (tan p.helixAngle / (p.numTeeth / 2)) (lowEnd p) (highEnd p) := by
  have e : ({ p.transverse with insideTeeth := true } : GearInput).normalise =
      { p.transverse with insideTeeth := true } := normalise_pos (p := { p.transverse with insideTeeth := true }) hn
  simp only [helicalRingGear]
  rw [e, make_pos (n := p.transverse.numTeeth) hn]
  exact helical_sections hb _ (lo := lowEnd p) (hi := highEnd p) (k := tan p.helixAngle / (p.numTeeth / 2)) hlt rfl rfl

/-- The twist function has the slope of the helix everywhere. -/
theorem twistFun_lipschitz (hb : Bool) (k lo hi x y : ℝ) :
    |twistFun hb k lo hi x - twistFun hb k lo hi y| ≤ |k| * |x - y| := by
  cases hb
  · simp only [twistFun, Bool.false_eq_true, if_false]
    rw [← sub_mul, abs_mul, mul_comm]
  · simp only [twistFun, if_true]
    rw [← sub_mul, abs_mul, mul_comm]
    refine mul_le_mul_of_nonneg_left ?_ (abs_nonneg k)
    have := abs_abs_sub_abs_le_abs_sub ((hi + lo) / 2 - y) ((hi + lo) / 2 - x)
    calc _ = |(|(hi + lo) / 2 - y| - |(hi + lo) / 2 - x|)| := by congr 1; ring
      _ ≤ _ := this
      _ = _ := by congr 1; ring

theorem range20_of_monotone {f : Fin 20 → ℝ} (hf : Monotone f ∨ Antitone f) :
    |Finset.univ.sup' ⟨0, Finset.mem_univ _⟩ f - Finset.univ.inf' ⟨0, Finset.mem_univ _⟩ f| = |f 19 - f 0| := by
  rcases hf with h | h
  · have h1 : Finset.univ.sup' ⟨0, Finset.mem_univ _⟩ f = f 19 :=
      le_antisymm (Finset.sup'_le _ _ fun i _ => h (Fin.le_last i)) (Finset.le_sup' f (Finset.mem_univ _))
    have h2 : Finset.univ.inf' ⟨0, Finset.mem_univ _⟩ f = f 0 :=
      le_antisymm (Finset.inf'_le f (Finset.mem_univ _)) (Finset.le_inf' _ _ fun i _ => h (Fin.zero_le i))
    rw [h1, h2]
  · have h1 : Finset.univ.sup' ⟨0, Finset.mem_univ _⟩ f = f 0 :=
      le_antisymm (Finset.sup'_le _ _ fun i _ => h (Fin.zero_le i)) (Finset.le_sup' f (Finset.mem_univ _))
    have h2 : Finset.univ.inf' ⟨0, Finset.mem_univ _⟩ f = f 19 :=
      le_antisymm (Finset.inf'_le f (Finset.mem_univ _)) (Finset.le_inf' _ _ fun i _ => h (Fin.le_last i))
    rw [h1, h2, abs_sub_comm]

/-- The number of intervals per started section, times two for herringbone. -/
noncomputable def halves (hb : Bool) : ℕ := if hb then 2 else 1

/-- The sampled twist of the first section is the exact one. -/
theorem twist_eq (hb : Bool) (c : GearCore) {lo hi k : ℝ} (hlt : lo < hi) (hz : c.zVals = startSections hb lo hi)
    (ha : c.recipe.angle = twistFun hb k lo hi) : c.twistAngle = |k| * (hi - lo) / halves hb := by
  obtain ⟨z1, hz1, hd⟩ : ∃ z1, c.zVals.getD 1 0 = z1 ∧ z1 - lo = (hi - lo) / halves hb := by
    cases hb
    · exact ⟨hi, by simp [hz, startSections], by simp [halves]⟩
    · exact ⟨(hi + lo) / 2, by simp [hz, startSections], by simp [halves]; ring⟩
  have hz0 : c.zVals.getD 0 0 = lo := by cases hb <;> simp [hz, startSections]
  have hhalf : (0 : ℝ) < halves hb := by cases hb <;> simp [halves]
  have hpos : 0 < z1 - lo := by rw [hd]; exact div_pos (by linarith) hhalf
  have hmid : hb = true → z1 = (hi + lo) / 2 := by
    rintro rfl
    simp only [halves, if_true] at hd
    push_cast at hd
    linarith
  have hval : ∀ i : Fin 20, c.recipe.angle (linspaceAt lo z1 20 i) = (lo + (z1 - lo) * ((i : ℕ) / 19 : ℝ)) * k := by
    intro i
    have hi1 : ((i : ℕ) : ℝ) ≤ 19 := by exact_mod_cast Nat.le_of_lt_succ i.2
    have e : linspaceAt lo z1 20 i = lo + (z1 - lo) * ((i : ℕ) / 19 : ℝ) := by
      rw [linspaceAt]; norm_num
    rw [ha, e]
    cases hb
    · simp [twistFun]
    · have hle : lo + (z1 - lo) * ((i : ℕ) / 19 : ℝ) ≤ (hi + lo) / 2 := by
        rw [← hmid rfl]
        have : ((i : ℕ) / 19 : ℝ) ≤ 1 := by rw [div_le_one (by norm_num)]; exact hi1
        nlinarith
      simp only [twistFun, if_true]
      rw [abs_of_nonneg (by linarith)]
      ring
  have hmono : Monotone (fun i : Fin 20 => c.recipe.angle (linspaceAt lo z1 20 i)) ∨
      Antitone (fun i : Fin 20 => c.recipe.angle (linspaceAt lo z1 20 i)) := by
    have key : ∀ i j : Fin 20, i ≤ j → lo + (z1 - lo) * ((i : ℕ) / 19 : ℝ) ≤ lo + (z1 - lo) * ((j : ℕ) / 19 : ℝ) := by
      intro i j hij
      have : ((i : ℕ) : ℝ) ≤ ((j : ℕ) : ℝ) := by exact_mod_cast hij
      have : ((i : ℕ) / 19 : ℝ) ≤ ((j : ℕ) / 19 : ℝ) := by gcongr
      nlinarith
    rcases le_total 0 k with hk | hk
    · left; intro i j hij; simp only [hval]; exact mul_le_mul_of_nonneg_right (key i j hij) hk
    · right; intro i j hij; simp only [hval]; exact mul_le_mul_of_nonpos_right (key i j hij) hk
  rw [GearCore.twistAngle]
  simp only [hz0, hz1]
  rw [range20_of_monotone hmono, hval, hval]
  have : (lo + (z1 - lo) * (((19 : Fin 20) : ℕ) / 19 : ℝ)) * k - (lo + (z1 - lo) * (((0 : Fin 20) : ℕ) / 19 : ℝ)) * k =
      k * (z1 - lo) := by simp; ring
  rw [this, abs_mul, abs_of_pos hpos, hd]
  ring

/-- `zs` is a refinement of the sections `old`: ascending, with the same ends, containing the old ones. -/
def IsRefinement (zs old : List ℝ) : Prop :=
  zs.Pairwise (· < ·) ∧ zs.head? = old.head? ∧ zs.getLast? = old.getLast? ∧ ∀ z ∈ old, z ∈ zs

/-- No section of `zs` twists by more than `b`. -/
def TwistAtMost (f : ℝ → ℝ) (b : ℝ) (zs : List ℝ) : Prop :=
  zs.IsChain fun z w => ∀ x ∈ Set.Icc z w, ∀ y ∈ Set.Icc z w, |f x - f y| ≤ b

theorem head_of_sorted {zs : List ℝ} (h : zs.Pairwise (· < ·)) {lo : ℝ} (hm : lo ∈ zs) (hl : ∀ z ∈ zs, lo ≤ z) :
    zs.head? = some lo := by
  cases zs with
  | nil => simp at hm
  | cons a t =>
    rcases List.mem_cons.1 hm with rfl | hm'
    · rfl
    · have := (List.pairwise_cons.1 h).1 lo hm'
      have := hl a (by simp)
      linarith

theorem last_of_sorted {zs : List ℝ} (h : zs.Pairwise (· < ·)) {hi : ℝ} (hm : hi ∈ zs) (hl : ∀ z ∈ zs, z ≤ hi) :
    zs.getLast? = some hi := by
  have h' : zs.reverse.Pairwise (· > ·) := List.pairwise_reverse.2 (by simpa using h)
  rw [← List.head?_reverse]
  cases hr : zs.reverse with
  | nil => rw [List.reverse_eq_nil_iff] at hr; simp [hr] at hm
  | cons a t =>
    have hm2 : hi ∈ a :: t := by rw [← hr]; simpa using hm
    rw [hr] at h'
    rcases List.mem_cons.1 hm2 with rfl | hm'
    · rfl
    · have h1 := (List.pairwise_cons.1 h').1 hi hm'
      have h2 : a ∈ zs.reverse := by rw [hr]; simp
      have := hl a (by simpa using h2)
      linarith

/-- In an ascending list that contains a grid of step `d` from `lo` to `lo + n d` and lies within, neighbours are at
most `d` apart. -/
theorem neighbours_close {zs : List ℝ} (h : zs.Pairwise (· < ·)) {lo d : ℝ} {n : ℕ} (hd : 0 < d)
    (hg : ∀ j ≤ n, lo + d * j ∈ zs) (hin : ∀ z ∈ zs, lo ≤ z ∧ z ≤ lo + d * n) :
    zs.IsChain fun z w => w - z ≤ d := by
  rw [List.isChain_iff_getElem]
  intro i hi
  by_contra hcon
  push Not at hcon
  obtain ⟨a, ha⟩ : ∃ a, a = zs[i] := ⟨_, rfl⟩
  obtain ⟨b, hb⟩ : ∃ b, b = zs[i + 1] := ⟨_, rfl⟩
  rw [← ha, ← hb] at hcon
  have ha' := hin a (ha ▸ List.getElem_mem _)
  have hb' := hin b (hb ▸ List.getElem_mem _)
  have hnn : 0 ≤ (a - lo) / d := div_nonneg (by linarith) hd.le
  have f1 := Nat.floor_le hnn
  have f2 := Nat.lt_floor_add_one ((a - lo) / d)
  rw [le_div_iff₀ hd] at f1
  rw [div_lt_iff₀ hd] at f2
  have hlt : (⌊(a - lo) / d⌋₊ : ℝ) + 1 < n := by
    by_contra hc
    push Not at hc
    have : d * n ≤ d * ((⌊(a - lo) / d⌋₊ : ℝ) + 1) := mul_le_mul_of_nonneg_left hc hd.le
    nlinarith
  have hmem := hg (⌊(a - lo) / d⌋₊ + 1) (by exact_mod_cast hlt.le)
  push_cast at hmem
  obtain ⟨j, hj, hje⟩ := List.getElem_of_mem hmem
  have hp := List.pairwise_iff_getElem.1 h
  rcases Nat.lt_or_ge i j with hij | hij
  · have : zs[i + 1] ≤ zs[j] := by
      rcases Nat.lt_or_ge (i + 1) j with hij' | hij'
      · exact (hp _ _ _ _ hij').le
      · have : j = i + 1 := by omega
        subst this; exact le_rfl
    rw [hje, ← hb] at this
    nlinarith
  · have : zs[j] ≤ zs[i] := by
      rcases Nat.lt_or_ge j i with hij' | hij'
      · exact (hp _ _ _ _ hij').le
      · have : j = i := by omega
        subst this; exact le_rfl
    rw [hje, ← ha] at this
    nlinarith

theorem startSections_mem (hb : Bool) {lo hi : ℝ} (h : lo < hi) :
    (startSections hb lo hi).Pairwise (· < ·) ∧ lo ∈ startSections hb lo hi ∧ hi ∈ startSections hb lo hi ∧
      (∀ z ∈ startSections hb lo hi, lo ≤ z ∧ z ≤ hi) ∧ (startSections hb lo hi).head? = some lo ∧
      (startSections hb lo hi).getLast? = some hi ∧ (startSections hb lo hi).length = halves hb + 1 := by
  cases hb
  · simp only [startSections, Bool.false_eq_true, if_false]
    refine ⟨by simpa using h, by simp, by simp, ?_, rfl, rfl, rfl⟩
    intro z hz
    simp only [List.mem_cons, List.not_mem_nil, or_false] at hz
    rcases hz with rfl | rfl <;> constructor <;> linarith
  · simp only [startSections, if_true]
    refine ⟨?_, by simp, by simp, ?_, rfl, rfl, rfl⟩
    · simp only [List.pairwise_cons, List.mem_cons, List.not_mem_nil, or_false, List.Pairwise.nil, and_true]
      refine ⟨?_, ?_, by simp⟩
      · rintro a (rfl | rfl) <;> linarith
      · rintro a rfl; linarith
    · intro z hz
      simp only [List.mem_cons, List.not_mem_nil, or_false] at hz
      rcases hz with rfl | rfl | rfl <;> constructor <;> linarith

/-- The refinement of a core with the sections and the twist of a helical gear. -/
theorem refine_spec (hb : Bool) (c : GearCore) {lo hi k : ℝ} (hlt : lo < hi) (hz : c.zVals = startSections hb lo hi)
    (ha : c.recipe.angle = twistFun hb k lo hi) :
    IsRefinement c.refine.zVals c.zVals ∧ TwistAtMost c.refine.recipe.angle (2 * π) c.refine.zVals := by
  have htw := twist_eq hb c hlt hz ha
  obtain ⟨s1, s2, s3, s4, s5, s6, s7⟩ := startSections_mem hb hlt
  have hhalf : (0 : ℝ) < halves hb := by cases hb <;> simp [halves]
  have hh0 : halves hb ≠ 0 := by cases hb <;> simp [halves]
  rw [(refine_recipe c).1, ha]
  -- chains of short sections do not twist much
  have hshort : ∀ (zs : List ℝ) (d : ℝ), |k| * d ≤ 2 * π → (zs.IsChain fun z w => w - z ≤ d) →
      TwistAtMost (twistFun hb k lo hi) (2 * π) zs := by
    intro zs d hd hc
    refine hc.imp fun z w hzw x hx y hy => ?_
    refine (twistFun_lipschitz hb k lo hi x y).trans (le_trans ?_ hd)
    refine mul_le_mul_of_nonneg_left ?_ (abs_nonneg k)
    rw [abs_le]
    constructor <;> linarith [hx.1, hx.2, hy.1, hy.2]
  by_cases ht : c.twistAngle > 2 * π
  · obtain ⟨K, hK⟩ : ∃ K : ℕ, (⌊c.twistAngle / (2 * π)⌋ : ℤ) = K :=
      Int.eq_ofNat_of_zero_le (Int.floor_nonneg.2 (div_nonneg (by linarith [pi_pos]) (by linarith [pi_pos])))
    have hKlt : c.twistAngle / (2 * π) < K + 1 := by
      have := Int.lt_floor_add_one (c.twistAngle / (2 * π))
      rwa [hK] at this
    have hadd : ⌊(⌊c.twistAngle / (2 * π)⌋ : ℝ) * ((c.zVals.length : ℝ) - 1)⌋₊ = K * halves hb := by
      rw [hK, hz, s7]
      have : (((K : ℕ) : ℤ) : ℝ) * (((halves hb + 1 : ℕ) : ℝ) - 1) = ((K * halves hb : ℕ) : ℝ) := by push_cast; ring
      rw [this, Nat.floor_natCast]
    have hzs : c.refine.zVals = (((List.range ((K + 1) * halves hb + 1)).map
        (fun j => linspaceAt lo hi ((K + 1) * halves hb + 1) j)) ++ c.zVals).toFinset.sort (· ≤ ·) := by
      rw [GearCore.refine, if_pos ht]
      simp only [hadd]
      have e1 : c.zVals.headD 0 = lo := by rw [hz]; cases hb <;> rfl
      have e2 : c.zVals.getLastD 0 = hi := by rw [hz]; cases hb <;> rfl
      have e3 : K * halves hb + c.zVals.length = (K + 1) * halves hb + 1 := by rw [hz, s7]; ring
      rw [e1, e2, e3]
    obtain ⟨n, hn⟩ : ∃ n, n = (K + 1) * halves hb := ⟨_, rfl⟩
    rw [← hn] at hzs
    have hnpos : (0 : ℝ) < n := by
      rw [hn]; push_cast; positivity
    have hgrid : ∀ j : ℕ, linspaceAt lo hi (n + 1) j = lo + (hi - lo) / n * j := by
      intro j; rw [linspaceAt]; push_cast; rw [add_sub_cancel_right]; ring
    have hmem : ∀ z, z ∈ c.refine.zVals ↔ (∃ j ≤ n, lo + (hi - lo) / n * j = z) ∨ z ∈ startSections hb lo hi := by
      intro z
      rw [hzs, Finset.mem_sort, List.mem_toFinset, List.mem_append, hz]
      simp only [List.mem_map, List.mem_range, hgrid, Nat.lt_succ_iff]
    have hsorted : c.refine.zVals.Pairwise (· < ·) := by
      rw [hzs]; exact Finset.sortedLT_sort _ |>.pairwise
    have hgoal : lo + (hi - lo) / n * n = hi := by field_simp; ring
    have hin : ∀ z ∈ c.refine.zVals, lo ≤ z ∧ z ≤ hi := by
      intro z hz'
      rcases (hmem z).1 hz' with ⟨j, hj, rfl⟩ | h
      · have hj' : (j : ℝ) ≤ n := by exact_mod_cast hj
        have h0 : 0 ≤ (hi - lo) / n := div_nonneg (by linarith) hnpos.le
        constructor
        · have := mul_nonneg h0 (Nat.cast_nonneg (α := ℝ) j); linarith
        · have := mul_le_mul_of_nonneg_left hj' h0; linarith
      · exact s4 z h
    refine ⟨⟨hsorted, ?_, ?_, fun z h => (hmem z).2 (Or.inr (hz ▸ h))⟩, ?_⟩
    · rw [hz, s5]; exact head_of_sorted hsorted ((hmem _).2 (Or.inr s2)) fun z h => (hin z h).1
    · rw [hz, s6]; exact last_of_sorted hsorted ((hmem _).2 (Or.inr s3)) fun z h => (hin z h).2
    · refine hshort _ ((hi - lo) / n) ?_ (neighbours_close hsorted (lo := lo) (n := n) (div_pos (by linarith) hnpos)
        (fun j hj => (hmem _).2 (Or.inl ⟨j, hj, rfl⟩)) fun z h => by rw [hgoal]; exact hin z h)
      rw [htw, div_lt_iff₀ (by positivity), div_lt_iff₀ hhalf] at hKlt
      rw [← mul_div_assoc, div_le_iff₀ hnpos, hn]
      push_cast
      nlinarith
  · have hc : c.refine = c := by rw [GearCore.refine, if_neg ht]
    rw [hc]
    refine ⟨⟨hz ▸ s1, rfl, rfl, fun z h => h⟩, ?_⟩
    refine hshort _ ((hi - lo) / halves hb) ?_ ?_
    · rw [htw] at ht
      rw [← mul_div_assoc]; linarith
    · rw [hz]
      cases hb <;> simp [startSections, halves] <;> try constructor
      all_goals linarith

/-- **C65** for `HelicalGear`, with or without herringbone: the sections are ascending, start and end at the ends
given by height and anchor, contain the middle of a herringbone gear, and no section twists by more than a turn. -/
theorem c65_helical (hb : Bool) (p : GearInput) (hn : 0 < p.numTeeth) (hh : 0 < p.height) (hm : 0 < p.module_)
    (hβ : 0 < cos p.helixAngle) :
    ∃ zh, zh * (helicalGear hb p).module_ = p.height ∧
      IsRefinement (helicalGear hb p).core.zVals
        (if hb then [-zh * p.zAnchor, zh * (1 / 2 - p.zAnchor), zh * (1 - p.zAnchor)]
          else [-zh * p.zAnchor, zh * (1 - p.zAnchor)]) ∧
      TwistAtMost (helicalGear hb p).core.recipe.angle (2 * π) (helicalGear hb p).core.zVals := by
  have hlt : lowEnd p < highEnd p := by
    rw [← sub_pos, ends_sub]; positivity
  obtain ⟨c, h1, h2, h3⟩ := helical_start hb p hn hlt
  refine ⟨p.height / (p.module_ / cos p.helixAngle), ?_, ?_⟩
  · obtain ⟨q, -, hq, h, -⟩ := helical_fields hb p hn _ (Or.inl rfl)
    have : q.module_ = p.module_ / cos p.helixAngle := by rcases hq with rfl | rfl <;> rfl
    rw [WGear.module_, h, this]
    field_simp
  · rw [h3]
    have := refine_spec hb c hlt h1 h2
    refine ⟨?_, this.2⟩
    convert this.1
    rw [h1]
    cases hb
    · rfl
    · simp only [if_true, startSections, lowEnd, highEnd]
      congr 2
      ring

/-- **C65 is violated** by `HelicalRingGear`, which is never refined: its section is one that twists by more than a
turn as soon as the whole gear does. -/
theorem c65_ring_violated (p : GearInput) (hn : 0 < p.numTeeth) (hh : 0 < p.height) (hm : 0 < p.module_)
    (hβ : 0 < cos p.helixAngle)
    (htw : 2 * π < |tan p.helixAngle| * (p.height * cos p.helixAngle / p.module_) / (p.numTeeth / 2)) :
    ¬TwistAtMost (helicalRingGear false p).core.recipe.angle (2 * π) (helicalRingGear false p).core.zVals := by
  have hlt : lowEnd p < highEnd p := by
    rw [← sub_pos, ends_sub]; positivity
  obtain ⟨h1, h2⟩ := helical_ring_start false p hn hlt
  rw [h1, h2]
  intro h
  simp only [TwistAtMost, startSections, Bool.false_eq_true, if_false, List.isChain_cons_cons,
    List.isChain_singleton, and_true] at h
  have := h (highEnd p) ⟨hlt.le, le_rfl⟩ (lowEnd p) ⟨le_rfl, hlt.le⟩
  simp only [twistFun, Bool.false_eq_true, if_false] at this
  rw [← sub_mul, ends_sub, abs_mul, abs_of_pos (by positivity : 0 < p.height / (p.module_ / cos p.helixAngle)),
    abs_div, abs_of_pos (by positivity : 0 < p.numTeeth / 2)] at this
  have e : p.height / (p.module_ / cos p.helixAngle) * (|tan p.helixAngle| / (p.numTeeth / 2)) =
      |tan p.helixAngle| * (p.height * cos p.helixAngle / p.module_) / (p.numTeeth / 2) := by field_simp
  rw [e] at this
  linarith

/-- **C64, herringbone**. The twist of a herringbone gear is symmetric about its middle section, which is one of its
sections. -/
theorem c64_herringbone (p : GearInput) (hn : 0 < p.numTeeth) (hh : 0 < p.height) (hm : 0 < p.module_)
    (hβ : 0 < cos p.helixAngle) (g : WGear) (hg : g = helicalGear true p ∨ g = helicalRingGear true p) :
    ∃ mid ∈ g.core.zVals, g.core.zVals.head?.map (fun lo => 2 * mid - lo) = g.core.zVals.getLast? ∧
      ∀ t, g.core.recipe.angle (mid + t) = g.core.recipe.angle (mid - t) := by
  have hlt : lowEnd p < highEnd p := by
    rw [← sub_pos, ends_sub]; positivity
  have hsym : ∀ k lo hi t : ℝ, twistFun true k lo hi ((hi + lo) / 2 + t) = twistFun true k lo hi ((hi + lo) / 2 - t) := by
    intro k lo hi t
    simp [twistFun]
  refine ⟨(highEnd p + lowEnd p) / 2, ?_⟩
  rcases hg with rfl | rfl
  · obtain ⟨c, h1, h2, h3⟩ := helical_start true p hn hlt
    have hr := (refine_spec true c hlt h1 h2).1
    rw [h1] at hr
    rw [h3, (refine_recipe c).1, h2]
    refine ⟨hr.2.2.2 _ (by simp [startSections]), ?_, hsym _ _ _⟩
    rw [hr.2.1, hr.2.2.1]
    simp [startSections]; ring
  · obtain ⟨h1, h2⟩ := helical_ring_start true p hn hlt
    rw [h1, h2]
    refine ⟨by simp [startSections], ?_, hsym _ _ _⟩
    simp [startSections]; ring

theorem exampleInput_ok : 0 < exampleInput.numTeeth ∧ 0 < exampleInput.height ∧ 0 < exampleInput.module_ ∧
    0 < cos exampleInput.helixAngle := by
  refine ⟨by norm_num [exampleInput], by norm_num [exampleInput], by norm_num [exampleInput], ?_⟩
  have : exampleInput.helixAngle = π / 6 := rfl
  rw [this, cos_pi_div_six]; positivity

example : (2 : ℝ) * π < |tan ({ exampleInput with height := 1000 } : GearInput).helixAngle| *
    (({ exampleInput with height := 1000 } : GearInput).height *
      cos ({ exampleInput with height := 1000 } : GearInput).helixAngle /
      ({ exampleInput with height := 1000 } : GearInput).module_) /
    (({ exampleInput with height := 1000 } : GearInput).numTeeth / 2) := by
  have e : ({ exampleInput with height := 1000 } : GearInput).helixAngle = π / 6 := rfl
  have e1 : ({ exampleInput with height := 1000 } : GearInput).module_ = 2 := rfl
  have e2 : ({ exampleInput with height := 1000 } : GearInput).numTeeth = 24 := rfl
  rw [e, e1, e2, tan_eq_sin_div_cos, sin_pi_div_six]
  have hc : 0 < cos (π / 6) := by rw [cos_pi_div_six]; positivity
  rw [abs_of_pos (by positivity)]
  have : 1 / 2 / cos (π / 6) * (1000 * cos (π / 6) / 2) / (24 / 2) = 250 / 12 := by field_simp; norm_num
  simp only
  rw [this]
  linarith [pi_le_four]

end Verif
