import Verif.Model.Boundary
import Verif.Props.Path

/-! # Property C56: the two boundaries of a gear -/

namespace Verif

open Real Set Spec
open scoped Matrix

/-! ### Changes of speed -/

theorem Spec.Clock.id : Clock fun s => s := ⟨fun _ _ _ _ h => h, by simp⟩

theorem Spec.Clock.mem {ψ : ℝ → ℝ} (h : Clock ψ) {s : ℝ} (hs : s ∈ Icc (0 : ℝ) 1) : ψ s ∈ Icc (0 : ℝ) 1 := by
  rw [← h.2]; exact mem_image_of_mem _ hs

theorem Spec.Clock.comp {ψ χ : ℝ → ℝ} (h : Clock ψ) (h' : Clock χ) : Clock fun s => χ (ψ s) := by
  refine ⟨fun a ha b hb hab => h'.1 (h.mem ha) (h.mem hb) (h.1 ha hb hab), ?_⟩
  have : (fun s => χ (ψ s)) '' Icc 0 1 = χ '' (ψ '' Icc 0 1) := by rw [image_image]
  rw [this, h.2, h'.2]

theorem Spec.Clock.ends {ψ : ℝ → ℝ} (h : Clock ψ) : ψ 0 = 0 ∧ ψ 1 = 1 := by
  have z : (0 : ℝ) ∈ Icc (0 : ℝ) 1 := ⟨le_refl _, zero_le_one⟩
  have o : (1 : ℝ) ∈ Icc (0 : ℝ) 1 := ⟨zero_le_one, le_refl _⟩
  constructor
  · obtain ⟨s, hs, e⟩ : ∃ s ∈ Icc (0 : ℝ) 1, ψ s = 0 := by
      have : (0 : ℝ) ∈ ψ '' Icc 0 1 := by rw [h.2]; exact z
      exact this
    rcases hs.1.lt_or_eq with h0 | h0
    · have := h.1 z hs h0
      rw [e] at this
      exact absurd this (not_lt.2 (h.mem z).1)
    · rw [← h0] at e; exact e
  · obtain ⟨s, hs, e⟩ : ∃ s ∈ Icc (0 : ℝ) 1, ψ s = 1 := by
      have : (1 : ℝ) ∈ ψ '' Icc 0 1 := by rw [h.2]; exact o
      exact this
    rcases hs.2.lt_or_eq with h0 | h0
    · have := h.1 hs o h0
      rw [e] at this
      exact absurd this (not_lt.2 (h.mem o).2)
    · rw [h0] at e; exact e

theorem Spec.Runs.congr {e : ℝ → Option V3} {f g : ℝ → V3} {ψ : ℝ → ℝ} (h : Runs e f) (hψ : Clock ψ)
    (hfg : ∀ s ∈ Icc (0 : ℝ) 1, f s = g (ψ s)) : Runs e g := by
  obtain ⟨χ, hχ, he⟩ := h
  exact ⟨_, hχ.comp hψ, fun s hs => by rw [he s hs, hfg _ (hχ.mem hs)]⟩

theorem Spec.Runs.trace_eq {e : ℝ → Option V3} {f : ℝ → V3} (h : Runs e f) : trace e = f '' Icc 0 1 := by
  obtain ⟨ψ, hψ, he⟩ := h
  ext p
  constructor
  · rintro ⟨s, hs, hp⟩
    rw [he s hs] at hp
    exact ⟨ψ s, hψ.mem hs, Option.some.inj hp⟩
  · rintro ⟨t, ht, rfl⟩
    rw [← hψ.2] at ht
    obtain ⟨s, hs, rfl⟩ := ht
    exact ⟨s, hs, he s hs⟩

/-- A sampled curve runs through the points of its function if no two neighbouring samples coincide. -/
theorem generic_runs (f : ℝ → V3) (n : ℕ) (hn : 1 ≤ n)
    (hd : ∀ i : ℕ, i < n → f (linspace 0 1 n i) ≠ f (linspace 0 1 n (i + 1))) :
    Runs (Curve.make (.generic f n) true 0 1).eval f ∧ 0 < (Curve.make (.generic f n) true 0 1).length := by
  obtain ⟨c, hc⟩ : ∃ c : Curve, c = ⟨.generic f n, true, 0, 1, 0, Lookup.default⟩ := ⟨_, rfl⟩
  have hmake : Curve.make (.generic f n) true 0 1 = c.updateLengths := by rw [hc, Curve.make, if_pos rfl]
  have hk : c.kind = .generic f n := by rw [hc]
  have hst : c.updateLengths.Strict := c39_strict c (by rw [hk]; exact hn) (by rw [hc]; exact zero_lt_one) (by
    intro g m hg
    rw [hk] at hg
    obtain ⟨rfl, rfl⟩ := CurveKind.generic.inj hg
    rw [hc]
    exact hd)
  rw [hmake]
  obtain ⟨d, hd'⟩ : ∃ d, d = c.updateLengths := ⟨_, rfl⟩
  have hfn : d.kind.fn = f := by rw [hd', updateLengths_kind, hk]; rfl
  have ht0 : d.t0 = 0 := by rw [hd', updateLengths_t0, hc]
  have ht1 : d.t1 = 1 := by rw [hd', updateLengths_t1, hc]
  rw [← hd'] at hst ⊢
  have hT := hst.tab
  refine ⟨⟨npInterp d.lookup.s d.lookup.t d.lookup.n, ⟨?_, ?_⟩, ?_⟩, ?_⟩
  · intro x hx y hy hxy
    have h0 : d.lookup.s 0 ≤ x := by rw [hT.s_zero]; exact hx.1
    refine lt_of_le_of_ne (npInterp_mono h0 hxy.le (hT.t_mono (by rw [ht0, ht1]; exact zero_le_one))) ?_
    intro e
    have i1 := (interp_inverse (x := x) hst.s_strict hst.t_strict h0 (by rw [hT.s_last]; exact hx.2) hT.pos).1
    have i2 := (interp_inverse (x := y) hst.s_strict hst.t_strict (by rw [hT.s_zero]; exact hy.1)
      (by rw [hT.s_last]; exact hy.2) hT.pos).1
    rw [e, i2] at i1
    exact hxy.ne' i1
  · have hcont := npInterp_continuousOn (fp := d.lookup.t) hst.s_strict
    rw [hT.s_zero, hT.s_last] at hcont
    have i0 := interp_inverse (x := 0) hst.s_strict hst.t_strict (by rw [hT.s_zero])
      (by rw [hT.s_last]; exact zero_le_one) hT.pos
    have l0 : npInterp d.lookup.s d.lookup.t d.lookup.n 0 = 0 := by
      have := npInterp_mono (xp := d.lookup.s) (fp := d.lookup.t) (n := d.lookup.n) (x := 0) (y := 0)
      have h01 : d.lookup.s 0 < d.lookup.s 1 := hst.s_strict 0 1 (by omega) hT.pos
      have l0 : lastLe d.lookup.s 0 d.lookup.n = 0 :=
        lastLe_unique (Nat.zero_le _) hT.s_zero.le hT.s_mono fun _ => by rw [hT.s_zero] at h01; exact h01
      rw [npInterp, if_neg (by rw [hT.s_zero]; exact lt_irrefl _)]
      simp only [l0, hT.s_zero, hT.t_zero, sub_self, mul_zero, add_zero, ht0]
      rw [if_neg (by have := hT.pos; omega)]
    have l1 : npInterp d.lookup.s d.lookup.t d.lookup.n 1 = 1 := by
      rw [npInterp_last (by rw [hT.s_zero]; exact zero_le_one) hT.s_last.le, hT.t_last, ht1]
    apply Subset.antisymm
    · rintro _ ⟨x, hx, rfl⟩
      have i := interp_inverse (x := x) hst.s_strict hst.t_strict (by rw [hT.s_zero]; exact hx.1)
        (by rw [hT.s_last]; exact hx.2) hT.pos
      rw [hT.t_zero, ht0, hT.t_last, ht1] at i
      exact i.2
    · have := intermediate_value_Icc zero_le_one hcont
      rwa [l0, l1] at this
  · intro s hs
    rw [Curve.eval, Curve.s2t, if_neg (not_lt.2 hs.1), if_neg (not_lt.2 hs.2), hfn]
    rfl
  · have hl : d.length = chordLen f (linspace 0 1 n) n := by
      rw [hd', Curve.updateLengths, hk, hc]
    rw [hl]
    refine lt_of_le_of_ne (chordLen_nonneg _ _ _) fun e => hd 0 hn ?_
    refine chordLen_eq_imp f (linspace 0 1 n) (Nat.zero_le 1) (le_antisymm (chordLen_mono _ _ (Nat.zero_le 1)) ?_)
    calc chordLen f (linspace 0 1 n) (0 + 1) ≤ chordLen f (linspace 0 1 n) n := chordLen_mono _ _ hn
      _ = 0 := e.symm
      _ = chordLen f (linspace 0 1 n) 0 := rfl

/-- Members that run through the pieces of `f` one after the other make a chain that runs through `f`. -/
theorem chain_runs {β : Type} {p : CurveOps β} (l : List β) (f : ℝ → V3) (hne : l ≠ [])
    (hact : ∀ a ∈ l, p.active a = true ∧ 0 < p.length a)
    (hm : ∀ (k : ℕ) (a : β), l[k]? = some a → Runs (p.eval a) fun τ => f ((k + τ) / l.length)) :
    Runs (chainEval p l) f := by
  have hN : (0 : ℝ) < l.length := by exact_mod_cast List.length_pos_iff.2 hne
  have hall : AllPos p l := fun a ha _ => (hact a ha).2
  have hnn := hall.nonNeg
  have hlen : ∀ a ∈ l, 0 < p.len a := by
    intro a ha; rw [CurveOps.len, if_pos (hact a ha).1]; exact (hact a ha).2
  have hL : 0 < chainLen p l := by
    obtain ⟨a, l', rfl⟩ := List.exists_cons_of_ne_nil hne
    rw [chainLen, List.map_cons, List.sum_cons]
    have h1 := hlen a (by simp)
    have h2 : 0 ≤ (l'.map p.len).sum := List.sum_nonneg (by
      intro x hx
      obtain ⟨y, hy, rfl⟩ := List.mem_map.1 hx
      exact (hlen y (by simp [hy])).le)
    linarith
  choose ψ hψ hev using hm
  have hlook : ∀ s ∈ Icc (0 : ℝ) 1, ∃ (k : ℕ) (σ : ℝ) (a : β) (ha : l[k]? = some a), 0 ≤ σ ∧ σ ≤ 1 ∧
      preLen p l k + σ * p.len a = s * chainLen p l ∧ (0 < s → 0 < σ) ∧ (s = 0 → k = 0 ∧ σ = 0) ∧
      chainEval p l s = some (f ((k + ψ k a ha σ) / l.length)) := by
    intro s hs
    obtain ⟨k, σ, a, h1, h2, h3, h4, h5, h6, h7, h8⟩ := c43_lookup l hnn hL s hs.1 hs.2
    refine ⟨k, σ, a, h2, h4, h5, h6, fun h => (h7 h).1, ?_, ?_⟩
    · intro h0
      obtain ⟨b, hb⟩ := List.exists_mem_of_ne_nil l hne
      have hk : k = 0 := by
        rw [h8 h0, activeMin]
        obtain ⟨b, l', rfl⟩ := List.exists_cons_of_ne_nil hne
        rw [List.findIdx_cons, (hact b (by simp)).1]; rfl
      refine ⟨hk, ?_⟩
      subst hk
      rw [h0, zero_mul, List.take_zero, List.map_nil, List.sum_nil, zero_add] at h6
      exact (mul_eq_zero.1 h6).resolve_right (hlen a (List.mem_of_getElem? h2)).ne'
    · rw [chainEval, h1]
      simp only [Option.bind_some, h2]
      exact hev k a h2 σ ⟨h4, h5⟩
  haveI : Nonempty β := ⟨(List.exists_mem_of_ne_nil l hne).choose⟩
  choose! K σs A hA using hlook
  have hpre : ∀ {i j : ℕ} {a : β}, l[i]? = some a → i < j → j ≤ l.length →
      preLen p l i + p.len a ≤ preLen p l j := by
    intro i j a ha hij hj
    rw [← preLen_succ p ha]
    exact preLen_mono hnn hij hj
  refine ⟨fun s => if hs : s ∈ Icc (0 : ℝ) 1 then (K s + ψ (K s) (A s) (hA s hs).choose (σs s)) / l.length else 0,
    ⟨?_, ?_⟩, ?_⟩
  · intro s hs s' hs' hss
    simp only [dif_pos hs, dif_pos hs']
    rw [div_lt_div_iff_of_pos_right hN]
    obtain ⟨ha, q1, q2, q3, q4, q5, -⟩ := hA s hs
    obtain ⟨ha', r1, r2, r3, r4, r5, -⟩ := hA s' hs'
    have hpos' := r4 (lt_of_le_of_lt hs.1 hss)
    have hlt : s * chainLen p l < s' * chainLen p l := mul_lt_mul_of_pos_right hss hL
    have hl := hlen _ (List.mem_of_getElem? ha)
    have hl' := hlen _ (List.mem_of_getElem? ha')
    have hkl := (List.getElem?_eq_some_iff.1 ha).1
    have hkl' := (List.getElem?_eq_some_iff.1 ha').1
    have m0 := (hψ (K s') (A s') ha').ends.1
    have mm := (hψ (K s) (A s) ha).mem ⟨q1, q2⟩
    rcases lt_trichotomy (K s) (K s') with hk | hk | hk
    · have h1 : ψ (K s') (A s') ha' 0 < ψ (K s') (A s') ha' (σs s') :=
        (hψ _ _ ha').1 ⟨le_refl _, zero_le_one⟩ ⟨r1, r2⟩ hpos'
      rw [m0] at h1
      have h2 : (K s : ℝ) + 1 ≤ K s' := by exact_mod_cast hk
      linarith [mm.2]
    · have hAA : A s = A s' := by
        rw [hk] at ha; rw [ha] at ha'; exact Option.some.inj ha'
      have hσ : σs s < σs s' := by
        by_contra hcon
        have : σs s' * p.len (A s') ≤ σs s * p.len (A s') := mul_le_mul_of_nonneg_right (not_lt.1 hcon) hl'.le
        rw [hk, hAA] at q3
        linarith
      have h3 : ψ (K s) (A s) ha (σs s) < ψ (K s) (A s) ha (σs s') := (hψ _ _ ha).1 ⟨q1, q2⟩ ⟨r1, r2⟩ hσ
      have h4 : ψ (K s) (A s) ha = ψ (K s') (A s') ha' := by
        have : ∀ (k k' : ℕ) (a a' : β) (h : l[k]? = some a) (h' : l[k']? = some a'), k = k' → a = a' →
            ψ k a h = ψ k' a' h' := by
          rintro k _ a _ h h' rfl rfl; rfl
        exact this _ _ _ _ ha ha' hk hAA
      have h5 : (K s : ℝ) = K s' := by rw [hk]
      rw [← h4, ← h5]
      exact add_lt_add_of_le_of_lt (le_refl _) h3
    · exfalso
      have h1 := hpre ha' hk hkl.le
      have h2 : σs s' * p.len (A s') ≤ p.len (A s') := by nlinarith
      have h3 : 0 ≤ σs s * p.len (A s) := mul_nonneg q1 hl.le
      linarith
  · apply Subset.antisymm
    · rintro _ ⟨s, hs, rfl⟩
      simp only [dif_pos hs]
      obtain ⟨ha, q1, q2, -⟩ := hA s hs
      have mm := (hψ (K s) (A s) ha).mem ⟨q1, q2⟩
      have hkl : (K s : ℝ) + 1 ≤ l.length := by exact_mod_cast (List.getElem?_eq_some_iff.1 ha).1
      constructor
      · exact div_nonneg (by linarith [mm.1, Nat.cast_nonneg (α := ℝ) (K s)]) hN.le
      · rw [div_le_one hN]; linarith [mm.2]
    · intro y hy
      rcases hy.1.lt_or_eq with h0 | h0
      · obtain ⟨k, hk⟩ : ∃ k : ℕ, k + 1 = ⌈y * l.length⌉₊ :=
          ⟨⌈y * l.length⌉₊ - 1, Nat.sub_add_cancel (Nat.one_le_ceil_iff.2 (mul_pos h0 hN))⟩
        have c1 : (k : ℝ) < y * l.length := by
          apply Nat.lt_ceil.1; omega
        have c2 : y * l.length ≤ (k : ℝ) + 1 := by
          have := Nat.le_ceil (y * (l.length : ℝ))
          rw [← hk] at this; push_cast at this; exact this
        have hkl : k < l.length := by
          have : y * l.length ≤ l.length := mul_le_of_le_one_left hN.le hy.2
          exact_mod_cast lt_of_lt_of_le c1 this
        have ha : l[k]? = some l[k] := List.getElem?_eq_getElem hkl
        have hτ : y * l.length - k ∈ Icc (0 : ℝ) 1 := ⟨by linarith, by linarith⟩
        rw [← (hψ k _ ha).2] at hτ
        obtain ⟨σ, hσ, eσ⟩ := hτ
        have hσ0 : 0 < σ := by
          rcases hσ.1.lt_or_eq with h | h
          · exact h
          · rw [← h, (hψ k _ ha).ends.1] at eσ; linarith
        have hla := hlen _ (List.mem_of_getElem? ha)
        obtain ⟨s, hsd⟩ : ∃ s, s = (preLen p l k + σ * p.len l[k]) / chainLen p l := ⟨_, rfl⟩
        have hsL : s * chainLen p l = preLen p l k + σ * p.len l[k] := by
          rw [hsd]; field_simp
        have hp0 := preLen_mono hnn (Nat.zero_le k) hkl.le
        rw [preLen_zero] at hp0
        have hp1 := hpre ha (Nat.lt_succ_self k) hkl
        have hp2 := preLen_mono hnn hkl (le_refl _)
        rw [preLen_length] at hp2
        have hσl : 0 < σ * p.len l[k] := mul_pos hσ0 hla
        have hσl' : σ * p.len l[k] ≤ p.len l[k] := by nlinarith [hσ.2]
        have hs : s ∈ Icc (0 : ℝ) 1 := by
          constructor
          · rw [hsd]; exact div_nonneg (by linarith) hL.le
          · rw [hsd, div_le_one hL]; linarith
        refine ⟨s, hs, ?_⟩
        simp only [dif_pos hs]
        obtain ⟨ha', q1, q2, q3, q4, q5, -⟩ := hA s hs
        have hl' := hlen _ (List.mem_of_getElem? ha')
        have hspos : 0 < s := by
          rw [hsd]; exact div_pos (by linarith) hL
        have hkl' := (List.getElem?_eq_some_iff.1 ha').1
        have hkk : K s = k := by
          rcases lt_trichotomy (K s) k with h | h | h
          · exfalso
            have h1 := hpre ha' h hkl.le
            have h2 : σs s * p.len (A s) ≤ p.len (A s) := by nlinarith
            linarith
          · exact h
          · exfalso
            have h1 := hpre ha h hkl'.le
            have h2 : 0 < σs s * p.len (A s) := mul_pos (q4 hspos) hl'
            linarith
        have hAA : A s = l[k] := by
          rw [hkk, ha] at ha'; exact (Option.some.inj ha').symm
        have hσσ : σs s = σ := by
          rw [hkk, hAA, hsL] at q3
          have : σs s * p.len l[k] = σ * p.len l[k] := by linarith
          exact mul_right_cancel₀ hla.ne' this
        have h4 : ψ (K s) (A s) (hA s hs).choose = ψ k l[k] ha := by
          have : ∀ (k k' : ℕ) (a a' : β) (h : l[k]? = some a) (h' : l[k']? = some a'), k = k' → a = a' →
              ψ k a h = ψ k' a' h' := by
            rintro k _ a _ h h' rfl rfl; rfl
          exact this _ _ _ _ _ ha hkk hAA
        rw [h4, hσσ, eσ, hkk]
        field_simp
        ring
      · refine ⟨0, ⟨le_refl _, zero_le_one⟩, ?_⟩
        have hz : (0 : ℝ) ∈ Icc (0 : ℝ) 1 := ⟨le_refl _, zero_le_one⟩
        simp only [dif_pos hz]
        obtain ⟨ha, -, -, -, -, q5, -⟩ := hA 0 hz
        obtain ⟨e1, e2⟩ := q5 rfl
        have h5 : ψ (K 0) (A 0) ha (σs 0) = 0 := by rw [e2, (hψ _ _ ha).ends.1]
        have h6 : (K 0 : ℝ) = 0 := by rw [e1, Nat.cast_zero]
        refine Eq.trans (congrArg (· / (l.length : ℝ)) (congrArg ((K 0 : ℝ) + ·) h5)) ?_
        simp only [h6, ← h0]
        simp
  · intro s hs
    simp only [dif_pos hs]
    obtain ⟨ha, -, -, -, -, -, q⟩ := hA s hs
    exact q

/-! ### Simple outlines -/

theorem Spec.Simple.comp {f : ℝ → V3} {ψ : ℝ → ℝ} (h : Simple f) (hψ : Clock ψ) : Simple fun s => f (ψ s) := by
  intro x hx y hy hxy hne
  refine h _ (hψ.mem hx) _ (hψ.mem hy) (hψ.1 hx hy hxy) fun hc => hne ⟨?_, ?_⟩
  · exact hψ.1.injOn hx ⟨le_refl _, zero_le_one⟩ (hc.1.trans hψ.ends.1.symm)
  · exact hψ.1.injOn hy ⟨zero_le_one, le_refl _⟩ (hc.2.trans hψ.ends.2.symm)

theorem Spec.Simple.map {f : ℝ → V3} {F : V3 → V3} (h : Simple f) (hF : Function.Injective F) :
    Simple fun s => F (f s) := fun x hx y hy hxy hne e => h x hx y hy hxy hne (hF e)

theorem Spec.Simple.congr {f g : ℝ → V3} (h : Simple f) (hfg : ∀ s ∈ Icc (0 : ℝ) 1, f s = g s) : Simple g :=
  fun x hx y hy hxy hne e => h x hx y hy hxy hne (by rw [hfg x hx, hfg y hy, e])

theorem simple_generic {f : ℝ → V3} (n : ℕ) (hn : 2 ≤ n) (h : Simple f) :
    Runs (Curve.make (.generic f n) true 0 1).eval f ∧ 0 < (Curve.make (.generic f n) true 0 1).length := by
  have hn0 : (0 : ℝ) < n := by exact_mod_cast (by omega : 0 < n)
  refine generic_runs f n (by omega) fun i hi => ?_
  have hi1 : (i : ℝ) + 1 ≤ n := by exact_mod_cast hi
  have e1 : linspace 0 1 n i = i / n := by rw [linspace]; ring
  have e2 : linspace 0 1 n (i + 1) = (i + 1) / n := by rw [linspace]; push_cast; ring
  rw [e1, e2]
  have hi0 := Nat.cast_nonneg (α := ℝ) i
  refine h _ ⟨div_nonneg hi0 hn0.le, (div_le_one hn0).2 (by linarith)⟩ _
    ⟨div_nonneg (by linarith) hn0.le, (div_le_one hn0).2 hi1⟩
    ((div_lt_div_iff_of_pos_right hn0).2 (by linarith)) ?_
  rintro ⟨c1, c2⟩
  rw [div_eq_zero_iff, or_iff_left hn0.ne'] at c1
  rw [c1, zero_add, div_eq_one_iff_eq hn0.ne'] at c2
  have : (2 : ℝ) ≤ n := by exact_mod_cast hn
  linarith

/-- Mapping the points of a curve that runs through a simple outline. -/
theorem transformed_runs {F : V3 → V3} (hF : Function.Injective F) {f target : ℝ → V3} {e : ℝ → Option V3}
    (hs : Simple f) (hr : Runs e f) (ht : ∀ s, target s = (e s).getD 0) :
    Runs (transformedCurve F target true).eval (fun s => F (f s)) ∧
      0 < (transformedCurve F target true).length := by
  obtain ⟨ψ, hψ, he⟩ := hr
  have h1 : ∀ s ∈ Icc (0 : ℝ) 1, F (f (ψ s)) = F (target s) := by
    intro s hs'; rw [ht, he s hs', Option.getD_some]
  have h2 := simple_generic (f := fun s => F (target s)) 20 (by norm_num)
    (((hs.comp hψ).map hF).congr h1)
  exact ⟨h2.1.congr hψ fun s hs' => (h1 s hs').symm, h2.2⟩

theorem transformed_active (F : V3 → V3) (target : ℝ → V3) (b : Bool) :
    (transformedCurve F target b).active = b := by
  rw [transformedCurve, Curve.make]
  split
  · rw [updateLengths_active]
  · rfl

theorem applyGearTransform_inj {d : GearTransform} (hs : d.scale ≠ 0) (ho : IsRot d.orientation) :
    Function.Injective fun p => applyGearTransform p d := by
  intro p q e
  simp only [applyGearTransform_eq] at e
  have e1 := smul_right_injective V3 hs (add_right_cancel e)
  have e2 := congrArg (app d.orientationᵀ) e1
  rw [ho.app_T_app, ho.app_T_app] at e2
  have e3 := congrArg (app (Rz d.angle)ᵀ) e2
  rwa [(IsRot.Rz _).app_T_app, (IsRot.Rz _).app_T_app] at e3

theorem rotated_OUT (target : ℝ → V3) (b : Bool) (a : ℝ) :
    rotatedCurve target b a OUT ORIGIN = some (transformedCurve (fun p => app (Rz a) p) target b) := by
  rw [rotatedCurve, normalizeVector_some OUT_ne, norm3_OUT, inv_one, one_smul, Option.map_some]
  congr 2
  funext p
  rw [rotateFunc, fromRotvec_smul (by simp [dot, OUT]), app_rotMat, rodrigues_OUT, ORIGIN_eq, sub_zero, add_zero]

theorem mapM_option_some {α β : Type} {f : α → Option β} {g : α → β} (h : ∀ a, f a = some (g a)) (l : List α) :
    l.mapM f = some (l.map g) := by
  induction l with
  | nil => rfl
  | cons a l ih => rw [List.mapM_cons, h, ih]; rfl

/-! ### The boundary function -/

/-- Piece number `i` of the boundary is the tooth outline turned by `i` pitches; the end of one piece is the
start of the next. -/
theorem boundaryFun_piece {profile : ℝ → V3} {pitch : ℝ} {n : ℕ} (hn : 1 ≤ n)
    (htile : app (Rz pitch) (profile 0) = profile 1) (i : ℕ) {τ : ℝ} (hτ : τ ∈ Icc (0 : ℝ) 1) :
    boundaryFun profile pitch n ((i + τ) / n) = app (Rz (i * pitch)) (profile τ) := by
  have hn0 : (0 : ℝ) < n := by exact_mod_cast hn
  have e : ((i : ℝ) + τ) / n * ((n : ℤ) : ℝ) = i + τ := by push_cast; field_simp
  rw [boundaryFun, e]
  rcases hτ.2.lt_or_eq with h | h
  · have hf : ⌊(i : ℝ) + τ⌋ = i := by
      rw [Int.floor_eq_iff]; push_cast; exact ⟨by linarith [hτ.1], by linarith⟩
    rw [hf, Int.fract, hf]; push_cast; rw [add_sub_cancel_left]
  · subst h
    have hf : ⌊(i : ℝ) + 1⌋ = i + 1 := by
      rw [Int.floor_eq_iff]; push_cast; exact ⟨le_refl _, by linarith⟩
    rw [hf, Int.fract, hf]; push_cast
    rw [sub_self, add_mul, one_mul, Rz_add, app_mul, htile]

/-- The tooth outline of a simple boundary is simple. -/
theorem simple_profile {profile : ℝ → V3} {pitch : ℝ} {n : ℕ} (hn : 1 ≤ n)
    (htile : app (Rz pitch) (profile 0) = profile 1) (hs : Simple (boundaryFun profile pitch n)) :
    Simple profile := by
  have hn0 : (0 : ℝ) < n := by exact_mod_cast hn
  have hn1 : (1 : ℝ) ≤ n := by exact_mod_cast hn
  have hp : ∀ τ ∈ Icc (0 : ℝ) 1, profile τ = boundaryFun profile pitch n (τ / n) := by
    intro τ hτ
    have := boundaryFun_piece hn htile 0 hτ
    rw [Nat.cast_zero, zero_add, zero_mul, Rz_zero, app_one] at this
    exact this.symm
  have hm : ∀ τ ∈ Icc (0 : ℝ) 1, τ / n ∈ Icc (0 : ℝ) 1 := fun τ hτ =>
    ⟨div_nonneg hτ.1 hn0.le, (div_le_one hn0).2 (hτ.2.trans hn1)⟩
  intro x hx y hy hxy hne
  rw [hp x hx, hp y hy]
  refine hs _ (hm x hx) _ (hm y hy) ((div_lt_div_iff_of_pos_right hn0).2 hxy) fun hc => hne ⟨?_, ?_⟩
  · exact (div_eq_zero_iff.1 hc.1).resolve_right hn0.ne'
  · have := (div_eq_one_iff_eq hn0.ne').1 hc.2
    exact le_antisymm hy.2 (by rw [this]; exact hn1)

/-- The chain boundary runs tooth by tooth through the boundary placed by the transform of the profile. -/
theorem c56_chain (trf : GearTransform) {profile : ℝ → V3} {pitch : ℝ} {n : ℕ} (hn : 1 ≤ n)
    (hsc : trf.scale ≠ 0) (hor : IsRot trf.orientation) (htile : app (Rz pitch) (profile 0) = profile 1)
    (hs : Simple (boundaryFun profile pitch n)) :
    ∃ l, boundaryChain trf profile true pitch n = some l ∧ l.length = n ∧
      (∀ c ∈ l, c.active = true ∧ 0 < c.length) ∧
      Runs (chainEval curveOps l) fun t => applyGearTransform (boundaryFun profile pitch n t) trf := by
  have hT := applyGearTransform_inj hsc hor
  have he : Runs (fun s => some (profile s)) profile := ⟨_, Clock.id, fun s _ => rfl⟩
  have hsp := simple_profile hn htile hs
  obtain ⟨R, hR⟩ : ∃ R : ℕ → Curve, R = fun (i : ℕ) => transformedCurve (fun p => app (Rz (i * pitch)) p) profile true :=
    ⟨_, rfl⟩
  obtain ⟨M, hM⟩ : ∃ M : ℕ → Curve, M = fun (i : ℕ) =>
      transformedCurve (fun p => applyGearTransform p trf) (R i).evalD true := ⟨_, rfl⟩
  have hmem : ∀ i : ℕ, boundaryMember trf profile true (i * pitch) = some (M i) := by
    intro i
    rw [boundaryMember, rotated_OUT, Option.map_some, transformed_active, hM, hR]
  have hRr : ∀ i : ℕ, Runs (R i).eval fun s => app (Rz (i * pitch)) (profile s) := by
    intro i
    rw [hR]
    exact (transformed_runs (Function.LeftInverse.injective (IsRot.Rz (i * pitch)).app_T_app) hsp he fun _ => rfl).1
  have hMr : ∀ i : ℕ, Runs (M i).eval (fun s => applyGearTransform (app (Rz (i * pitch)) (profile s)) trf) ∧
      0 < (M i).length := by
    intro i
    rw [hM]
    exact transformed_runs hT (hsp.map (Function.LeftInverse.injective (IsRot.Rz (i * pitch)).app_T_app)) (hRr i)
      fun s => rfl
  have hfix : ∀ i : ℕ, (M i).updateLengths = M i := by
    intro i; rw [hM]; exact updateLengths_fix_make _ _ _
  have hact : ∀ i : ℕ, (M i).active = true := by intro i; rw [hM]; exact transformed_active _ _ _
  have hl : boundaryChain trf profile true pitch n = some ((List.range n).map M) := by
    rw [boundaryChain, mapM_option_some hmem, Option.map_some, chainUpdate, List.map_map, Int.toNat_natCast]
    congr 1
    apply List.map_congr_left
    intro i _
    show (if (M i).active then (M i).updateLengths else M i) = M i
    rw [if_pos (hact i), hfix]
  have hall : ∀ c ∈ (List.range n).map M, c.active = true ∧ 0 < c.length := by
    intro c hc
    obtain ⟨i, -, rfl⟩ := List.mem_map.1 hc
    exact ⟨hact i, (hMr i).2⟩
  refine ⟨_, hl, by simp, hall, ?_⟩
  refine chain_runs (p := curveOps) _ _ ?_ hall ?_
  · intro h0
    have := congrArg List.length h0
    simp at this
    omega
  · intro k a hk
    have hkn : k < n := by have := (List.getElem?_eq_some_iff.1 hk).1; simpa using this
    have ha : a = M k := by
      rw [List.getElem?_map, List.getElem?_range hkn] at hk
      exact (Option.some.inj hk).symm
    rw [ha, List.length_map, List.length_range]
    refine (hMr k).1.congr Clock.id fun s hs' => ?_
    simp only [boundaryFun_piece hn htile k hs']

/-- C56: the continuous boundary of a gear and the chain boundary run through the teeth in the same order, the
second one with the points moved by the transform of the profile. They trace the same points if this transform
leaves points alone. Without this assumption the property is violated, `c56_violated`. -/
theorem c56_boundaries_partial (gear trf : GearTransform) {profile : ℝ → V3} {pitch : ℝ} {n N : ℕ} (hn : 1 ≤ n)
    (hN : n ≤ N) (hsc : gear.scale ≠ 0) (hor : IsRot gear.orientation) (hsc' : trf.scale ≠ 0)
    (hor' : IsRot trf.orientation) (htile : app (Rz pitch) (profile 0) = profile 1)
    (hs : Simple (boundaryFun profile pitch n)) :
    ∃ b c, boundaryAtZ gear trf profile true pitch n N true = some b ∧
      boundaryAtZ gear trf profile true pitch n N false = some c ∧
      Runs b.eval (fun t => applyGearTransform (boundaryFun profile pitch n t) gear) ∧
      Runs c.eval (fun t => applyGearTransform (applyGearTransform (boundaryFun profile pitch n t) trf) gear) ∧
      ((∀ p, applyGearTransform p trf = p) → trace b.eval = trace c.eval) := by
  have hG := applyGearTransform_inj hsc hor
  have hT := applyGearTransform_inj hsc' hor'
  obtain ⟨l, hl, hll, hal, hrun⟩ := c56_chain trf hn hsc' hor' htile hs
  have hany : l.any curveOps.active = true := by
    obtain ⟨a, l', rfl⟩ : ∃ a l', l = a :: l' := List.exists_cons_of_ne_nil (by
      intro h; rw [h] at hll; simp at hll; omega)
    rw [List.any_cons]
    have : curveOps.active a = true := (hal a (by simp)).1
    rw [this, Bool.true_or]
  have hb := simple_generic (N * 20 - 1) (by omega) hs
  have hba : (boundaryCurve profile pitch n N).active = true := by
    rw [boundaryCurve, Curve.make, if_pos rfl, updateLengths_active]
  have r1 := (transformed_runs hG hs hb.1 (target := (boundaryCurve profile pitch n N).evalD) fun s => rfl).1
  have r2 := (transformed_runs hG (hs.map hT) hrun (target := fun s => (chainEval curveOps l s).getD 0)
    fun s => rfl).1
  refine ⟨_, _, by rw [boundaryAtZ, if_pos rfl], by rw [boundaryAtZ, if_neg (by simp), hl, Option.map_some],
    ?_, ?_, ?_⟩
  · rw [hba]; exact r1
  · rw [hany]; exact r2
  · intro hid
    rw [hba, hany, r1.trace_eq, r2.trace_eq]
    simp only [hid]

/-- A wavy disc with two teeth, to which the theorems apply. -/
noncomputable def wavy (s : ℝ) : V3 := cyl (2 + sin (2 * π * s)) (π * s) 0

theorem wavy_tile : app (Rz π) (wavy 0) = wavy 1 := by
  rw [wavy, wavy, cyl_rot]
  simp

theorem cyl_inj {r r' a b z z' : ℝ} (hr : 0 < r) (hr' : 0 < r') (h : cyl r a z = cyl r' b z') :
    r = r' ∧ cos a = cos b ∧ sin a = sin b := by
  have h0 : r * cos a = r' * cos b := by simpa [cyl] using congrFun h 0
  have h1 : r * sin a = r' * sin b := by simpa [cyl] using congrFun h 1
  have e : r = r' := by
    have : r ^ 2 = r' ^ 2 := by
      have e1 := sin_sq_add_cos_sq a
      have e2 := sin_sq_add_cos_sq b
      calc r ^ 2 = (r * cos a) ^ 2 + (r * sin a) ^ 2 := by linear_combination -r ^ 2 * e1
        _ = (r' * cos b) ^ 2 + (r' * sin b) ^ 2 := by rw [h0, h1]
        _ = r' ^ 2 := by linear_combination r' ^ 2 * e2
    exact (sq_eq_sq₀ hr.le hr'.le).1 this
  subst e
  exact ⟨rfl, mul_left_cancel₀ hr.ne' h0, mul_left_cancel₀ hr.ne' h1⟩

theorem wavy_boundary (t : ℝ) : boundaryFun wavy π (2 : ℕ) t = cyl (2 + sin (4 * π * t)) (2 * π * t) 0 := by
  rw [boundaryFun, wavy, cyl_rot]
  have hf : t * (((2 : ℕ) : ℤ) : ℝ) = ⌊t * (((2 : ℕ) : ℤ) : ℝ)⌋ + Int.fract (t * (((2 : ℕ) : ℤ) : ℝ)) :=
    (Int.floor_add_fract _).symm
  obtain ⟨k, hk⟩ : ∃ k : ℤ, k = ⌊t * (((2 : ℕ) : ℤ) : ℝ)⌋ := ⟨_, rfl⟩
  obtain ⟨u, hu⟩ : ∃ u : ℝ, u = Int.fract (t * (((2 : ℕ) : ℤ) : ℝ)) := ⟨_, rfl⟩
  rw [← hk, ← hu] at hf ⊢
  push_cast at hf
  have e1 : (4 : ℝ) * π * t = 2 * π * u + k * (2 * π) := by linear_combination 2 * π * hf
  have e2 : 2 * π * t = π * u + k * π := by linear_combination π * hf
  rw [e1, sin_add_int_mul_two_pi, e2]

theorem wavy_simple : Simple (boundaryFun wavy π (2 : ℕ)) := by
  intro x hx y hy hxy hne e
  rw [wavy_boundary, wavy_boundary] at e
  have hp : ∀ u, 0 < 2 + sin u := fun u => by linarith [neg_one_le_sin u]
  obtain ⟨-, h1, h2⟩ := cyl_inj (hp _) (hp _) e
  have hcos : cos (2 * π * y - 2 * π * x) = 1 := by
    rw [cos_sub, ← h1, ← h2]; nlinarith [sin_sq_add_cos_sq (2 * π * x)]
  obtain ⟨k, hk⟩ := (cos_eq_one_iff _).1 hcos
  have hk' : (k : ℝ) = y - x := by
    have : (k : ℝ) * (2 * π) = (y - x) * (2 * π) := by rw [hk]; ring
    exact mul_right_cancel₀ (by positivity) this
  have k0 : (0 : ℤ) < k := by exact_mod_cast (by rw [hk']; linarith : (0 : ℝ) < k)
  have k1 : (1 : ℝ) ≤ k := by exact_mod_cast k0
  exact hne ⟨by linarith [hx.1, hy.2], by linarith [hx.1, hy.2]⟩

example : ∃ b c, boundaryAtZ ⟨⟨![1, 2, 3], Rx 1, 2⟩, 4⟩ .default wavy true π (2 : ℕ) 2 true = some b ∧
    boundaryAtZ ⟨⟨![1, 2, 3], Rx 1, 2⟩, 4⟩ .default wavy true π (2 : ℕ) 2 false = some c ∧
    trace b.eval = trace c.eval := by
  obtain ⟨b, c, hb, hc, -, -, h⟩ := c56_boundaries_partial ⟨⟨![1, 2, 3], Rx 1, 2⟩, 4⟩ .default (N := 2)
    one_le_two (le_refl 2) two_ne_zero (IsRot.Rx 1) one_ne_zero IsRot.one wavy_tile wavy_simple
  refine ⟨b, c, hb, hc, h fun p => ?_⟩
  rw [applyGearTransform_eq]
  simp [GearTransform.default, TransformData.default, ORIGIN_eq, app_one, Rz_zero]

/-- C56 is violated at every height other than 0: `generate_boundary` drops the transform of the profile, so
the continuous boundary of a section stays in the plane of height 0. Here the section has height 1. -/
theorem c56_violated : ∃ (trf : GearTransform) (profile : ℝ → V3), trf.center = OUT ∧
    app (Rz π) (profile 0) = profile 1 ∧ Simple (boundaryFun profile π (2 : ℕ)) ∧
    ∃ b c, boundaryAtZ .default trf profile true π (2 : ℕ) 2 true = some b ∧
      boundaryAtZ .default trf profile true π (2 : ℕ) 2 false = some c ∧
      (∀ p ∈ trace b.eval, p 2 = 0) ∧ ∀ p ∈ trace c.eval, p 2 = 1 := by
  obtain ⟨b, c, hb, hc, h1, h2, -⟩ := c56_boundaries_partial .default ⟨⟨OUT, 1, 1⟩, 0⟩ (N := 2)
    one_le_two (le_refl 2) one_ne_zero IsRot.one one_ne_zero IsRot.one wavy_tile wavy_simple
  refine ⟨_, wavy, rfl, wavy_tile, wavy_simple, b, c, hb, hc, ?_, ?_⟩
  · rw [h1.trace_eq]
    rintro _ ⟨t, -, rfl⟩
    simp only [applyGearTransform_eq, wavy_boundary]
    simp [GearTransform.default, TransformData.default, ORIGIN_eq, app_one, Rz_zero, cyl]
  · rw [h2.trace_eq]
    rintro _ ⟨t, -, rfl⟩
    simp only [applyGearTransform_eq, wavy_boundary]
    simp [GearTransform.default, TransformData.default, ORIGIN_eq, app_one, Rz_zero, cyl, OUT]

end Verif
