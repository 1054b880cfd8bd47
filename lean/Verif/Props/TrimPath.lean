import Verif.Props.Flatten
import Verif.Props.SimpleEx
import Verif.Spec.Piece

/-!
# Properties C41 and C45: a trimmed curve or chain runs through exactly the requested piece
-/

namespace Verif

open Real Set

/-! ### Pieces -/

theorem mono_ends {φ : ℝ → ℝ} {a b : ℝ} (h : StrictMonoOn φ (Icc 0 1)) (hi : φ '' Icc 0 1 = Icc a b) : φ 0 = a ∧ φ 1 = b := by
  have m0 : (0 : ℝ) ∈ Icc (0 : ℝ) 1 := ⟨le_refl _, zero_le_one⟩
  have m1 : (1 : ℝ) ∈ Icc (0 : ℝ) 1 := ⟨zero_le_one, le_refl _⟩
  have i0 : φ 0 ∈ Icc a b := hi ▸ mem_image_of_mem φ m0
  have i1 : φ 1 ∈ Icc a b := hi ▸ mem_image_of_mem φ m1
  have ha : a ∈ φ '' Icc 0 1 := by rw [hi]; exact ⟨le_refl _, i0.1.trans i0.2⟩
  have hb : b ∈ φ '' Icc 0 1 := by rw [hi]; exact ⟨i0.1.trans i0.2, le_refl _⟩
  obtain ⟨x, hx, rfl⟩ := ha
  obtain ⟨y, hy, rfl⟩ := hb
  exact ⟨le_antisymm (h.monotoneOn m0 hx hx.1) i0.1, le_antisymm i1.2 (h.monotoneOn hy m1 hy.2)⟩

theorem Spec.Piece.ends {e f : ℝ → Option V3} {a b : ℝ} (h : Piece e f a b) : e 0 = f a ∧ e 1 = f b := by
  obtain ⟨φ, h1, h2, h3⟩ := h
  obtain ⟨e0, e1⟩ := mono_ends h1 h2
  exact ⟨by rw [h3 0 ⟨le_refl _, zero_le_one⟩, e0], by rw [h3 1 ⟨zero_le_one, le_refl _⟩, e1]⟩

/-- Two curves over the same parameter: where one has the range of a part of the other, it is a piece of it. -/
theorem piece_of_clocks {e f g : ℝ → Option V3} {τ υ : ℝ → ℝ} {a b p q p' q' : ℝ} (hτ : StrictMonoOn τ (Icc 0 1))
    (hτi : τ '' Icc 0 1 = Icc p q) (hυ : StrictMonoOn υ (Icc 0 1)) (hυi : υ '' Icc 0 1 = Icc p' q') (ha : 0 ≤ a)
    (hab : a ≤ b) (hb : b ≤ 1) (ea : υ a = p) (eb : υ b = q) (he : ∀ s ∈ Icc (0 : ℝ) 1, e s = g (τ s))
    (hf : ∀ s ∈ Icc (0 : ℝ) 1, f s = g (υ s)) : Spec.Piece e f a b := by
  have ma : a ∈ Icc (0 : ℝ) 1 := ⟨ha, hab.trans hb⟩
  have mb : b ∈ Icc (0 : ℝ) 1 := ⟨ha.trans hab, hb⟩
  have hin : ∀ s ∈ Icc (0 : ℝ) 1, τ s ∈ Icc p q := fun s hs => hτi ▸ mem_image_of_mem τ hs
  have hsub : ∀ x ∈ Icc p q, x ∈ υ '' Icc 0 1 := by
    intro x hx
    rw [hυi]
    have h1 : υ a ∈ Icc p' q' := hυi ▸ mem_image_of_mem υ ma
    have h2 : υ b ∈ Icc p' q' := hυi ▸ mem_image_of_mem υ mb
    rw [ea] at h1
    rw [eb] at h2
    exact ⟨h1.1.trans hx.1, hx.2.trans h2.2⟩
  choose! ψ hψ1 hψ2 using hsub
  have hle : ∀ x ∈ Icc (0 : ℝ) 1, ∀ y ∈ Icc (0 : ℝ) 1, υ x < υ y → x < y := by
    intro x hx y hy h
    by_contra hc
    exact absurd (hυ.monotoneOn hy hx (not_lt.1 hc)) (not_le.2 h)
  refine ⟨fun s => ψ (τ s), ?_, ?_, ?_⟩
  · intro s hs t ht hst
    refine hle _ (hψ1 _ (hin s hs)) _ (hψ1 _ (hin t ht)) ?_
    rw [hψ2 _ (hin s hs), hψ2 _ (hin t ht)]
    exact hτ hs ht hst
  · apply Subset.antisymm
    · rintro _ ⟨s, hs, rfl⟩
      have h1 := hin s hs
      have h2 := hψ1 _ h1
      have h3 := hψ2 _ h1
      constructor
      · by_contra hc
        have := hυ h2 ma (not_le.1 hc)
        rw [h3, ea] at this
        exact absurd h1.1 (not_le.2 this)
      · by_contra hc
        have := hυ mb h2 (not_le.1 hc)
        rw [h3, eb] at this
        exact absurd h1.2 (not_le.2 this)
    · intro x hx
      have mx : x ∈ Icc (0 : ℝ) 1 := ⟨ha.trans hx.1, hx.2.trans hb⟩
      have h1 : υ x ∈ Icc p q := ⟨ea ▸ hυ.monotoneOn ma mx hx.1, eb ▸ hυ.monotoneOn mx mb hx.2⟩
      rw [← hτi] at h1
      obtain ⟨s, hs, h2⟩ := h1
      refine ⟨s, hs, ?_⟩
      simp only
      exact hυ.injOn (hψ1 _ (hin s hs)) mx (by rw [hψ2 _ (hin s hs), h2])
  · intro s hs
    rw [he s hs, hf _ (hψ1 _ (hin s hs)), hψ2 _ (hin s hs)]

/-- A piece of a piece is a piece. -/
theorem Spec.Piece.trans {e f g : ℝ → Option V3} {a b c d : ℝ} (h : Piece e f a b) (ha : 0 ≤ a) (hb : b ≤ 1)
    {φ : ℝ → ℝ} (hφ : StrictMonoOn φ (Icc 0 1)) (hφi : φ '' Icc 0 1 = Icc c d) (hf : ∀ s ∈ Icc (0 : ℝ) 1, f s = g (φ s)) :
    Piece e g (φ a) (φ b) := by
  obtain ⟨ψ, h1, h2, h3⟩ := h
  have m : ∀ s ∈ Icc (0 : ℝ) 1, ψ s ∈ Icc (0 : ℝ) 1 := by
    intro s hs
    have : ψ s ∈ Icc a b := h2 ▸ mem_image_of_mem ψ hs
    exact ⟨ha.trans this.1, this.2.trans hb⟩
  obtain ⟨e0, e1⟩ := mono_ends h1 h2
  have hab : a ≤ b := by rw [← e0, ← e1]; exact h1.monotoneOn ⟨le_refl _, zero_le_one⟩ ⟨zero_le_one, le_refl _⟩ zero_le_one
  refine ⟨fun s => φ (ψ s), fun s hs t ht hst => hφ (m s hs) (m t ht) (h1 hs ht hst), ?_, fun s hs => by
    rw [h3 s hs, hf _ (m s hs)]⟩
  have ma : a ∈ Icc (0 : ℝ) 1 := ⟨ha, hab.trans hb⟩
  have mb : b ∈ Icc (0 : ℝ) 1 := ⟨ha.trans hab, hb⟩
  apply Subset.antisymm
  · rintro _ ⟨s, hs, rfl⟩
    have : ψ s ∈ Icc a b := h2 ▸ mem_image_of_mem ψ hs
    exact ⟨hφ.monotoneOn ma (m s hs) this.1, hφ.monotoneOn (m s hs) mb this.2⟩
  · intro x hx
    have ia : φ a ∈ Icc c d := hφi ▸ mem_image_of_mem φ ma
    have ib : φ b ∈ Icc c d := hφi ▸ mem_image_of_mem φ mb
    have : x ∈ φ '' Icc 0 1 := by rw [hφi]; exact ⟨ia.1.trans hx.1, hx.2.trans ib.2⟩
    obtain ⟨y, hy, rfl⟩ := this
    have : y ∈ Icc a b := by
      constructor
      · by_contra hc
        exact absurd hx.1 (not_le.2 (hφ hy ma (not_le.1 hc)))
      · by_contra hc
        exact absurd hx.2 (not_le.2 (hφ mb hy (not_le.1 hc)))
    rw [← h2] at this
    obtain ⟨s, hs, rfl⟩ := this
    exact ⟨s, hs, rfl⟩

/-! ### Curves -/

/-- A curve with up-to-date lengths that runs forwards and does not meet itself. -/
structure Curve.PathOk (c : Curve) : Prop where
  act : c.active = true
  sampled : c.kind.Sampled
  fresh : c.updateLengths = c
  lt : c.t0 < c.t1
  inj : InjOn c.kind.fn (Icc c.t0 c.t1)
  len : 0 < c.length

theorem linspace_mem {a b : ℝ} (h : a ≤ b) {n i : ℕ} (hi : i ≤ n) (hn : 1 ≤ n) : linspace a b n i ∈ Icc a b := by
  have hn' : (0 : ℝ) < n := by exact_mod_cast hn
  have h0 : 0 ≤ (i : ℝ) / n := by positivity
  have h1 : (i : ℝ) / n ≤ 1 := by rw [div_le_one hn']; exact_mod_cast hi
  rw [linspace]
  constructor <;> nlinarith

theorem linspace_step {a b : ℝ} (h : a < b) {n : ℕ} (hn : 1 ≤ n) (i : ℕ) : linspace a b n i < linspace a b n (i + 1) := by
  have hn' : (0 : ℝ) < n := by exact_mod_cast hn
  have hd : linspace a b n (i + 1) - linspace a b n i = (b - a) / n := by
    simp only [linspace]; push_cast; field_simp; ring
  have := div_pos (sub_pos.2 h) hn'
  linarith

theorem pathOk_strict {c : Curve} (hs : c.kind.Sampled) (hf : c.updateLengths = c) (hlt : c.t0 < c.t1)
    (hi : InjOn c.kind.fn (Icc c.t0 c.t1)) : c.Strict := by
  rw [← hf]
  refine c39_strict c hs hlt fun f n hk i hin e => ?_
  have hn : 1 ≤ n := by rw [hk] at hs; exact hs
  rw [hk] at hi
  exact absurd (hi (linspace_mem hlt.le hin.le hn) (linspace_mem hlt.le hin hn) e) (linspace_step hlt hn i).ne

/-- The parameter runs through its range from one end to the other. -/
theorem Curve.PathOk.run {c : Curve} (h : c.PathOk) : ∃ τ : ℝ → ℝ, StrictMonoOn τ (Icc 0 1) ∧ τ '' Icc 0 1 = Icc c.t0 c.t1 ∧
    ∀ s ∈ Icc (0 : ℝ) 1, c.s2t s = some (τ s) := by
  have hst := pathOk_strict h.sampled h.fresh h.lt h.inj
  have hT := hst.tab
  have hcont := npInterp_continuousOn (fp := c.lookup.t) hst.s_strict
  rw [hT.s_zero, hT.s_last] at hcont
  have l0 : npInterp c.lookup.s c.lookup.t c.lookup.n 0 = c.t0 := by
    have h01 : c.lookup.s 0 < c.lookup.s 1 := hst.s_strict 0 1 (by omega) hT.pos
    have l0 : lastLe c.lookup.s 0 c.lookup.n = 0 :=
      lastLe_unique (Nat.zero_le _) hT.s_zero.le hT.s_mono fun _ => by rw [hT.s_zero] at h01; exact h01
    rw [npInterp, if_neg (by rw [hT.s_zero]; exact lt_irrefl _)]
    simp only [l0, hT.s_zero, hT.t_zero, sub_self, mul_zero, add_zero]
    rw [if_neg (by have := hT.pos; omega)]
  have l1 : npInterp c.lookup.s c.lookup.t c.lookup.n 1 = c.t1 := by
    rw [npInterp_last (by rw [hT.s_zero]; exact zero_le_one) hT.s_last.le, hT.t_last]
  refine ⟨npInterp c.lookup.s c.lookup.t c.lookup.n, ?_, ?_, ?_⟩
  · intro x hx y hy hxy
    have h0 : c.lookup.s 0 ≤ x := by rw [hT.s_zero]; exact hx.1
    refine lt_of_le_of_ne (npInterp_mono h0 hxy.le (hT.t_mono h.lt.le)) ?_
    intro e
    have i1 := (interp_inverse (x := x) hst.s_strict hst.t_strict h0 (by rw [hT.s_last]; exact hx.2) hT.pos).1
    have i2 := (interp_inverse (x := y) hst.s_strict hst.t_strict (by rw [hT.s_zero]; exact hy.1)
      (by rw [hT.s_last]; exact hy.2) hT.pos).1
    rw [e, i2] at i1
    exact hxy.ne' i1
  · apply Subset.antisymm
    · rintro _ ⟨x, hx, rfl⟩
      have i := interp_inverse (x := x) hst.s_strict hst.t_strict (by rw [hT.s_zero]; exact hx.1)
        (by rw [hT.s_last]; exact hx.2) hT.pos
      rw [hT.t_zero, hT.t_last] at i
      exact i.2
    · have := intermediate_value_Icc zero_le_one hcont
      rwa [l0, l1] at this
  · intro s hs
    rw [Curve.s2t, if_neg (not_lt.2 hs.1), if_neg (not_lt.2 hs.2)]

/-- The same curve over a part of its range. -/
theorem Curve.PathOk.part {c : Curve} (h : c.PathOk) {p q : ℝ} (hp : c.t0 ≤ p) (hpq : p < q) (hq : q ≤ c.t1) :
    Curve.PathOk { c with t0 := p, t1 := q }.updateLengths := by
  have hinj : InjOn c.kind.fn (Icc p q) := h.inj.mono (Icc_subset_Icc hp hq)
  refine ⟨by rw [updateLengths_active]; exact h.act, by rw [updateLengths_kind]; exact h.sampled, updateLengths_idem _,
    by rw [updateLengths_t0, updateLengths_t1]; exact hpq,
    by rw [updateLengths_t0, updateLengths_t1, updateLengths_kind]; exact hinj, ?_⟩
  have hl := h.len
  rw [← h.fresh] at hl
  rw [Curve.updateLengths] at hl ⊢
  cases hk : c.kind with
  | generic f n =>
    have hn : 1 ≤ n := by have := h.sampled; rw [hk] at this; exact this
    rw [hk] at hinj
    simp only [hk]
    have hd : f (linspace p q n 0) ≠ f (linspace p q n (0 + 1)) := fun e =>
      absurd (hinj (linspace_mem hpq.le (Nat.zero_le n) hn) (linspace_mem hpq.le hn hn) e) (linspace_step hpq hn 0).ne
    refine lt_of_le_of_ne (chordLen_nonneg _ _ _) fun e => hd ?_
    refine chordLen_eq_imp f (linspace p q n) (Nat.zero_le 1) (le_antisymm (chordLen_mono _ _ (Nat.zero_le 1)) ?_)
    calc chordLen f (linspace p q n) (0 + 1) ≤ chordLen f (linspace p q n) n := chordLen_mono _ _ hn
      _ = 0 := e.symm
      _ = chordLen f (linspace p q n) 0 := rfl
  | line u v =>
    simp only [hk] at hl ⊢
    have h1 : 0 < norm3 (v - u) := by
      refine lt_of_le_of_ne (norm3_nonneg _) fun e => ?_
      rw [← e, zero_mul] at hl
      exact lt_irrefl _ hl
    exact mul_pos h1 (abs_pos.2 (sub_ne_zero.2 hpq.ne'))
  | arc r a m M =>
    simp only [hk] at hl ⊢
    exact hl

/-- **C41, the whole piece, start.** After `set_start_on(s)` the curve runs through exactly the part from `s` on. -/
theorem c41_start_path (c : Curve) (h : c.PathOk) (s : ℝ) (h0 : 0 ≤ s) (h1 : s < 1) :
    ∃ d, c.setStartOn s = some d ∧ d.PathOk ∧ Spec.Piece d.eval c.eval s 1 := by
  obtain ⟨τ, t1, t2, t3⟩ := h.run
  obtain ⟨e0, e1⟩ := mono_ends t1 t2
  have ms : s ∈ Icc (0 : ℝ) 1 := ⟨h0, h1.le⟩
  have m1 : (1 : ℝ) ∈ Icc (0 : ℝ) 1 := ⟨zero_le_one, le_refl _⟩
  have hlo : c.t0 ≤ τ s := (t2 ▸ mem_image_of_mem τ ms : τ s ∈ Icc c.t0 c.t1).1
  have hhi : τ s < c.t1 := by rw [← e1]; exact t1 ms m1 h1
  have hd := h.part hlo hhi (le_refl _)
  have hdd : ({ c with t0 := τ s, t1 := c.t1 } : Curve) = { c with t0 := τ s } := rfl
  rw [hdd] at hd
  refine ⟨_, by rw [Curve.setStartOn, t3 s ms]; rfl, hd, ?_⟩
  obtain ⟨υ, u1, u2, u3⟩ := hd.run
  rw [updateLengths_t0, updateLengths_t1] at u2
  refine piece_of_clocks (g := fun t => some (c.kind.fn t)) u1 u2 t1 t2 h0 h1.le (le_refl _) rfl e1 ?_ ?_
  · intro x hx
    rw [Curve.eval, u3 x hx, updateLengths_kind]
    rfl
  · intro x hx
    rw [Curve.eval, t3 x hx]
    rfl

/-- **C41, the whole piece, end.** After `set_end_on(s)` the curve runs through exactly the part up to `s`. -/
theorem c41_end_path (c : Curve) (h : c.PathOk) (s : ℝ) (h0 : 0 < s) (h1 : s ≤ 1) :
    ∃ d, c.setEndOn s = some d ∧ d.PathOk ∧ Spec.Piece d.eval c.eval 0 s := by
  obtain ⟨τ, t1, t2, t3⟩ := h.run
  obtain ⟨e0, e1⟩ := mono_ends t1 t2
  have ms : s ∈ Icc (0 : ℝ) 1 := ⟨h0.le, h1⟩
  have m0 : (0 : ℝ) ∈ Icc (0 : ℝ) 1 := ⟨le_refl _, zero_le_one⟩
  have hhi : τ s ≤ c.t1 := (t2 ▸ mem_image_of_mem τ ms : τ s ∈ Icc c.t0 c.t1).2
  have hlo : c.t0 < τ s := by rw [← e0]; exact t1 m0 ms h0
  have hd := h.part (le_refl _) hlo hhi
  have hdd : ({ c with t0 := c.t0, t1 := τ s } : Curve) = { c with t1 := τ s } := rfl
  rw [hdd] at hd
  refine ⟨_, by rw [Curve.setEndOn, t3 s ms]; rfl, hd, ?_⟩
  obtain ⟨υ, u1, u2, u3⟩ := hd.run
  rw [updateLengths_t0, updateLengths_t1] at u2
  refine piece_of_clocks (g := fun t => some (c.kind.fn t)) u1 u2 t1 t2 (le_refl _) h0.le h1 e0 rfl ?_ ?_
  · intro x hx
    rw [Curve.eval, u3 x hx, updateLengths_kind]
    rfl
  · intro x hx
    rw [Curve.eval, t3 x hx]
    rfl

end Verif
