import Verif.Model.CurveEdges
import Verif.Props.Convert

/-! # Property C148: `curve_to_edges` -/

namespace Verif

open Real Set

/-- The curves whose export is right: whole lines in either direction, arcs (whole, of at most a full turn, or trimmed to
less than half a turn), and new `TransformedCurve`s of `Convertible` curves. -/
inductive Exportable (asEuler : M3 → ℝ × ℝ × ℝ) (h : NurbHeap) : ExportObj → Prop
  | line {p q : V3} (hpq : p ≠ q) (ops : List LineOp) {c : Curve}
      (hc : lineRun (Curve.make (.line p q) true 0 1) ops = some c)
      (ht : (c.t0 = 0 ∧ c.t1 = 1) ∨ (c.t0 = 1 ∧ c.t1 = 0)) : Exportable asEuler h (.line c)
  | arc {r ang y p w : ℝ} {m : V3} (hr : 0 < r) (ops : List ArcOp) (ho : ∀ R, .setRotmat R ∈ ops → IsRot R) {a : ArcObj}
      (ha : (ArcObj.make r ang m y p w true).run asEuler ops = some a)
      (h0 : ang * (a.curve.t1 - a.curve.t0) ≠ 0)
      (h1 : |ang * (a.curve.t1 - a.curve.t0)| < π ∨ (a.curve.t0 = 0 ∧ a.curve.t1 = 1 ∧ |ang| ≤ 2 * π)) :
      Exportable asEuler h (.arc a)
  | moved (T : V3 →ᵃ[ℝ] V3) (hT : Function.Injective T) {target : CurveObj} (ht : Convertible h target)
      {own : Curve} (ho : CurveObj.moved T target own = CurveObj.transformed h T target) :
      Exportable asEuler h (.moved T target own)

theorem convertible_single {h : NurbHeap} {obj : CurveObj} (hc : Convertible h obj) : obj.single = true := by
  induction hc with
  | line => rfl
  | arc => rfl
  | moved T hT ht ih => rw [CurveObj.transformed, CurveObj.single]; exact ih

theorem Spec.Clock.exists_of_mem {ψ : ℝ → ℝ} (h : Spec.Clock ψ) {u : ℝ} (hu : u ∈ Icc (0 : ℝ) 1) :
    ∃ t ∈ Icc (0 : ℝ) 1, ψ t = u := by
  rw [← h.2] at hu; exact hu

theorem bezier_trace {o : NurbObj} {obj : CurveObj} {g : ℝ → V3} (m : Matches o obj g) (h : NurbHeap) :
    makeBezier o.nurb = Spec.trace (obj.eval h) := by
  obtain ⟨ψ, hψ, e1⟩ := m.nurb
  obtain ⟨φ, hφ, e3⟩ := m.source
  ext p
  rw [makeBezier, Spec.trace]
  constructor
  · rintro ⟨t, t0, t1, e⟩
    rw [e1 t ⟨t0, t1⟩] at e
    obtain ⟨s, hs, es⟩ := hφ.exists_of_mem (hψ.mem ⟨t0, t1⟩)
    exact ⟨s, hs, by rw [e3 h s hs, es, e]⟩
  · rintro ⟨s, hs, e⟩
    rw [e3 h s hs] at e
    obtain ⟨t, ht, et⟩ := hψ.exists_of_mem (hφ.mem hs)
    exact ⟨t, ht.1, ht.2, by rw [e1 t ht, et, e]⟩

/-- One curve: a single edge with exactly its points; existing objects stay as they are. -/
theorem leaf_edges {asEuler : M3 → ℝ × ℝ × ℝ} (hE : EulerOk asEuler) (fit : Curve → List V3 × List ℝ) {h0 : NurbHeap}
    {o : ExportObj} (he : Exportable asEuler h0 o) (h : NurbHeap) :
    ∃ t new, leafEdges asEuler fit o h = some (t, h ++ new) ∧ ∀ h1, t.edges = [Spec.trace (o.obj.eval h1)] := by
  cases he with
  | @line p q hpq ops c hc ht =>
    have e := (c107_line_partial p q hpq ops c hc).2 ht
    refine ⟨.list [.edge (Spec.trace c.eval)], [], by simp [leafEdges, e], fun h1 => ?_⟩
    simp only [EdgeTree.edges, EdgeTree.edges.all, List.append_nil]
    rfl
  | @arc r ang y p w m hr ops ho a ha hz hl =>
    have e : a.toEdge asEuler = some (Spec.trace a.curve.eval) := by
      rcases hl with hl | ⟨t0, t1, hl⟩
      · exact c107_trimmed_partial hE r ang m y p w hr ops ho a ha hz hl
      · exact c107_arc_partial hE r ang m y p w hr (by rw [t0, t1] at hz; simpa using hz) hl ops ho a ha ⟨t0, t1⟩
    refine ⟨.list [.edge (Spec.trace a.curve.eval)], [], by simp [leafEdges, e], fun h1 => ?_⟩
    simp only [EdgeTree.edges, EdgeTree.edges.all, List.append_nil]
    rfl
  | @moved T hT target ht own ho =>
    obtain ⟨o, g, e, m⟩ := convert_matches fit (Convertible.moved T hT ht) true h
    obtain ⟨o', g', e', -⟩ := convert_matches fit ht true h
    rw [CurveObj.transformed, convertCurve, e', Option.map_some, Option.some.injEq, Prod.mk.injEq] at e
    have e2 := e.2
    simp only at e2
    refine ⟨.edge (makeBezier o.nurb), [o], ?_, fun h1 => ?_⟩
    · rw [leafEdges, e', convertible_single ht]
      simp only [Option.bind_some]
      rw [e2]
      simp [genEdges]
    · rw [EdgeTree.edges, bezier_trace m h1, ← ho]; rfl

theorem leaves_edges {asEuler : M3 → ℝ × ℝ × ℝ} (hE : EulerOk asEuler) (fit : Curve → List V3 × List ℝ) {h0 : NurbHeap} :
    ∀ (ms : List ExportObj), (∀ m ∈ ms, Exportable asEuler h0 m) → ∀ h, ∃ ts new,
      leavesEdges asEuler fit ms h = some (ts, h ++ new) ∧
      ∀ h1, EdgeTree.edges.all ts = ms.map fun m => Spec.trace (m.obj.eval h1)
  | [], _, h => ⟨[], [], by simp [leavesEdges], fun _ => rfl⟩
  | m :: ms, hm, h => by
    obtain ⟨t, new, e, et⟩ := leaf_edges hE fit (hm m List.mem_cons_self) h
    obtain ⟨ts, new', e', ets⟩ := leaves_edges hE fit ms (fun m' h' => hm m' (List.mem_cons_of_mem _ h')) (h ++ new)
    refine ⟨t :: ts, new ++ new', ?_, fun h1 => ?_⟩
    · rw [leavesEdges, e]; simp only [Option.bind_some]; rw [e']; simp
    · rw [EdgeTree.edges.all, et h1, ets h1]; rfl

/-- `l` lists the curves of `o` in order: a curve that is no chain is its only one, a chain has those of its members. -/
inductive ExportObj.Curves : ExportObj → List ExportObj → Prop
  | leaf {o : ExportObj} (ho : ∀ ms flag, o ≠ .chain ms flag) : ExportObj.Curves o [o]
  | nil (flag : Bool) : ExportObj.Curves (.chain [] flag) []
  | cons {m : ExportObj} {ms : List ExportObj} {flag : Bool} {l l' : List ExportObj} (hm : ExportObj.Curves m l)
      (hms : ExportObj.Curves (.chain ms flag) l') : ExportObj.Curves (.chain (m :: ms) flag) (l ++ l')

theorem getCurves_eq {o : ExportObj} {l : List ExportObj} (h : o.Curves l) : o.getCurves = l := by
  induction h with
  | @leaf o ho =>
    cases o with
    | chain ms flag => exact absurd rfl (ho ms flag)
    | _ => rfl
  | nil => rfl
  | cons hm hms ih ih' =>
    rw [ExportObj.getCurves] at ih' ⊢
    rw [ExportObj.getCurves.members, ih, ih']

/-- **C148 (partial).** A curve or a chain, however nested, whose curves are whole lines, arcs that `arc_to_b123d` gets
right, or new `TransformedCurve`s of such curves: `curve_to_edges` gives one edge for every curve, in order, each with
exactly the points of its curve, and changes no `NurbCurve` that existed before. Missing: trimmed lines, trimmed
`TransformedCurve`s, inactive members and `TransformedCurve`s of `NurbCurve`s, where it fails, and curves that are
fitted. -/
theorem c148_partial {asEuler : M3 → ℝ × ℝ × ℝ} (hE : EulerOk asEuler) (fit : Curve → List V3 × List ℝ) (h : NurbHeap)
    (o : ExportObj) (l : List ExportObj) (hl : o.Curves l) (hm : ∀ m ∈ l, Exportable asEuler h m) :
    ∃ t new, curveToEdges asEuler fit o h = some (t, h ++ new) ∧
      t.edges = l.map fun m => Spec.trace (m.obj.eval h) := by
  have hg := getCurves_eq hl
  have single : ∀ x, o = x → l = [x] → (∀ as f h', curveToEdges as f x h' = leafEdges as f x h') →
      ∃ t new, curveToEdges asEuler fit o h = some (t, h ++ new) ∧
        t.edges = l.map fun m => Spec.trace (m.obj.eval h) := by
    rintro x rfl rfl hx
    obtain ⟨t, new, e, et⟩ := leaf_edges hE fit (hm o (List.mem_singleton.2 rfl)) h
    exact ⟨t, new, by rw [hx, e], et h⟩
  cases o with
  | chain ms flag =>
    obtain ⟨ts, new, e, et⟩ := leaves_edges hE fit _ hm h
    refine ⟨.list ts, new, ?_, ?_⟩
    · rw [curveToEdges, hg, e]; rfl
    · rw [EdgeTree.edges]; exact et h
  | nurb r => exact single _ rfl hg.symm fun _ _ _ => rfl
  | arc a => exact single _ rfl hg.symm fun _ _ _ => rfl
  | line c => exact single _ rfl hg.symm fun _ _ _ => rfl
  | moved T target own => exact single _ rfl hg.symm fun _ _ _ => rfl
  | other c => exact single _ rfl hg.symm fun _ _ _ => rfl

theorem bezier_image (T : V3 →ᵃ[ℝ] V3) (o : NurbObj) : makeBezier (o.applyTransform T).nurb = T '' makeBezier o.nurb := by
  ext p
  rw [makeBezier, makeBezier]
  constructor
  · rintro ⟨t, t0, t1, e⟩
    simp only [NurbObj.applyTransform] at e
    rw [c03_affine_invariance, Option.map_eq_some_iff] at e
    obtain ⟨q, hq, rfl⟩ := e
    exact ⟨q, ⟨t, t0, t1, hq⟩, rfl⟩
  · rintro ⟨q, ⟨t, t0, t1, hq⟩, rfl⟩
    refine ⟨t, t0, t1, ?_⟩
    simp only [NurbObj.applyTransform]
    rw [c03_affine_invariance, hq]; rfl

theorem convert_plain_active (fit : Curve → List V3 × List ℝ) (c : Curve) (skip : Bool) (h : NurbHeap) (o : NurbObj)
    (e : convertCurve fit (.plain c) skip h = some ([h.length], h ++ [o])) : o.curve.active = c.active := by
  rw [convertCurve, Option.map_eq_some_iff] at e
  obtain ⟨x, -, e⟩ := e
  have e2 := (List.append_cancel_left (congrArg Prod.snd e))
  rw [← List.singleton_inj.1 e2, NurbObj.make, Curve.make]
  split_ifs with ha
  · exact updateLengths_active _
  · rfl

/-- A converted curve is switched on if the curve was. -/
theorem convert_active (fit : Curve → List V3 × List ℝ) {h0 : NurbHeap} {obj : CurveObj} (hc : Convertible h0 obj)
    (skip : Bool) (h : NurbHeap) (o : NurbObj) (e : convertCurve fit obj skip h = some ([h.length], h ++ [o])) (h1 : NurbHeap) :
    o.curve.active = obj.active h1 := by
  induction hc generalizing skip o with
  | line => rw [CurveObj.active]; exact convert_plain_active fit _ skip h o e
  | arc => rw [CurveObj.active]; exact convert_plain_active fit _ skip h o e
  | @moved T hT target ht ih =>
    obtain ⟨o', g', e', -⟩ := convert_matches fit ht true h
    rw [CurveObj.transformed, convertCurve, e', Option.map_some, Option.some.injEq, Prod.mk.injEq] at e
    have e2 : h ++ [o'.applyTransform T] = h ++ [o] := by
      rw [← e.2]; simp [moveAll, List.modify_eq_set_getElem?]
    rw [← List.singleton_inj.1 (List.append_cancel_left e2), CurveObj.transformed, CurveObj.active]
    have e3 : (o'.applyTransform T).curve.active = target.active h0 := by
      rw [(convertible_heap ht h0 h1).1]; exact ih true o' e'
    rw [e3, Curve.make]
    split_ifs with ha
    · rw [updateLengths_active]
    · rfl

theorem convert_chain_matches (fit : Curve → List V3 × List ℝ) (h0 : NurbHeap) (h1 : NurbHeap) (ms : List CurveObj)
    (hm : ∀ m ∈ ms, Convertible h0 m ∨ ∀ h, m.active h = false) (h : NurbHeap) :
    ∃ os, convertCurve.members fit ms true h = some (List.range' h.length os.length, h ++ os) ∧
      List.Forall₂ (fun o m => makeBezier o.nurb = Spec.trace (m.eval h1) ∧ o.curve.active = true) os
        (ms.filter fun m => m.active h1) := by
  induction ms generalizing h with
  | nil => exact ⟨[], by simp [convertCurve.members], by simp⟩
  | cons m ms ih =>
    have ih := ih fun m' hm' => hm m' (List.mem_cons_of_mem _ hm')
    rw [convertCurve.members]
    rcases hm m List.mem_cons_self with hc | hin
    · by_cases hact : m.active h1 = true
      · have hact' : m.active h = true := by rw [(convertible_heap hc h h1).1, hact]
        rw [if_pos (by rw [hact']; rfl), List.filter_cons_of_pos hact]
        obtain ⟨o, g, e, mt⟩ := convert_matches fit hc true h
        obtain ⟨os, e', fa⟩ := ih (h ++ [o])
        refine ⟨o :: os, ?_, List.Forall₂.cons ⟨bezier_trace mt h1, ?_⟩ fa⟩
        · rw [e]; simp only [Option.bind_some]; rw [e']; simp [List.range'_succ]
        · rw [convert_active fit hc true h o e h1, hact]
      · have hact' : ¬ (m.active h || !true) = true := by
          rw [(convertible_heap hc h h1).1]; simpa using hact
        rw [if_neg hact', List.filter_cons_of_neg hact]; exact ih h
    · rw [if_neg (by rw [hin]; simp), List.filter_cons_of_neg (by rw [hin]; simp)]; exact ih h

theorem moveAll_new (T : V3 → V3) : ∀ (os h : NurbHeap),
    moveAll T (List.range' h.length os.length) (h ++ os) = h ++ os.map (NurbObj.applyTransform T)
  | [], h => by simp [moveAll]
  | o :: os, h => by
    have e : (h ++ o :: os).modify h.length (NurbObj.applyTransform T) = (h ++ [o.applyTransform T]) ++ os := by
      simp [List.modify_eq_set_getElem?]
    have ih := moveAll_new T os (h ++ [o.applyTransform T])
    rw [moveAll] at ih ⊢
    rw [List.length_cons, List.range'_succ, List.foldl_cons, e]
    simpa using ih

theorem mapM_new : ∀ (os h : NurbHeap), (List.range' h.length os.length).mapM (fun r => (h ++ os)[r]?) = some os
  | [], h => by simp
  | o :: os, h => by
    have ih := mapM_new os (h ++ [o])
    rw [List.length_cons, List.range'_succ]
    simp only [List.length_append, List.length_cons, List.length_nil, zero_add, List.append_assoc, List.cons_append,
      List.nil_append] at ih
    simp [List.mapM_cons, ih]

/-- **C148, moved chains (partial).** A `TransformedCurve` of a chain (a mirrored tooth flank, for example) gives the list of
one edge for every active member of the chain, in order: the transformed points of the member. Members that are switched
off give no edge. -/
theorem c148_moved_chain_partial (asEuler : M3 → ℝ × ℝ × ℝ) (fit : Curve → List V3 × List ℝ) (h : NurbHeap)
    (T : V3 →ᵃ[ℝ] V3) (ms : List CurveObj) (flag : Bool) (own : Curve)
    (hm : ∀ m ∈ ms, Convertible h m ∨ ∀ h, m.active h = false) :
    ∃ new, curveToEdges asEuler fit (.moved T (.chain ms flag) own) h =
      some (.list (((ms.filter fun m => m.active h).map fun m => .edge (T '' Spec.trace (m.eval h)))), h ++ new) := by
  obtain ⟨os, e, fa⟩ := convert_chain_matches fit h h ms hm h
  refine ⟨os.map (NurbObj.applyTransform T), ?_⟩
  simp only [curveToEdges]
  rw [leafEdges, convertCurve, e]
  simp only [Option.bind_some]
  rw [moveAll_new]
  have hM := mapM_new (os.map (NurbObj.applyTransform T)) h
  rw [List.length_map] at hM
  have hG : genEdges false (List.range' h.length os.length) (h ++ os.map (NurbObj.applyTransform T)) =
      some (.list ((((os.map (NurbObj.applyTransform T)).filter fun o => o.curve.active)).map
        fun o => .edge (makeBezier o.nurb))) := by
    rw [genEdges]
    · rw [hM]; rfl
    · simp
  rw [CurveObj.single, hG]
  simp only [Option.map_some, Option.some.injEq, Prod.mk.injEq, and_true, EdgeTree.list.injEq]
  clear hG hM e hm
  generalize (ms.filter fun m => m.active h) = l at fa
  induction fa with
  | nil => rfl
  | @cons o m os l hom _ ih =>
    rw [List.map_cons, List.filter_cons_of_pos (by exact hom.2), List.map_cons, List.map_cons, ih, bezier_image, hom.1]

/-- **C148 fails for inactive members.** A line and a line that is switched off: the chain runs through the first one only,
two edges are made. -/
theorem c148_inactive_violated (asEuler : M3 → ℝ × ℝ × ℝ) (fit : Curve → List V3 × List ℝ) (p q r : V3) :
    ∃ a b t, a = Curve.make (.line p q) true 0 1 ∧ b = Curve.make (.line q r) false 0 1 ∧ b.active = false ∧
      curveToEdges asEuler fit (.chain [.line a, .line b] true) [] = some (t, []) ∧
      t.edges = [makeLine p q, makeLine q r] := by
  refine ⟨_, _, .list [.list [.edge (makeLine p q)], .list [.edge (makeLine q r)]], rfl, rfl, ?_, ?_, ?_⟩
  · rw [Curve.make, if_neg (by simp)]
  · have e1 : lineToEdge (Curve.make (.line p q) true 0 1) = some (makeLine p q) := by
      rw [lineToEdge, Curve.make, if_pos rfl, updateLengths_kind]
    have e2 : lineToEdge (Curve.make (.line q r) false 0 1) = some (makeLine q r) := by
      rw [lineToEdge, Curve.make, if_neg (by simp)]
    simp [curveToEdges, ExportObj.getCurves, ExportObj.getCurves.members, leavesEdges, leafEdges, e1, e2]
  · simp [EdgeTree.edges, EdgeTree.edges.all]

/-- **C148 fails for the form of the result.** A chain of lines gives a list of lists; a line moved by a `TransformedCurve`
gives an edge that is in no list. -/
theorem c148_form_violated (asEuler : M3 → ℝ × ℝ × ℝ) (fit : Curve → List V3 × List ℝ) (T : V3 → V3) (p q : V3)
    (hpq : p ≠ q) (own : Curve) :
    (∃ E, curveToEdges asEuler fit (.chain [.line (lineC p q)] true) [] = some (.list [.list [.edge E]], [])) ∧
    ∃ E h, curveToEdges asEuler fit (.moved T (.plain (lineC p q)) own) [] = some (.edge E, h) := by
  have e1 : lineToEdge (lineC p q) = some (makeLine p q) := by
    rw [lineToEdge, lineC, Curve.make, if_pos rfl, updateLengths_kind]
  have hc : Convertible [] (.plain (lineC p q)) := Convertible.line hpq [] rfl (by
    rw [lineC, Curve.make, if_pos rfl, updateLengths_t0, updateLengths_t1]; norm_num)
  obtain ⟨o, g, e, -⟩ := convert_matches fit hc true []
  refine ⟨⟨makeLine p q, ?_⟩, ?_⟩
  · simp [curveToEdges, ExportObj.getCurves, ExportObj.getCurves.members, leavesEdges, leafEdges, e1]
  · refine ⟨makeBezier (o.applyTransform T).nurb, [o.applyTransform T], ?_⟩
    simp only [curveToEdges]
    rw [leafEdges, e]
    simp [moveAll, genEdges, CurveObj.single]

/-- **C148 fails for trimmed `TransformedCurve`s.** A moved line whose end is set back to `s < 1`: the edge still reaches the
old end, which is no longer on the curve. -/
theorem c148_trimmed_violated (asEuler : M3 → ℝ × ℝ × ℝ) (fit : Curve → List V3 × List ℝ) (T : V3 →ᵃ[ℝ] V3)
    (hT : Function.Injective T) (p q : V3) (hpq : p ≠ q) (s : ℝ) (hs0 : 0 ≤ s) (hs1 : s < 1) :
    ∃ own own' E h, CurveObj.transformed [] T (.plain (lineC p q)) = .moved T (.plain (lineC p q)) own ∧
      own.setEndOn s = some own' ∧
      curveToEdges asEuler fit (.moved T (.plain (lineC p q)) own') [] = some (.edge E, h) ∧
      T q ∈ E ∧ T q ∉ Spec.trace ((CurveObj.moved T (.plain (lineC p q)) own').eval []) := by
  have hc : Convertible [] (.plain (lineC p q)) := Convertible.line hpq [] rfl (by
    rw [lineC, Curve.make, if_pos rfl, updateLengths_t0, updateLengths_t1]; norm_num)
  obtain ⟨o, g, e, m⟩ := convert_matches fit (Convertible.moved T hT hc) true []
  obtain ⟨o', g', e', -⟩ := convert_matches fit hc true []
  rw [CurveObj.transformed, convertCurve, e', Option.map_some, Option.some.injEq, Prod.mk.injEq] at e
  have e2 := e.2
  simp only at e2
  obtain ⟨f, hf⟩ : ∃ f, f = fun t => (((CurveObj.plain (lineC p q)).eval [] t).map T).getD 0 := ⟨_, rfl⟩
  have hfv : ∀ t, f t = T ((1 - t) • p + t • q) := by
    intro t; rw [hf]; simp [CurveObj.eval, lineC_eval]
  have hinj : InjOn f (Icc 0 1) := by
    intro x _ y _ e'
    rw [hfv, hfv] at e'
    exact line_param_inj hpq (hT e')
  obtain ⟨κ, hκ, e4⟩ := generic_clock f hinj 20 (by norm_num) true
  have hact : (CurveObj.plain (lineC p q)).active [] = true := lineC_active p q
  obtain ⟨own, hown⟩ : ∃ own, own = Curve.make (.generic f 20) true 0 1 := ⟨_, rfl⟩
  have hs : s ∈ Icc (0 : ℝ) 1 := ⟨hs0, hs1.le⟩
  have hobj : CurveObj.transformed [] T (.plain (lineC p q)) = .moved T (.plain (lineC p q)) own := by
    rw [CurveObj.transformed, hact, ← hf, hown]
  have hend : own.setEndOn s = some ({ own with t1 := κ s }.updateLengths) := by
    rw [Curve.setEndOn, hown, e4 s hs]; rfl
  have hk1 : κ s < 1 := by
    have := hκ.1 hs ⟨zero_le_one, le_rfl⟩ hs1
    rwa [hκ.ends.2] at this
  have hk0 : 0 ≤ κ s := (hκ.mem hs).1
  refine ⟨own, _, makeBezier o.nurb, [o], hobj, hend, ?_, ?_, ?_⟩
  · simp only [curveToEdges]
    rw [leafEdges, e']
    simp only [Option.bind_some]
    rw [e2]
    simp [genEdges, CurveObj.single]
  · rw [bezier_trace m [], hobj]
    refine ⟨1, ⟨zero_le_one, le_rfl⟩, ?_⟩
    rw [CurveObj.eval, hown, e4 1 ⟨zero_le_one, le_rfl⟩, hκ.ends.2]
    simp [CurveObj.eval, lineC_eval]
  · rintro ⟨u, hu, eu⟩
    have hsam : ({ own with t1 := κ s } : Curve).kind.Sampled := by
      rw [hown, Curve.make, if_pos rfl, updateLengths_kind]; exact (by norm_num : 1 ≤ 20)
    obtain ⟨a, b, ha, hb, hle, -⟩ := c38_monotone { own with t1 := κ s } hsam u u hu.1 le_rfl hu.2
    have h0 : own.t0 = 0 := by rw [hown, Curve.make, if_pos rfl, updateLengths_t0]
    have hle' := hle (by simp only [h0]; exact hk0)
    simp only at hle'
    rw [CurveObj.eval, hb] at eu
    simp only [Option.bind_some, CurveObj.eval, lineC_eval, Option.map_some, Option.some.injEq] at eu
    have e5 : (1 - b) • p + b • q = (1 - (1 : ℝ)) • p + (1 : ℝ) • q := by
      have := hT eu; rw [this]; simp
    have := line_param_inj hpq e5
    linarith [hle'.2.2]

/-- **C148 fails for `TransformedCurve`s of `NurbCurve`s.** Every export moves the `NurbCurve` once more: two exports of the
same curve give different edges. -/
theorem c148_alias_violated (asEuler : M3 → ℝ × ℝ × ℝ) (fit : Curve → List V3 × List ℝ) (p v : V3) (hv : v ≠ 0)
    (own : Curve) :
    ∃ h E h' E' h'', h = [NurbObj.make [p, p + v] [1, 1] true] ∧
      curveToEdges asEuler fit (.moved (fun x => x + v) (.nurb 0) own) h = some (.edge E, h') ∧
      curveToEdges asEuler fit (.moved (fun x => x + v) (.nurb 0) own) h' = some (.edge E', h'') ∧
      p + v ∈ E ∧ p + v ∉ E' := by
  obtain ⟨o, ho⟩ : ∃ o, o = NurbObj.make [p, p + v] [1, 1] true := ⟨_, rfl⟩
  have key : ∀ o1 : NurbObj, curveToEdges asEuler fit (.moved (fun x => x + v) (.nurb 0) own) [o1] =
      some (.edge (makeBezier (o1.applyTransform fun x => x + v).nurb), [o1.applyTransform fun x => x + v]) := by
    intro o1
    simp [curveToEdges, leafEdges, convertCurve, moveAll, genEdges, CurveObj.single]
  refine ⟨[o], _, _, _, _, by rw [ho], key o, key _, ?_, ?_⟩
  · refine ⟨0, le_rfl, zero_le_one, ?_⟩
    simp [ho, NurbObj.applyTransform, NurbObj.make, nurb_line]
  · rintro ⟨t, t0, t1, e⟩
    simp only [ho, NurbObj.applyTransform, NurbObj.make, List.map_cons, List.map_nil, nurb_line, Option.some.injEq] at e
    have e' : (1 + t) • v = 0 := by
      have e2 : (1 - t) • (p + v + v) + t • (p + v + v + v) - (p + v) = 0 := by rw [e]; simp
      rw [← e2]; module
    rcases smul_eq_zero.1 e' with h | h
    · linarith
    · exact hv h

/-- A chain in a chain: a reversed line and a line moved by a translation meet the conditions of `c148_partial`. -/
theorem c148_case (asEuler : M3 → ℝ × ℝ × ℝ) (p q v : V3) (hpq : p ≠ q) : ∃ c own,
    lineRun (Curve.make (.line p q) true 0 1) [.reverse] = some c ∧
    (ExportObj.chain [.chain [.line c] true, .moved (AffineEquiv.constVAdd ℝ V3 v) (.plain (lineC p q)) own] true).Curves
      [.line c, .moved (AffineEquiv.constVAdd ℝ V3 v) (.plain (lineC p q)) own] ∧
    ∀ m ∈ [ExportObj.line c, .moved (AffineEquiv.constVAdd ℝ V3 v) (.plain (lineC p q)) own], Exportable asEuler [] m := by
  have hc : Convertible [] (.plain (lineC p q)) := Convertible.line hpq [] rfl (by
    rw [lineC, Curve.make, if_pos rfl, updateLengths_t0, updateLengths_t1]; norm_num)
  refine ⟨_, Curve.make (.generic (fun t => (((CurveObj.plain (lineC p q)).eval [] t).map
    (AffineEquiv.constVAdd ℝ V3 v)).getD 0) 20) ((CurveObj.plain (lineC p q)).active []) 0 1, rfl, ?_, ?_⟩
  · exact .cons (l := [.line _]) (l' := [.moved _ _ _]) (.cons (l := [.line _]) (l' := []) (.leaf (by simp)) (.nil _))
      (.cons (l := [.moved _ _ _]) (l' := []) (.leaf (by simp)) (.nil _))
  intro m hm
  simp only [List.mem_cons, List.not_mem_nil, or_false] at hm
  rcases hm with rfl | rfl
  · exact Exportable.line hpq [.reverse] rfl (Or.inr ⟨rfl, rfl⟩)
  · exact Exportable.moved (AffineEquiv.constVAdd ℝ V3 v : V3 →ᵃ[ℝ] V3) (AffineEquiv.constVAdd ℝ V3 v).injective hc rfl

/-- A line and a line that is switched off meet the conditions of `c148_moved_chain_partial`; one of the two is active. -/
theorem c148_moved_chain_case (h : NurbHeap) (p q r : V3) (hpq : p ≠ q) :
    (∀ m ∈ [CurveObj.plain (lineC p q), .plain (Curve.make (.line q r) false 0 1)],
      Convertible h m ∨ ∀ h, m.active h = false) ∧
    ([CurveObj.plain (lineC p q), .plain (Curve.make (.line q r) false 0 1)].filter fun m => m.active h) =
      [.plain (lineC p q)] := by
  have hc : Convertible h (.plain (lineC p q)) := Convertible.line hpq [] rfl (by
    rw [lineC, Curve.make, if_pos rfl, updateLengths_t0, updateLengths_t1]; norm_num)
  have hi : ∀ h, (CurveObj.plain (Curve.make (.line q r) false 0 1)).active h = false := fun h => by
    rw [CurveObj.active, Curve.make, if_neg (by simp)]
  refine ⟨fun m hm => ?_, ?_⟩
  · simp only [List.mem_cons, List.not_mem_nil, or_false] at hm
    rcases hm with rfl | rfl
    · exact Or.inl hc
    · exact Or.inr hi
  · have ha : (CurveObj.plain (lineC p q)).active h = true := lineC_active p q
    simp only [List.filter, ha, hi]

end Verif
