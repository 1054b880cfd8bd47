# Design of the verification of gggears

Subject: the Python package in `/repo/src/gggears` (pinned commit). The package
computes gear geometry with numpy and scipy and hands it to the build123d CAD
kernel. The code is not run. The Lean model mirrors the Python functions branch by
branch and the theorems are about that model.

## 1. Shape of the development

```
lean/Verif/Base/*    numeric and vector primitives (numpy/scipy calls that have a closed definition)
lean/Verif/Model/*   the model, one definition per Python function, each citing file:lines
lean/Verif/Spec/*    small specifications, written without the model's helpers
lean/Verif/Lemmas/*  helper lemmas
lean/Verif/Props/*   the property theorems (named c01_..., c02_...) and their non-vacuity examples
```

Naming: a theorem `cNN_xxx` belongs to property CNN. A name ending in `_partial`
proves only part of the property. A name containing `_violated` proves that the
code breaks the property, with a concrete witness.

## 2. Trusted base

* Lean 4.33.0's kernel, and Mathlib's definitions of ℝ, sin, cos, tan, arctan,
  arccos, arcsin, sqrt, floor, `Complex.arg`, `Matrix`, `HasDerivAt`.
* Axioms: at most `propext`, `Classical.choice`, `Quot.sound` for every theorem.
  No axiom is added. No `sorry`, `native_decide` or `bv_decide`.
* The transcription from Python to Lean, which is by hand. Every model definition
  cites the lines it transcribes.

### What is modelled, and how

* **Numbers.** Python floats are modelled as real numbers. Rounding, overflow, NaN
  and infinities are outside the model. Where the code would divide by zero or take
  a root of a negative number, theorems carry the guard under which it does not, or
  the function returns `Option`/`Except`.
* **numpy arrays of one point** are `Fin 3 → ℝ`; 3×3 arrays are `Matrix (Fin 3) (Fin 3) ℝ`.
  Arrays of points are lists (or functions on `Fin n`). Vectorised evaluation over an
  array of parameters is modelled as the scalar function; broadcasting is not modelled.
* **`np.arctan2(y, x)`** is `Complex.arg (x + i y)`. **`x % 1`** is `x - ⌊x⌋`.
  **`np.interp`, `np.searchsorted`, `np.cumsum`, `np.linspace`, `np.sign`** have
  list definitions in `Base`.
* **`scipy.spatial.transform.Rotation`**: `from_euler` with lower-case letters is the
  product of elementary rotations in extrinsic order. `from_rotvec` is Rodrigues'
  formula. `from_matrix(M).as_euler("zyx")` is modelled by the only fact used: the
  returned angles rebuild the rotation matrix `M`.
* **`scipy.optimize.root` / `minimize`** are parameters. Theorems quantify over every
  value they could return, or assume that the returned value solves the stated equation.
* **Objects with state** (gears, curves, NURBS curves, module level arrays) are records.
  A mutating method is a function from state to state. Aliasing is modelled with an
  explicit heap where it matters (rack reference lines).
* **Exceptions** are values (`Option` / `Except`). Crash points of the CAD kernel are a
  parameter saying at which step the exception is raised.

### What is not modelled

* The CAD kernel (build123d / OpenCascade): solids, faces, booleans, fillets, STEP/STL export.
* Convergence and accuracy of the numerical solvers.
* Floating point error, and therefore tolerances such as `DELTA/100` in `is_closed`
  except as real-number comparisons.
* numpy broadcasting, dtype and vectorisation rules, logging, plotting, the Qt GUI,
  the example scripts.

## 3. Properties: model and proof plan

A. Bezier and NURBS evaluation (`Model/Bezier.lean`, `Model/Fit.lean`)

* C01 Model `bezier`, `bezierdc` over lists in any real module. Proof: de Casteljau
  layer = finite-difference polynomial, induction on the number of points.
* C02 Spec: end values and `convexHull`. Proof: induction on the list.
* C03 Model `nurbezier` as quotient. Spec: affine map. Proof: partition of unity of the
  Bernstein basis from the binomial theorem.
* C04 Proof: reindexing the Bernstein sum by k ↦ n-k.
* C05 Spec: `iteratedDeriv` / `HasDerivAt`. Proof: derivative of de Casteljau, induction on n.
  Expected violation: order n = number of points raises because the guard is `n > d`.
* C06, C07 Spec: `HasDerivAt`. Proof: quotient rule.
* C08 Proof: exchange of sums and cancellation of row weights.
* C09 Spec: distance to centre = radius. Proof: reduce to a polynomial identity in the
  Gram matrix of the two radius vectors.
* C10 Expected violation (missing factor 1/2). Negation plus the exact condition.
* C11 Model the pack/unpack functions on vectors. The optimiser result is a parameter.
* C12 Model cost and Jacobian. Spec: `HasDerivAt` of the cost along each coordinate.
  Expected violation for the surface fit (factor 2).

B. Coordinates and transforms (`Model/Transform.lean`, `Model/Coord.lean`)

* C13, C14 Proof: Pythagoras and the range of `arg`, `arccos`.
* C15 Proof: matrix algebra.
* C16 Expected violation for scale² ≠ 1. Partial theorem under scale² = 1 and an exact iff.
* C17 Expected violation for non-commuting orientation. Partial theorem when the
  orientation commutes with Rz(angle).
* C18 Proof: orthogonal matrices preserve dot products.
* C78 Block matrix algebra.
* C79 Expected violation: the spin of the right factor is dropped. Exact iff.
* C19 Model euler decomposition as an assumption on `as_euler`. Proof: Rz(a+b) = Rz a Rz b.

C. Flanks (`Model/Flank.lean`, `Model/Teeth.lean`)

* C20, C22 Spec: distances, tangency and `HasDerivAt`. Proof: trigonometric algebra.
* C21 Proof: trigonometric polynomial identities.
* C23 Expected violations: zero curvature drops `z_offs`, `octoid` ignores both offsets,
  `cycloid_cone` raises at zero curvature.
* C24 The root search result is a parameter with hypothesis "is on the pitch circle".
* C25 Expected violation: default overwritten by `None`.
* C80 Root search result is a parameter with the radius equation as hypothesis. Octoid: direct
  evaluation and `HasDerivAt` at 0.
* C81 Spec: start point and velocity of a rolling motion (`HasDerivAt`). Proof: explicit formula.
* C82 Unfold and simplify.
* C83 Spec: great circle, tangency, angle, `HasDerivAt`. Proof: trigonometric algebra.

D. Meshing (`Model/GearMath.lean`, `Model/Mesh.lean`)

* C26 Any root is accepted. Uniqueness from strict monotonicity of tan a - a.
* C27 Expected violation: half the backlash, opposite sign convention. Partial theorem: the exact relation.
* C28 From monotonicity of inv and of 1/cos.
* C29 Expected violation for a ring gear meshed to its pinion.
* C30, C31 Spec: congruence modulo 1. Proof: floor arithmetic.
* C32 Rodrigues rotation algebra in an orthonormal frame.
* C33 Expected violation off 90°. Partial at 90°.
* C34 Plane geometry of the rotated unit vector.
* C35 Expected violation for ring gears. Partial for external pairs.
* C36 State machine over a list of gears, induction over histories.
* C37 Unfold two steps; the second sees the same centre and orientation.
* C84 Spec: common normal (`HasDerivAt` of both flanks) and difference of the two flank points.
  Proof: both flank points in the frame of the line of action; the residual gives the distance
  term, C30 gives the phase term.
* C85 Expected violation for an axial component of the target direction.

E. Curves (`Model/Curve.lean`, `Model/Chain.lean`, `Model/Arc.lean`, `Model/Nurbs.lean`)

* C38, C39 Model lookup tables as lists. Proof: induction on the table.
* C40 Expected violation for non-uniform speed. Partial: ends swap, double reverse is the
  identity, exact for symmetric tables and for tables recomputed by `update_lengths`.
* C41 From C38 for the recomputed table.
* C42 Expected violation for arcs. Partial for lines.
* C43, C44 Model `searchsorted` and clamping over lists.
* C45 Expected violation for the two-ended trim. Partial for the one-ended trims.
* C46 Expected violations: `del` leaves an empty list as member, `reverse` returns `None`.
* C47 Expected violation for division when the range is not [0,1].
* C48 Expected violation for n ≥ 2.
* C49, C50, C51 Rotation algebra. Expected violation of C50 for trimmed curves.
* C52, C53 List induction. Members are lists of rows; `is_closed` is an arbitrary function of the state.
* C86, C87 Model of the arc constructors with scipy's Euler angles as a parameter.

F. Profiles (`Model/Core.lean`)

* C54 Unfold and simplify; clamping branch by cases.
* C55 (`Model/Profile.lean`) The profile is a chain of two closing arcs, any trimmed tooth curve and its
  mirror image. Proof: the arcs meet the flanks, then the chain theorems of C44. Gaps below the code's
  tolerance of 1e-10 are left open by the code (`c55_gap_partial`).
* C56 (`Model/Boundary.lean`) Spec: `Runs e f`, the curve `e` runs through the points of the path `f` in the
  same order at its own speed. Proof: a sampled curve runs through its function if neighbouring samples
  differ; a chain of such members runs through the glued path. Violation for a profile transform that is not
  the identity.
* C57 By cases on solver outcome.
* C58 (`Props/Path.lean`, `Props/Closed.lean`) Every outline is a list of members each of which ends where the
  next one starts (`Path`). The three closed ones are proved, the two others refuted.
* C59 Objects in a heap (`Model/Recipe.lean`), deep copy and the evaluation loop as relations, so that writes to
  shared objects would show. Spec: trees of data and functions. Rule induction over the evaluation.
* C60 Floor arithmetic.
* C90 Spec: the distance `mesh_to` uses. Proof: tangent line of the sine at the common pressure angle.
* C91 (`Props/Mesh2.lean`) From the pitch crossing of C24 and the placed flanks.
* C92 The common generator lies in the plane of the two axes, so both gears see it in the direction of the other
  centre; then C30.
* C93 Spec: `Tilted`, an axis leaning by an angle while the perpendicular stays. Proof: Rodrigues.
* C94 (`Props/Cut.lean`) From the polyline part of C45 and the chain lookup.

G. Gear objects (`Model/Wrapper.lean`, `Model/Build.lean`)

* C61 (`Model/Wrapper.lean`, `Props/Wrapper.lean`) Constructors are functions from the argument record to the stored
  state. Proof: equality of states. Refuted for three classes.
* C62 Exact iff on module and anchor, from the quadratic of the crowning function; refuted otherwise.
* C63 The slices are placed by the product of gear and recipe transform. Algebra.
* C64, C65 (`Props/HelicalGear.lean`) Spec: `IsRefinement`, `TwistAtMost` (total variation between neighbouring sections).
  Proof: monotone twist on each half, sorted insertion, `linspace` step bound.
* C66, C67 (`Props/Reported.lean`) Exact value of the reported number for every placement; equality at the origin,
  refuted elsewhere.
* C68 Setters on the state; the lost write of `cone_angle` in the heap model of recipes.
* C69 Induction over histories of calls (`runOps`): a gear only ever changes its placement.
* C70, C76 (`Model/Build.lean`, `Props/Build.lean`) The loop of `generate_boundary_edges` returns the placements used and the
  mutated transform. Closed form by induction.
* C71 Algebra on the two states.
* C72, C95 (`Model/Rack.lean`, `Props/Rack.lean`) The meshed rack in the frame of direction, turning direction and axis of
  the gear; floor arithmetic for the phase.
* C96 (`Model/Rack.lean`, `Model/Wrapper.lean`, `Props/RackMesh.lean`) `Opposed` is the specification: a point of each curve on
  one line through the pitch point, tangents at right angles to that line, and the signed distance between the two. The
  general lemma `rack_mesh` is used for `InvoluteGear` and for `HelicalGear` (transverse data).
* C97 (same files) The two sets of heights are computed; they agree for `z_anchor = 0`.
* C98 (`Props/Cycloid.lean`) Modelled: the cycloid flanks of `CycloidTooth` placed in every slice and at every tooth,
  `adapt_cycloid_radii` and `CycloidGear.mesh_to`. In polar form a flank is `(R+c) e(ψ) − c e(ψ+β)`; its normal goes
  through the point where the circles touch. The tooth phase of C30 gives the tooth that touches. Cylindrical gears,
  target direction a unit vector in the plane of the gear. The trimming of the flanks is left out.
* C99 (same file) The play is read off the two contacts of C98. Holds for external gears, not for ring gears.
* C100 (`Model/Fillet.lean`, `Props/Fillet.lean`) Modelled: `calc_centers`, the cost functions, `calc_tangent_arc`,
  `fillet_curve` with its three attempts. A curve is its call operator; the solvers are parameters. If the two centres
  coincide, the arc of `from_2_point_center` (C49) turns about the normalised cross product of the two tangents, and
  its velocity at both ends is a positive multiple of the tangents.
* C101 (same files) `fillet_at_locations` trims two copies of the chain and joins them with the arc. "Consecutive active
  members meet" is rewritten as a list chain relation, so that the pieces can be joined (`meets_join`).
* C102 (same files) On two straight legs the cost function is linear in the two distances; its only zero is
  `r·tan(φ/2)` for both.
* C103 (`Model/Trim.lean`, `Props/Trim.lean`, cases in `Props/TrimEx.lean`, `Props/TrimEx2.lean`, `Props/TrimEx3.lean`) Modelled: `apply_fillet`
  with the loop over three guesses and the angle check. The tooth curve is a flat chain. Solvers are parameters; `Honest`
  says that a reported success is an exact root. Uses C100 for the arc and the shape of the trimmed chain from C101.
* C104 (same files) The arc between the tooth and its mirror image is symmetric to the mirror plane, so its middle is in
  the plane and its velocity there is a multiple of the normal (`half_geometry`); the trimmed arc is its second (first) half.
* C105 (same files) The first part of `trim_reference_profile`, over any type with the operations of a curve (`Lawful`).
* C106 (`Props/Radii.lean`) The closing arcs turn about a point of the axis in the plane of their ends (C49), so their
  distance from the axis is constant; the rest follows from the lookup in the chain (C43). Joined with C105.
* C107 (`Model/Edges.lean`, `Props/Edges.lean`) Modelled: `arc_to_b123d`, `line_to_b123d`, the objects `ArcCurve` and
  `LineCurve` with their mutators. An edge is the set of its points. Trusted: the contract of the two build123d calls
  (`makeCircle` with the angles taken modulo a full turn, `makeLine`) and of `Rotation.as_euler`. Invariant `ArcObj.Good`
  over all histories; the exported circle equals the circle of the curve.
* C108 (`Model/ChainQuery.lean`, `Spec/Jump.lean`, `Props/ChainQuery.lean`) Specification: no jump larger than the
  tolerance anywhere. Uses the lookup in a chain from both sides of a joint (`right_index`).
* C109, C110 (`Props/Flatten.lean`) Nested chains are a recursive type; `chainEval_sel` gives the value of a chain at every
  real parameter from the member that is selected there. Induction over the depth.
* C111 (`Model/Convert.lean`, `Spec/SamePath.lean`, `Props/Convert.lean`) `NurbCurve` objects are in a heap, so that the
  conversion can be seen to move an existing one. Specification: two parametrisations of the same path in the same
  direction. Sources: lines and arcs after any history of trims and reversals, under any nesting of `TransformedCurve` and
  chains. The fitted curves (`fit_nurb_optim`) are a parameter; nothing is claimed about them here.
* C112 (`Model/Report.lean`, `Spec/Axis.lean`, `Props/Report.lean`) The profile of a slice is the one of C55. The reported
  circles are compared with the placed arcs and with distances from the gear's axis (`Spec.distToLine`).
* C113 (`Props/Report2.lean`) The reported angles are compared with the angle at the apex between the axis and the placed
  point (`Spec.angleAt`); tip, root and ring are assumed on the sphere of the pitch circle, where C21 and
  C54 put them.
* C114 (`Props/Report2.lean`) Centres of slices from the transforms; sections as in C65. The middle centre of helical gears, with
  or without herringbone, is `c114_helical_middle`.
* C115 (`Model/CoreGear.lean`, `Props/CoreGear.lean`) Reference curves are arbitrary functions that may fail to evaluate.
  Position for every curve from C13; cone angle for curves given by radius and height on a cone; the default line is a
  line curve of `Model/Curve.lean`. `beta` is never read by the package; its
  value is proved for screw lines (`c115_spiral`).
* C116 (`Props/CoreGear2.lean`) Cylindrical branch from C30; conical branch reduced to C32 where the code is right; the
  violations follow from the fact that the placement does not read the centre and the scale of the partner.
* C117 (`Props/CoreGear2.lean`) Direct computation; the apexes of two slices are compared with the rounding error of the cone
  angle.
* C118 `Model/Undercut`: `get_default_undercut_ref_point`, `generate_undercut_curve`,
  `trim_involute_undercut` and `generate_tooth_curve` of the undercut tooth for cylindrical gears; the solvers
  are parameters. The reference point, the depth of the trochoid (every point of it and of its extension) and
  both ends and the joint of the trimmed chain are proved with C41, C44, C45, C81 and C82. Two straight
  segments are the witness for the failed second search.
* C119 `Model/LowerLimit`: `check_lower_curve_limit` of both generators, the conical octoid flank, `undercut_enable`
  and the generator the wrapper makes. Solvers are parameters; where a theorem needs it, their successes are true roots.
  The witness for conical gears is the octoid of a crown gear (cone angle π), where the flank has a closed form
  (`octoid_crown`) and both searches have exact answers. `c119_octoid_tip`: the flank ends in the middle plane of the tooth.
* C120 `Model/CycloidTooth`: `generate_cycloid_curve` with `find_curve_nearest_point`; solvers are parameters, the search for
  the middle plane answers truly where needed. Rolling of the cones is stated as a derivative: the velocity is that of a
  rotation about the line from the apex to the contact point.
* C121 `Model/CycloidBevel`: the conical cycloid flanks placed at every slice and tooth. The placed flank is put in one closed
  form (`rollPoint`): a cone of half angle arcsin of the rolling ratio rolling on a generator of the pitch cone. Meshing brings the
  generators together (C32), the tooth phases agree (C30), the arcs rolled are equal, so both closed forms give the same
  point; the chord to the generator is normal to the flank. Both flanks are shown to lie on one sphere around the apex.
* C122 `Model/OctoidMesh`: the octoid flanks placed at every slice and tooth and `mesh_to` of conical gears. The octoid of the code is
  shown to be the point of the plane flank of a rolling crown gear that is nearest to the touching generator (`octoid_octPoint`). The
  plane only turns about that generator while it rolls, which gives the normal (`normal_of_roll`). Both gears see the same crown
  gear, from opposite sides (external) or the same side (ring), so their flanks are the same point with the same normal.
* C123 Angles of the common generator against the middles of the teeth, from the mesh equation of C122: the sum of the two arcs is an
  odd multiple of half a pitch.
* C124 `Model/HelicalMesh`: the involute flanks of cylindrical gears placed at every slice, and `mesh_to` of the wrapper classes on them.
  `Cylinder` collects what the constructors guarantee (recipe scale 1, centre along the axis, the twist); a slice is then the slice at
  height 0 lifted, turned by the twist and the crowning, so C84 applies with shifted turns, and the twists cancel because the twist times
  the tooth count agrees up to the hand. `solvable` shows that the equation given to the solver always has a root.
* C125 Same theorems: the crownings enter the gaps with the sign that closes them between the ends. Negative gaps on both sides of one
  tooth are turned into two turns, one forward and one backward, at which the flanks would touch.
* C126 `Props/Crossed`. A helical flank is the envelope of a plane that screws along the axis: a point lies on it if it has the distance of
  the base radius from the axis in a direction ψ and lies in a plane whose offset depends on ψ (`screw_lower`, `screw_upper`). The tilt by
  `mesh_to` makes the tangent planes of both flanks parallel; three linear equations with non-zero determinant give the two points
  (`crossed_geom`). `c30_external_whole` gives the phase.
* C127 The play of C126 in closed form. The working pressure angle enters through the concavity of the sine (`sin_lt_tangent`).
* C128 `gearprofile_to_nurb` as a function of the profile's curves; the optimiser of the fits is a parameter (`opt`) and nothing is
  assumed about it. What is proved is carried by `PieceOk` (end points in place, end weights 1), which every branch of the conversion,
  mirroring and reversing keeps. The edges are specified by `Spec.Wire`. The tooth is any chain of curves whose members run from
  `T 0` to `T 1` (`Path`); the outline hypotheses are those of C58.
* C129 `boundarySplines` on top of C128; `is_continuous`, which only decides whether the ends are averaged, is a parameter (`cont`).
* C130 `Model/Shell`: the faces of a cylindrical gear as control data (`sideFaces`, `sideSurfaces`, `coverBorders`,
  `gearFaces`), on top of the slices of C128 and the rows of C88; the gradient steps of the optimiser (`Descent`,
  `SurfSolution`). Spec: `Spec/Shell`, the multiset of all borders is twice another multiset. Proof: rows and columns
  telescope over sections and patches (`c130_seams`); the seam between teeth holds for slices by C128 and is a linear
  condition on rows, so every gradient step keeps it (`c130_fitted`).
* C131 `Model/Rows`: the choice of `n_vert` in the three `build_part` methods (`nVert`, `nVertRing`, `nVertCycloid`) and
  `shape_recipe(z)` without its transform (`ProfileRecipe.slice`). `StraightMotion` says that every point moves along a line
  when the height grows; `c131_straight_gears`/`_others` prove it for all classes without helix and crowning, together with
  slices that do not depend on the height. `c131_exact` then identifies face and slice point by point: the solvers start at
  rows that reproduce the slices without error, so the gradient vanishes and they stay there (`straight_solution`).
  `c131_rows_*` bound the twist per inner row; the 20 samples of the first section give its exact twist because the angle is
  linear there, and refined sections are all of the length of the first (`refined_first`). `c131_two_rows_twisted` shows what
  two rows do to a twisted section.
* C132 `Model/Blank`: `gen_ref_solid` and the choice among the parts of the cut blank, with solids as closed sets of points and
  the kernel's booleans as set operations (a difference is closed again, `split` gives the closures of the connected
  components). `Spec/Blank` describes the blank by distance and depth seen from the apex. `c132_blank` and `c132_ring_blank`
  identify the computed solid with it (for rings by connectedness and by comparing volumes with a reflection),
  `c132_teeth` places the slices, `c132_pick` and `c132_ring_pick` evaluate the sorting by bounding boxes. Not modelled: cutting
  with the fitted side surfaces; outside rings beyond 90 degrees, for which `make_cone` gets a negative height.
* C133 Heap of objects (gear, inputparam, gearcore, tooth, recipe, limits, generator, transform); functions of z hold the address of the gear they were made for. Programs are lists of statements (new, copy, setter, recalculation, assignment to inputparam). Invariant by induction over programs: gears own disjoint objects, and the functions of a gear refer to one gear of the program. `view` evaluates a gear in the present heap and is compared with the value model of Wrapper.lean.
* C134 Flat and involute crown rack, corner, undercut curve of cones, and `undercut_enable` as functions over ℝ; solvers are parameters. Flank in closed form (great circle through Rz, Rx), elevations by strict concavity of sine, corner from the sign of sin(φ0 - φ), undercut from the closed form of `undercutCurveCone` (C81) and antitonicity of arccos. `c134_corner_solvable` shows that the root asked from the solver exists for every gear. `c134_joint_partial` reuses the trimming of C118 for the tooth curve of octoid gears.
* C135 Generators as functions returning chains of one line or arc (`arcFromPointCenterAngle` of C49); chain lookup of one member for every parameter, so that extrapolation is included. Closed form of the flank in the frame (ray, tip, round) at the pitch point; monotonicity of the cone angle by arccos; the coupling by computation with double angles. Floating point gives the apex of a 180° cone a height near 10⁻¹⁵ instead of 0.
* C136 `Model/SharedArgs`: generators, recipes, transforms, cones and core gears as objects in a heap; `Gear.__init__`, `swap_tooth_generator`,
  `copy`, `center` and `mesh_to` (statement by statement, the other transform is read again after each assignment) as heap updates. Programs
  are lists of statements; `Spec.Program` asks that arguments are not in use yet. Invariant `Apart` by induction, frame theorem `sight_frame`.
  `tooth_param` is a value: the package never writes to it.
* C137 Model/HermiteFit: both Hermite starts, the spread start for five and more points, `fit_nurb_optim` with all
  arguments; optimiser and root finder are functions of exactly what the code hands to them. Spec: four derivatives with a
  bounded last one, optimisers that never end on a worse vector. Lemmas/Hermite proves the interpolation error by Rolle's
  theorem applied to the component of the error along itself; the rest is the descent of the cost.
* C138 Heap of curve objects in the order of their creation, each with the attributes of its class, the object its lambda
  captured, range, length and lookup table; `viewCurve` gives the value (of the model of `Curve`) that an object is at this
  moment. Programs are lists of constructors, copies, attribute changes, reversals and trims. Frame theorem by strong
  induction over the order of creation: the view depends only on the cells of the curves that are called and on the
  attributes of captured objects. `deepcopy` copies all cells up to the copied one (once each, as its memo does) and
  relocates the references in attributes; copies of cells the object does not refer to are unreachable. Not modelled: chains,
  references to newer objects set by hand, and sharing of arrays between attributes (C73, C136).
* C139 Uses the model of C55 (`closeProfile`). `Spec.SimpleOutline` speaks about evaluations and rotations only. Every point
  of the profile gets a place: its polar coordinates and its path length. Two equal points of the outline have polar angles
  that differ by full turns. The places then show that the points belong to the same tooth and the same parameter. Involutes
  and chains of a radial line and an involute are shown to be outward running flanks.
* C140 Model/InvoluteTooth (`generate_involute_curve` for spur gears), the trims of C105 and the profile of C55; solvers are
  parameters. `Spec.Piece` says that one curve runs through exactly a part of another one. Trims of curves and chains are shown
  to give such pieces (C41, C45), also when a chain is cut at a joint, where the first member keeps zero length. The generated
  curve gets polar coordinates with growing radius and angle; a piece of it is an outward running flank, and C139 does the rest.
  The cases use solvers defined by choice that find a solution whenever there is one on the curve.
* C141 Model/CycloidTooth (`generate_cycloid_curve` for cylindrical gears) with the trims and the profile of C140. The two
  cycloids are written in polar coordinates (`cycloid_polar`): the radius grows along the outer one, the angle falls along the
  inner one (constant for a rolling circle of half the size), so the chain is a fan of rays and C139 applies. `CycloidSearch`
  says that the middle of the tooth is found within the first half turn of the outer rolling circle; the code looks for it
  beyond the end of the curve for most gears, so the place may lie outside [0, 1]. Inner rolling circles above half the
  pitch radius (the inner cycloid then turns towards the tooth) and cones are not covered. The case has four teeth and the
  default rolling circles.
* C142 Model/InvoluteTooth, Model/Undercut, the trims of C105 and the profile of C55. `Props/PathSys`: members of a chain that can
  be cut at both ends (curves traced forwards or backwards, chains with one active member, sums) form a `PathSys`; chains of them
  are cut to exact pieces. The path of the rack's corner in polar coordinates (`undercut_polar`) has radius `√(a² + v²)` and the
  angle `arctan (v/a) - (b + v)/r`; concavity of arctan shows that it does not turn back (`lift_pos`). It comes in, reaches
  the root circle at one place only and runs outwards (`Dip`), so the search on the root circle cuts exactly there; C139 does the
  rest. `Spec.RackCorner` states the path as a turned point of the rack. The hypotheses `hK` and `hneck` say that the corner does not
  turn back before its deepest point and that the undercut does not reach the middle of the tooth. `Props/UndercutMeet` finds where
  path and involute meet: with `v` measured along the path, the gap `meetGap` between them falls once the radius exceeds `√(a r)`, and changes its sign
  unless the corner just touches the base point (`a ≠ r cos² α`). `c142_found` therefore needs no hypothesis on searches: solvers that
  return the last solution on the curve succeed. The places found may lie beyond the end of the path, which the code prolongs by extrapolation;
  this happens for gears with few teeth. The case has four teeth of standard thickness. Not covered: a corner beyond the middle of the gap. Without undercut
  (`Props/PlainUndercut`) the list of curves is embedded in the lists of curves and chains; all operations commute with that.
* C143 The two arc functions of function_generators.py statement by statement (`Model/ArcFunc.lean`); exceptions and NaN are
  `none`. In the frame (chord × axis, chord, axis) the rotation is explicit; `Spec.TurnsAbout` is the specification. Positive
  curvature, curvature 0 and the centre version proved, negative curvature violated for all inputs with a proper radius.
* C144 Attributes of the curve object apart from its trimming state (`Model/SphereCurve.lean`), since the lambda reads the
  attributes at each call; the points come from C21, the reported centre from the properties of the classes.
* C145 The recipe of `SpurGear` (Model/Wrapper) is put together with `generate_reference_profile` (new: reference circles, tooth curve of the
  chosen generator, tip reduction with its four searches, trimming; fillets off, placement left out). `c145_outline` reduces the geometric conditions of
  C140/C142 to conditions on half thickness `w`, depth `h` and number of teeth (`neck_free` and `corner_turn` are the two trigonometric facts behind it);
  `c145_default` shows that they hold for the default parameters for every number of teeth from three on (this needs 0.3639 < tan 20° < 0.3640, because
  the involute would start exactly in the middle of the gap at n = 105.4). The success of the searches stays a hypothesis; `c145_case` shows that exact
  solvers meet it for all default gears without undercut and for those with undercut from forty teeth on.
  `c145_undercut_found` (Props/SpurGearUnder) has no hypothesis on searches or gaps: with undercut and 3 to 39 teeth, solvers that return the root in the
  box around the guess find all places, and the gaps at tip and root are wider than the tolerance (`land_wide`, `default_meets`).
  `c145_plain_found` (Props/SpurGearPlain) does the same for the other default gears (up to 105 teeth the whole involute lies inside the half gap, from 106 on
  the root circle crosses it there, `root_turn`); `c145_found` puts them together: every default gear with three teeth or more.
* C146 The recipe of `CycloidGear` (Model/Wrapper) with `generate_reference_profile` (Model/SpurProfile, `profileOf`) and C141. Searches are
  hypotheses in `c146_outline` and `c146_default`; they are conclusions in `c146_case`, for solvers that return a root on the curve
  or else the first one beyond its end (`farSolvers`). There the gaps at root and tip are bounded below for all numbers of teeth: the
  angle of the outer cycloid is a convex function of the radius (`cycloid_chord`), so a tenth of a module of tip reduction leaves at
  least an eleventh of the tooth at the tip.
* C147 `curve_index` (Model/CurveIndex): the sum of central differences over samples that wrap around. Each quotient of neighbouring samples seen from the
  centre is the exponential of a step (logarithm of the distances, difference of the angles); half the difference of quotient and inverse is the step up to a
  cubic error, and the steps add up to the turns exactly. `Spec.TurnsAround` is the specification.
* C148 `curve_to_edges` (Model/CurveEdges): dispatch over the curve classes on top of the models of `convert_curve_nurbezier` (C111) and of the edges of
  lines and arcs (C107); results are trees of point sets, because the code nests lists. The positive part covers nested chains of exportable curves.
* C149 `build_part`/`update_part` (Model/PartState): the state machine of C36 with a builder per gear; the solid made by the kernel is a parameter that sees the
  gear without its placement. Invariant: the builder holds the solid of the last build. Calls that change the teeth of a built gear (`adapt_cycloid_radii`) are
  not in the histories: `update_part` keeps the old solid after them, as its docstring says (moved or rotated gears only).
* C150 (`Props/FilletSide.lean`) The centre of a tangent arc lies across both tangents on the side to which the arc turns (now part of the statement
  `SmoothArc` of C100, C102, C103); on a circle about the axis that is the radial direction, so the arc touches the circle from outside or from inside.
* C73 Heap of arrays; invariant over all histories about which arrays a rack refers to.
* C74 The step at which the build raises is a parameter.
* C75 Induction over the binary digits.
* C77 Ceiling arithmetic.
* C88 (`Model/Surface.lean`) The profile at a height and the optimiser outcome are parameters. Proof: the
  allocator pins the outer rows, `linspace` hits both heights.
* C89 Reduction to the round trip of C52.

## 4. Disagreements between code and properties

Each entry names the theorem that proves the disagreement.

* C05 `bezier_diff`: order n equal to the number of control points raises, because the
  guard is `n > d`; above that it returns a zero array of the wrong shape
  (`c05_violated`, `c05_violated_at_length`, `c05_violated_above_length`).
* C10 `calc_quadratic_bezier_interp`: the returned curve does not pass through the middle point
  unless that point is a quarter of the sum of the ends (factor 1/2 missing; `c10_violated`).
* C16 `TransformData.invert`: the centre is not divided by the scale (it is multiplied by it),
  so the round trip moves points when scale² ≠ 1 (`c16_violated`, exact condition `c16_exact`).
* C17 `GearTransform.__mul__` and `invert` treat spin and orientation as if they commuted
  (`c17_violated`); the base class also ignores the spin in the centre (`c17_data_violated`).
* C23 `involute_sphere` at curvature 0 ignores `z_offs`; `cycloid_cone` at curvature 0 raises
  `NameError`; `octoid` ignores `v_offs` and `z_offs` (`c23_violated_*`).
* C25 `InvoluteUndercutTooth` and `OctoidUndercutTooth` without `ref_limits` store `None`, and
  generating the tooth then raises (`c25_violated`).
* C79 `Transform * GearTransform` drops the spin angle (`c79_violated`).
* C27 `backlash_from_ax_distance` called with the arguments of `calc_involute_mesh_distance` does not
  return the backlash: it uses the opposite sign for the base angles and returns half of it
  (`c27_violated`, exact relation in `c27_external_partial`, `c27_ring_partial`).
* C29 `mesh_to` of a ring gear onto its pinion goes to the side opposite to `target_dir`
  (`c29_ring_violated`); `CycloidGear.mesh_to` multiplies the distance by the length of
  `target_dir` (`c29_cycloid_violated`).
* C33 `cone_angle_from_teeth` gives wrong cone angles for axis angles other than 90 degrees
  (`c33_violated`).
* C34 `LOA_gen` rotates about the global z axis, so for tilted gears the lines are not tangent to the
  base circles (`c34_violated`).
* C35 `HelicalGear.mesh_to` onto a ring gear of the same helix angle tilts the pinion by twice the
  helix angle, although the axes have to stay parallel (`c35_ring_violated`). The docstring of
  `HelicalRingGear` shows exactly this call.
* C85 With an axial component in `target_dir` the axes of cylindrical gears are closer than the mesh
  distance (`c85_violated`).
* C40 `Curve.reverse` flips only the `t` column of the lookup table, so a curve whose speed is not
  symmetric is not run backwards (`c40_violated`).
* C42 `ArcCurve.update_lengths` stores radius times angle: trimming does not change it, and a negative
  angle gives a negative length (`c42_violated`).
* C47 `Curve.__truediv__` keeps the natural range of the operand but evaluates the operand with it
  (`c47_violated`). `CurveChain * k` and `CurveChain / k` raise `AttributeError` (the chain has no
  `enable_vectorize`, `t_0`, `t_1`); this is noted here and not modelled.
* C48 `Curve.derivative` with an order of 2 or more calls an array (`c48_violated`).
* C45 `CurveChain.set_start_and_end_on(s0, s1)` reads `s1` in the chain whose start is already trimmed, so
  the end is wrong (`c45_violated`, exact behaviour `c45_both_partial`).
* C46 `del chain[i]` stores an empty list, after which the chain cannot be evaluated
  (`c46_violated_del`); `CurveChain.reverse` returns `None` (`c46_violated_reverse`).
* C50 `LineCurve.transform` and `ArcCurve.transform` ignore trimming (`c50_line_violated`,
  `c50_arc_violated`).
* C86 `from_radius_center_angle` overwrites the yaw angle of the frame with `angle_start`; the comment in
  the code says that the yaw should be zero, which is false for every axis with both an x and a y
  component (`c86_violated`).
* C87 `from_2_point_curvature` clamps the radius to half the chord for tight curvatures and then has no
  normal, so the arc is NaN (`c87_violated`).
* C12 `GearToNurbs.solve_surface` and `solve_surface_fast` hand the optimiser the sum of the squared
  residuals together with half of its gradient (`c12_surface_fit_violated`). The packed vector also has
  two slots that are never read (one per section for the fast solver's `t`), with gradient zero.
* C57 A tip reduction larger than the distance between root circle and the point where the flanks meet
  returns a tip below the root (`c57_violated`).
* C56 `generate_boundary` ignores the transform of the profile, `generate_boundary_chain` applies it, so that
  `boundary_at_z(z, continuous=True)` stays at height 0 (`c56_violated`). With a tooth count that is not of
  type int `np.linspace` raises a `TypeError`; this is noted here and not modelled.
* C58 `tooth_profile_closed_outer` runs through the addendum arc from the tip of the previous tooth to the tip
  of this one (`c58_outer_violated`). `tooth_profile_closed_ring` reverses `ro_connector_1` once too often and
  ends on the ring (`c58_ring_violated`).
* C59 A recipe that holds an attribute unknown to its constructor cannot be evaluated
  (`c59_attribute_violated`); `gear_recipe_from_curve` makes such recipes for a generator object. A function inside a plain
  dataclass such as `ConicData` is not replaced (`c59_nested_violated`).
* C61 `HelicalRingGear(-n)` stays a ring gear in its tooth data but gets the rim of an external gear
  (`c61_helical_ring_violated`). `CycloidGear(-n)` normalises only the tooth data, so the generator gets a negative
  radius (`c61_cycloid_violated`). `SpurRingGear(-n)` is an external gear with the rim of a ring (`c61_spur_ring_violated`).
* C62 The crowning function measures `z` in units of the module but divides by the height in absolute units, and it
  assumes the anchor at the bottom, so for modules other than `1 - 2 z_anchor` the thickest section is not the middle
  (`c62_violated`).
* C65 `HelicalRingGear` does not refine its sections (`c65_ring_violated`).
* C66 `z_height` transforms a difference of centres as if it were a point, so the gear's centre is added
  (`c66_moved_violated`). It uses the first two sections only, so herringbone gears report half of the height or less
  (`c66_herringbone_violated`).
* C67 `center_spherical` applies the gear transform to a point that is already in world coordinates (`c67_violated`,
  `c67_tilted_violated`).
* C68 The setter `module` changes neither the scale of the transform nor the sections (`c68_module_violated`). The
  setter `cone_angle` writes to a temporary copy (`c68_cone_angle_violated`).
* C69 `reset_location` moves to the origin, not to the centre and angle of the constructor (`c69_violated`).
* C70 `build_boundary_wire` hands the gear's own transform to `generate_boundary_edges`, which turns it
  (`c70_angle_violated`, `c70_moved_violated`).
* C71 `adapt_cycloid_radii` calls `calc_params`, which puts both gears back to the placement of their constructor
  (`c71_placement_violated`).
* C73 The pitch line of every rack refers to the constants `UP` and `DOWN` themselves, and the setter adds in place
  (`c73_violated`). The ends of the other reference lines coincide (both are computed from `UP`).
* C74 `GearBuilder` extends the sections of a conical gear in place and restores them only if the surface generation
  does not raise (`c74_violated`).
* C76 The number of copies is the rounded tooth count without cut-outs, not `num_teeth_act` (`c76_fraction_violated`,
  `c76_cutout_violated`).
* C94 A trimmed arc keeps its length, so the second piece of a chain cut inside an arc has the length of the whole chain and
  its parameter is wrong (`c94_violated`).
* C97 `InvoluteRack.mesh_to` puts the rack's bottom face at the gear's centre, the gear's own bottom face is at
  `-z_anchor * height` (`c97_violated`). The apexes of a herringbone pair then differ as well.
* C99 `CycloidGear.calc_params` (gggears_wrapper.py:1699) subtracts the backlash from the tooth half angle for ring gears
  too. There the angle belongs to the space that receives the pinion's tooth, so the backlash of the ring makes the space
  narrower. A ring and a pinion with the same backlash mesh without play (`c99_violated`); a ring with more backlash than
  its pinion overlaps it. The involute classes use the same formula (line 512).
* C103 `apply_fillet` uses the arc of its last attempt although the solver failed, if the arc's ends are in the sector
  (gggears_core.py:268-305). The centres of the two offsets then differ, the arc does not end on the tooth and the tooth
  curve has a gap (`c103_violated`). `fillet_curve` does not read the flag either.
* C104 Where the fillet does not fit, the answer of the tangent arc solver is used without a look at its flag
  (gggears_core.py:307-337). If the solver gives up, the half arc need not end on the tooth (`c104_violated`).
* C105 At the tip the success of the distance minimiser is accepted without a look at the distance
  (gggears_core.py:458-466): a tooth that does not reach the tip circle is cut somewhere inside it, even by exact solvers
  (`c105_violated_tip`). At the root the distance for the second solution is computed from the first one
  (gggears_core.py:492-494), so that a failed minimisation replaces an intersection that had been found
  (`c105_violated_root`).
* C106 If no intersection with the root circle is found, the last iterate for the middle plane of the gap is used, whatever
  the solver says (gggears_core.py:503-525). The profile then goes down into the root circle although the tooth meets it
  (`c106_violated`).
* C107 `line_to_b123d` uses the end points of the whole line, whatever its range (gggears_build123d.py:579-581):
  `c107_line_violated`. `arc_to_b123d` rebuilds a trimmed arc from its two ends and its centre, so that an arc with more
  than half a turn left becomes its complement (`c107_arc_violated`).
* C108 `continuity_list` compares neighbours and passes every pair with an inactive member (curve.py:666-684). A jump over
  an inactive member is not seen: `is_continuous` and `is_closed` are True for a chain with a gap of any size
  (`c108_violated`).
* C109 A nested chain whose `_active` is False counts as inactive, but `get_curves` returns its curves, which are active
  (curve.py:477-495): the flat chain is longer and ends elsewhere (`c109_violated`).
* C111 `convert_curve_nurbezier` applies the transform of a `TransformedCurve` to the converted target in place
  (curve.py:921-923). If the target is a `NurbCurve`, the conversion returns that very object, so the caller's curve is moved
  (`c111_alias_violated`). The range of the `TransformedCurve` itself is not looked at: a reversed or trimmed one is
  converted as if it were whole (`c111_reversed_violated`). The test for the exact arc looks at the nominal angle, so an arc
  extended beyond a half turn becomes its complement (`c111_arc_violated`).
* C112 A tooth whose flanks meet in a point has an inactive tip arc with the nominal tip radius (gggears_core.py:536-543).
  `radii_data_gen` and `addendum_radius` report that radius, also if no point of the profile reaches it
  (`c112_pointed_violated`).
* C113 `cone_angles_at_z` uses `np.arcsin` (gggears_wrapper.py:268), so for teeth past the plane through the apex (crown
  gears) it returns `π` minus the angle (`c113_crown_violated`).
* C114 `proportion_to_z` takes `z_vals[1]` for the top (gggears_wrapper.py:236). For herringbone gears it is the middle or a
  section below it, so `p2z(1)` is at least half the height below the top (`c114_herringbone_violated`).
* C115 `ref_curve_2_param` uses `arctan2(-dr, dz)` (gggears_core.py:1088): for a curve that runs downwards the half angle is
  off by `π`. A conical `Gear` with decreasing `z_vals` gets a cone angle near `2γ − 2π` (`c115_descending_violated`).
* C116 `Gear.mesh_to` (gggears_core.py:1030-1073) does not normalise `target_dir` (`c116_direction_violated`). For conical
  gears it uses `self.cone` and `other.cone`, which have the default transform: the position of the partner is ignored
  (`c116_moved_violated`) and so is the module (`c116_module_violated`).
* C117 `center_sphere` uses `R cos γ` with `R ≥ 0` (gggears_core.py:974-979), which is on the wrong side for negative cone
  angles (`c117_negative_violated`). An explicit `transform` replaces the scale, but `rp` and `R` still use `module`
  (`c117_scale_violated`).

* C118 `trim_involute_undercut` (gearteeth.py:552-561) searches again when the crossing lies on the connector
  below the involute, and uses the second answer without reading `success`. If that search fails, the tooth
  curve has a gap between undercut and involute although the curves cross (`c118_retry_violated`).
* C119 `GearToothConicGenerator.check_lower_curve_limit` (gggears_base_classes.py:581-614) searches where the flank meets a
  plane through the apex that only touches the root cone at azimuth 0. A flank with y ≠ 0 there starts outside the root cone
  (`c119_octoid_violated`). Since the octoid, unlike the spherical involute, continues below the base cone, the search
  succeeds and a plain curve is returned; `OctoidUndercutTooth` then calls `get_length_portions` on it
  (gearteeth.py:551), an `AttributeError`.
* C119 If that search fails, the connector's angle is measured from the origin but turned about the apex
  (gggears_base_classes.py:597-611), so it overshoots by the complement of the half cone angle, past the gear axis
  (`c119_connector_violated`).
* C119 The wrapper makes `OctoidTooth` without `ref_limits` (gggears_wrapper.py:555-560): flanks of bevel gears without
  undercut start at the depth of dedendum 1.2 whatever `dedendum_coefficient` and `profile_shift` are
  (`c119_dedendum_violated`).
* C120 `CycloidTooth` begins its lower curve at a fixed quarter turn of the inner rolling circle (`t0 = -rc_in * PI / 2`,
  gearteeth.py:591 and 609) and never calls `check_lower_curve_limit`. With the default coefficients the curve of a gear with
  at most 8 teeth ends above the root circle (`c120_root_violated`); what is cut off below relies on extrapolation of the
  length parameter.
* C123 `InvoluteGear.mesh_to` (gggears_wrapper.py:641-691) places conical gears by their pitch cones only. Profile shifts with a positive
  sum make the teeth wider (507-513) than the gaps: the gears overlap. For cylindrical gears the distance is adapted (693-701).
* C125 `angle_base` evaluates the recipe at height 0 (gggears_wrapper.py:457-466), where `crowning_func` (497-505) subtracts the most, and
  `mesh_to` (641-716) closes the distance until those thinnest slices touch. Between the ends the teeth are thicker by the crowning, so
  every pair of crowned external gears meshed without backlash overlaps in all slices strictly between the ends
  (`c125_overlap`, for all gears; `c125_overlap_violated`). In a ring the crowning of the ring has the same sign as that of a pinion,
  so it opens the gap where that of the pinion closes it. Reading the base angle at the middle of the height would be right.
* C127 `HelicalGear.mesh_to` (gggears_wrapper.py:1166-1175) first meshes the gears as if their axes were parallel, with the distance and
  working pressure angle of parallel gears in the transverse plane (641-716), then tilts. Crossed gears touch at the normal pressure
  angle whatever the distance is, and need the distance `r1 + r2 + m(x1 + x2)`. So gears with equal helix angles and profile shifts always
  overlap (`c127_overlap`), a gear meshed to one with a smaller helix angle always has play (`c127_play`; with module 2, helix angles 30° and
  0°, about half a millimetre), and `g.mesh_to(h)` gives another distance than `h.mesh_to(g)` (`c127_order`).
* C129 `generate_boundary_edges` (gggears_build123d.py:527-546) hands all curves of the profile to `NURBSCurve`, also the inactive arc of a
  pointed tooth or a round gap, which sits at the nominal addendum or dedendum radius. `enforce_continuity` (curve.py:1598-1605) averages
  the end of the flank with it, and only then `gen_splines` drops the inactive arc. So the exported flank of a pointed tooth ends half way
  between its tip and the addendum circle (`c129_pointed_violated`; tip at radius 3 and addendum radius 4 give 3.5, `c129_pointed_case`),
  and a round gap is pulled towards the dedendum circle (`c129_gap_violated`). `generate_cover` does not have this problem because it calls
  `del_inactive_curves` first.
* C130 `GearToothParam` (gggears_base_classes.py:258-285) offers partial gears ("it can make sense to design a single tooth
  or a partial gear", "non-integer will be rounded down, but there will be a gap", `num_cutout_teeth`). The covers of
  `generate_cover` (gggears_build123d.py:281-306) are made of the edges of the realised teeth only; the gap is not closed, so
  the edges do not form a closed wire and no solid can be made (`c130_partial_gear_violated`).
* C131 `HelicalRingGear.build_part` (gggears_wrapper.py:1329-1353) knows three, four and five rows only, while
  `HelicalGear`, which inherits from `InvoluteGear`, adds a row for every further 30 degrees; ring gears are not refined into
  more sections either (C65). A ring gear that twists by more than 135 degrees is fitted with five rows, however long it is
  (`c131_ring_violated`). The override also drops the argument `n_points_hz` of the inherited method.
* C132 `gen_ref_solid` (gggears_build123d.py:188-191) keeps what is above the plane of the lowest outside ring, and `GearBuilder`
  (126-132) takes the lower part for outer and the upper part for inner teeth. Both are right for an apex above the gear only. With a
  negative cone angle, which the reference circles support (C54), the flanks of the lowest slices are cut off
  (`c132_blank_violated`); of a crown with 20 teeth, cone angle -90 degrees and a height of one module not one point of the pitch
  circles is left (`c132_crown_violated`). For a ring gear the plug inside the teeth is returned (`c132_ring_pick_violated`).
* C133 `copy.deepcopy` does not copy functions, and the functions in recipes read `self.inputparam.height`, `.crowning` and `self.number_of_teeth` when they are called. A copy therefore still follows the original: after `g2 = g.copy(); g.inputparam.crowning = 100` the teeth of g2 are crowned although `g2.inputparam.crowning` is 0, and after halving the number of teeth of a bevel gear and `calc_params()` its copies taper twice as fast (`c133_violated`, `c133_shared`, `c133_shared_scale`). With the setters and methods alone, or after `calc_params()` of the copy, gears are independent.
* C134 `generate_flat_rack_curve` takes the angle `h_d / R / cos(alpha)` along the tilted great circle, which is the plane formula. On the sphere the corner is at the elevation arcsin(cos(alpha) sin(h_d / (R cos(alpha)))), less than h_d / R. The undercut of octoid gears therefore never reaches the root cone (`c134_depth_violated`), by at most (h_d/R)³ / (6 cos²(alpha)). `generate_involute_rack_curve` solves for the exact elevation, but its flank turns back at the elevation alpha: for h_d / R > alpha (five teeth, 20°, 45° cone) the root search has no solution and the result is used anyway (`c134_involute_violated`). `undercut_enable` compares the positive `h_d / R` with `cone_angle / 2 - base_angle`, which is negative for negative cones, so that those are always trimmed by an undercut curve (`c134_enable_violated`).
* C135 `GearToothConicGenerator.generate_tooth_curve` (gggears_base_classes.py:561-575) flips the tooth angle for negative cone angles but not the sense of the arc, which then runs from the pitch point to the root (`c135_cone_violated`); the great circle itself is right. `RackToothGenerator` (617-635) keeps `tooth_width` and `pitch` and uses π/4 instead (`c135_rack_violated`). The core gear rounds the cone angle of 180° to 2·1.570796, so that the coupling of `examples/straight_tooth_bevel_hirth_thing.py` is exact only up to C115's rounding; that example also passes `z_vals` as a list, for which `z_vals.astype` raises an AttributeError.
* C136 `Gear.__init__` writes pitch radius, cone angle and pitch intersect angle into the tooth generator it is given (gggears_core.py:880-882) and the
  base radius into the cone (924), and keeps generator and transform by reference: a second gear from the same generator turns the flanks of the
  first into its own (`c136_generator_violated`), and two gears with one transform are moved together by `mesh_to` (`c136_transform_violated`).
  The annotated type `GearToothGenerator` does not work: it gets an attribute `cone_angle` that its constructor does not accept when the recipe is
  evaluated (`c136_flat_violated`, `c136_swap_flat_violated`). `pitch_angle` of the undercut generators keeps its default, which fits 32 teeth
  (`c136_pitch_angle_violated`).
* C137 `fit_nurb_optim` with five or more control points starts badly: the inner rows run from the second Hermite point to
  the last one instead of the third (curve.py:891-893), so from six points on the start of a straight line goes past two
  thirds of it and comes back; the end velocities are `(n - 1) / 3` times those of the curve; and `force_2D=True` raises
  `ValueError` because rows of three numbers are assigned to an array with two columns (curve.py:886-890).
* C138 `copy.deepcopy` copies bound methods with their object but keeps lambdas. `InvoluteCurve`, `SphericalInvoluteCurve`,
  `OctoidCurve` (curve.py:1335, 1372, 1427) and `TransformedCurve` (curve.py:1479) store a lambda over `self` in
  `self.function`. So after `b = a.copy()` the points of `b` come from the attributes of `a`: `a.r = 2` moves `b`
  (`c138_violated`), `b.r = 2` does not (`c138_deaf`), although `b.base_radius` reports 2. A copied mirrored curve calls the
  target of the original (`c138_target`). A mirrored curve follows a trim of its target and keeps its old length and lookup
  table (`c138_mirror_violated`). The library itself only trims and reverses such copies, which is harmless
  (`c138_formula_partial`, `c138_cut`).
* C143 `arc_from_2_point` puts the centre on the other side of the chord for a negative curvature (function_generators.py:276-278), but
  turns about the same axis by the same unsigned angle (282-289): it does not reach `p1`. For `p0 = p1` the name `dp` is unbound.
* C144 `octoid` draws the apex above the base circle whatever the sign of `sphere_rad` and ignores `z_offs`
  (function_generators.py:675-679); `OctoidCurve.center` (curve.py:1444-1448) uses both.
* C148 `curve_to_edges` (gggears_build123d.py:584-599) exports inactive members of chains too, ignores the own range of a `TransformedCurve` (595-596), moves a
  `NurbCurve` below a `TransformedCurve` with every export (596), and returns a bare edge, a list or a list of lists depending on the class.
