{
 "claims": [
  {
   "property": "C01",
   "status": "proved",
   "theorems": [
    "Verif.c01_evaluators_agree",
    "Verif.c01_evaluators_correct"
   ],
   "note": "Both evaluators equal the Bernstein sum of the specification, for points in any real module."
  },
  {
   "property": "C02",
   "status": "proved",
   "theorems": [
    "Verif.c02_start",
    "Verif.c02_end",
    "Verif.c02_hull"
   ],
   "note": ""
  },
  {
   "property": "C03",
   "status": "proved",
   "theorems": [
    "Verif.c03_affine_invariance",
    "Verif.c03_gear_transform"
   ],
   "note": "The second theorem instantiates affine invariance for the gear placement."
  },
  {
   "property": "C04",
   "status": "proved",
   "theorems": [
    "Verif.c04_reverse"
   ],
   "note": ""
  },
  {
   "property": "C05",
   "status": "partial",
   "theorems": [
    "Verif.c05_exact_derivative_partial",
    "Verif.c05_violated_at_length",
    "Verif.c05_violated_above_length",
    "Verif.c05_violated"
   ],
   "note": "Exact derivative for orders below the number of points. Order equal to the number of points raises, larger orders return an array of zeros of the wrong shape."
  },
  {
   "property": "C06",
   "status": "proved",
   "theorems": [
    "Verif.c06_velocity",
    "Verif.c06_single_point_raises"
   ],
   "note": "Proved for two or more control points; with a single control point the code raises, which is also proved."
  },
  {
   "property": "C07",
   "status": "proved",
   "theorems": [
    "Verif.c07_points",
    "Verif.c07_weights"
   ],
   "note": ""
  },
  {
   "property": "C08",
   "status": "proved",
   "theorems": [
    "Verif.c08_surfaces_agree",
    "Verif.c08_surfaces_agree_positive"
   ],
   "note": ""
  },
  {
   "property": "C09",
   "status": "proved",
   "theorems": [
    "Verif.c09_arc_exact",
    "Verif.c09_order"
   ],
   "note": ""
  },
  {
   "property": "C10",
   "status": "partial",
   "theorems": [
    "Verif.c10_interp_partial",
    "Verif.c10_value",
    "Verif.c10_violated"
   ],
   "note": "The end points are met; the middle point is missed because a factor 1/2 is missing."
  },
  {
   "property": "C100",
   "status": "proved",
   "theorems": [
    "Verif.c100_tangent_arc",
    "Verif.c100_fillet_curve",
    "Verif.c100_tangent_line",
    "Verif.c100_tangent_circle"
   ],
   "note": "The solvers are parameters; the hypothesis is that the answer used is an exact root. The direction of a curve is the central difference the code uses, which is the true tangent on lines and circles (c100_tangent_line, c100_tangent_circle)."
  },
  {
   "property": "C101",
   "status": "proved",
   "theorems": [
    "Verif.c101_fillet",
    "Verif.c101_attempts",
    "Verif.c101_index"
   ],
   "note": "Flat chains. The ends are kept provided the trimmed members keep a positive length."
  },
  {
   "property": "C102",
   "status": "proved",
   "theorems": [
    "Verif.c102_root",
    "Verif.c102_fillet",
    "Verif.c102_exists"
   ],
   "note": "Tangent points not within DELTA (in parameter) of the ends of the legs."
  },
  {
   "property": "C103",
   "status": "partial",
   "theorems": [
    "Verif.c103_root_partial",
    "Verif.c103_tip_partial",
    "Verif.c103_root_case",
    "Verif.c103_tip_case",
    "Verif.c103_violated"
   ],
   "note": "Proved when one of the three attempts of the solver succeeds with contact points in the sector. If all fail, the last arc is used unchecked and the tooth may be disconnected (c103_violated)."
  },
  {
   "property": "C104",
   "status": "partial",
   "theorems": [
    "Verif.c104_root_partial",
    "Verif.c104_tip_partial",
    "Verif.c104_root_case",
    "Verif.c104_tip_case",
    "Verif.c104_violated"
   ],
   "note": "Proved for a successful and symmetric answer of the solver. The solver's flag is not read: after a failure the half arc need not end on the tooth (c104_violated)."
  },
  {
   "property": "C105",
   "status": "partial",
   "theorems": [
    "Verif.c105_tip_partial",
    "Verif.c105_root_partial",
    "Verif.c105_tip_case",
    "Verif.c105_root_case",
    "Verif.c105_tolerance_partial",
    "Verif.c105_tolerance_case",
    "Verif.c105_violated_tip",
    "Verif.c105_violated_root"
   ],
   "note": "Proved when the first solver call succeeds; c105_tolerance_partial covers the tip when both solver calls fail. The fallbacks accept points that are on neither the circle nor the plane (c105_violated_tip, c105_violated_root)."
  },
  {
   "property": "C106",
   "status": "partial",
   "theorems": [
    "Verif.c106_band",
    "Verif.c106_trimmed_partial",
    "Verif.c106_case",
    "Verif.c106_violated"
   ],
   "note": "c106_band holds for every tooth that closeProfile accepts. The version with the trimming assumes that both solver calls succeed; after failures the profile can go down into the root circle (c106_violated). Fillets are not covered."
  },
  {
   "property": "C107",
   "status": "partial",
   "theorems": [
    "Verif.c107_arc_partial",
    "Verif.c107_trimmed_partial",
    "Verif.c107_arc_violated",
    "Verif.c107_line_partial",
    "Verif.c107_line_violated",
    "Verif.c107_line_case",
    "Verif.c107_arc_case",
    "Verif.c107_violated_case"
   ],
   "note": "Holds for untrimmed arcs, for trimmed arcs with less than half a turn left and for untrimmed lines. A trimmed line is exported whole; of a trimmed arc with more than half a turn left the complement is exported."
  },
  {
   "property": "C108",
   "status": "partial",
   "theorems": [
    "Verif.c108_continuous_partial",
    "Verif.c108_alarm",
    "Verif.c108_closed_partial",
    "Verif.c108_violated",
    "Verif.c108_case",
    "Verif.c108_alarm_case"
   ],
   "note": "False answers are right (c108_alarm). True answers are right if no inactive member separates active ones; otherwise a jump is not seen (c108_violated)."
  },
  {
   "property": "C109",
   "status": "partial",
   "theorems": [
    "Verif.c109_partial",
    "Verif.c109_violated",
    "Verif.c109_case"
   ],
   "note": "Holds if no nested chain is switched off; get_curves brings the curves of a switched-off chain back (c109_violated)."
  },
  {
   "property": "C11",
   "status": "proved",
   "theorems": [
    "Verif.c11_ends_pinned",
    "Verif.c11_count",
    "Verif.c11_unpack_pack",
    "Verif.c11_pack_unpack"
   ],
   "note": "For every vector the optimiser may return the built curve starts at the first and ends at the last target; packing and unpacking are inverse to each other."
  },
  {
   "property": "C110",
   "status": "proved",
   "theorems": [
    "Verif.c110_delete",
    "Verif.c110_bridge",
    "Verif.c110_case"
   ],
   "note": "Active members have positive length, at least one is active. c110_bridge: flat lists with at least two members."
  },
  {
   "property": "C111",
   "status": "partial",
   "theorems": [
    "Verif.c111_partial",
    "Verif.c111_chain_partial",
    "Verif.c111_pure_partial",
    "Verif.c111_alias_violated",
    "Verif.c111_reversed_violated",
    "Verif.c111_arc_violated"
   ],
   "note": "Proved for lines and arcs with every history of trims and reversals that stay below a half turn, under any nesting of fresh transformations, and for chains of them. Violated for a NurbCurve under a transformation (the original is moved), for a reversed or trimmed TransformedCurve, and for arcs extended beyond a half turn. The fitted curves are not covered."
  },
  {
   "property": "C112",
   "status": "partial",
   "theorems": [
    "Verif.c112_radii_partial",
    "Verif.c112_addendum_partial",
    "Verif.c112_max_partial",
    "Verif.c112_pointed_violated",
    "Verif.c112_pointed_case",
    "Verif.c112_case"
   ],
   "note": "Proved for all slices whose tip and root arcs are not degenerate. Violated for pointed teeth: the nominal tip radius is reported."
  },
  {
   "property": "C113",
   "status": "partial",
   "theorems": [
    "Verif.c113_partial",
    "Verif.c113_pitch",
    "Verif.c113_crown_violated",
    "Verif.c113_case"
   ],
   "note": "Proved for angles up to a right angle. Violated beyond: the arcsine folds the angle."
  },
  {
   "property": "C114",
   "status": "partial",
   "theorems": [
    "Verif.c114_centers",
    "Verif.c114_herringbone_violated",
    "Verif.c114_helical_middle"
   ],
   "note": "Proved for involute, spur, bevel and cycloid gears. Violated by herringbone gears: p2z uses the second section as top."
  },
  {
   "property": "C115",
   "status": "partial",
   "theorems": [
    "Verif.c115_follows",
    "Verif.c115_cone",
    "Verif.c115_case",
    "Verif.c115_default",
    "Verif.c115_descending_violated",
    "Verif.c115_spiral"
   ],
   "note": "Position for all curves; cone angle for all curves on a cone climbing past the parameter; default line for increasing z_vals. Violated for decreasing z_vals: the cone angle is off by a full turn."
  },
  {
   "property": "C116",
   "status": "partial",
   "theorems": [
    "Verif.c116_cylindrical_partial",
    "Verif.c116_direction_violated",
    "Verif.c116_bevel_partial",
    "Verif.c116_moved_violated",
    "Verif.c116_module_violated",
    "Verif.c116_case"
   ],
   "note": "Cylindrical gears for unit directions; conical gears if the partner is at the origin with axis z and both scales are 1. Violated for other lengths of target_dir, for a moved partner and for other modules."
  },
  {
   "property": "C117",
   "status": "partial",
   "theorems": [
    "Verif.c117_center_partial",
    "Verif.c117_cone",
    "Verif.c117_apex",
    "Verif.c117_case",
    "Verif.c117_negative_violated",
    "Verif.c117_scale_violated"
   ],
   "note": "center_sphere for positive cone angles; apex, height and R of cone data for every cone; common apex of all slices up to the rounding of the cone angle. Violated for negative cone angles and for an explicit transform whose scale is not the module."
  },
  {
   "property": "C118",
   "status": "partial",
   "theorems": [
    "Verif.c118_ref",
    "Verif.c118_depth",
    "Verif.c118_joint_partial",
    "Verif.c118_meets_partial",
    "Verif.c118_tooth_partial",
    "Verif.c118_generated_partial",
    "Verif.c118_case",
    "Verif.c118_whole_case",
    "Verif.c118_retry_violated"
   ],
   "note": "Cylindrical gears. Reference point on the rack flank and depth proved for all parameters. For teeth generated from their parameters the whole statement holds if the searches succeed on the curves (c118_generated_partial, case in c142_case). The joint is closed exactly if the answer used is an intersection; violated when the second search fails, whose success flag is not read. The joint of octoid gears is in C134."
  },
  {
   "property": "C119",
   "status": "partial",
   "theorems": [
    "Verif.c119_cylindrical",
    "Verif.c119_case",
    "Verif.c119_cone_partial",
    "Verif.c119_octoid_violated",
    "Verif.c119_connector_violated",
    "Verif.c119_dedendum_violated",
    "Verif.c119_octoid_tip"
   ],
   "note": "Cylindrical gears proved. Conical: the search uses a plane instead of the root cone, so the start is outside the cone unless y = 0 (c119_cone_partial, c119_octoid_violated); a connector is turned by the wrong angle (c119_connector_violated); without undercut the requested dedendum is ignored (c119_dedendum_violated)."
  },
  {
   "property": "C12",
   "status": "partial",
   "theorems": [
    "Verif.c12_curve_fit",
    "Verif.c12_surface_fit_partial",
    "Verif.c12_surface_fit_fast_partial",
    "Verif.c12_surface_fit_violated"
   ],
   "note": "Curve fit: the cost is the specified one and the supplied vector is its gradient in every direction. Surface fit: the supplied vector is exactly half of the gradient, so the property is violated there."
  },
  {
   "property": "C120",
   "status": "partial",
   "theorems": [
    "Verif.c120_cone_rolling",
    "Verif.c120_outward",
    "Verif.c120_outward_cone",
    "Verif.c120_nearest",
    "Verif.c120_tooth",
    "Verif.c120_case",
    "Verif.c120_depth_partial",
    "Verif.c120_root_violated"
   ],
   "note": "Rolling, joint, direction and end proved. The flank starts after a fixed quarter turn of the inner circle: for gears with at most 8 teeth (default circles, dedendum 1.2) that is above the root circle (c120_root_violated)."
  },
  {
   "property": "C121",
   "status": "proved",
   "theorems": [
    "Verif.c121_external",
    "Verif.c121_ring"
   ],
   "note": "Conical cycloid flanks, placed and meshed, for external gears and for a gear in a ring (either one meshed to the other). The flanks are the untrimmed curves of the tooth generator; hypotheses: same module and cone distance, matching helix angles, half cone angles in (0, 90°), target direction at least 1e-12 off the axis, centre distance at least 1e-12, rolling cone half angles at most 90°."
  },
  {
   "property": "C122",
   "status": "proved",
   "theorems": [
    "Verif.c122_external",
    "Verif.c122_ring"
   ],
   "note": "All pairs of one module, pressure angle and cone distance, external and ring, all slices, turns and teeth. The flanks are the untrimmed octoid curves; the target direction must have a part across the axis of at least 1e-12 of its length and the gear centres a distance of at least 1e-12 (the code compares with small tolerances)."
  },
  {
   "property": "C123",
   "status": "partial",
   "theorems": [
    "Verif.c123_ends",
    "Verif.c123_clear_partial",
    "Verif.c123_overlap",
    "Verif.c123_overlap_violated"
   ],
   "note": "Violated by bevel gears with a positive sum of profile shifts and no backlash: mesh_to ignores the profile shift of conical gears. Proved exactly when it holds on the pitch cones; ring gears and the flanks away from the pitch cones are not covered."
  },
  {
   "property": "C124",
   "status": "proved",
   "theorems": [
    "Verif.c124_external",
    "Verif.c124_helical",
    "Verif.c124_ring",
    "Verif.c124_around",
    "Verif.c124_ring_case"
   ],
   "note": "The involute flanks are taken untrimmed. The ring theorems assume, as C84, a nonnegative tooth width at the base circle and the larger base arc on the ring; c124_ring_case meets them."
  },
  {
   "property": "C125",
   "status": "partial",
   "theorems": [
    "Verif.c125_relief_partial",
    "Verif.c125_overlap",
    "Verif.c125_overlap_violated"
   ],
   "note": "Violated: mesh_to measures the teeth at height 0, where crowning takes the most away, so all slices between the ends overlap. Holds: the ends of the teeth are not thicker than measured."
  },
  {
   "property": "C126",
   "status": "proved",
   "theorems": [
    "Verif.c126_crossed",
    "Verif.crossNormal_unit"
   ],
   "note": "Involute flanks without their trimming at tip and root, as surfaces over height and roll angle. Gears without crowning, whole tooth counts; the root search of the tooth generator returns its only non-negative root tan(alpha), and the working pressure angle found by the solver is a root. The distance is crossPlay plus the part that depends on the turns."
  },
  {
   "property": "C127",
   "status": "partial",
   "theorems": [
    "Verif.c127_equal_partial",
    "Verif.c127_play",
    "Verif.c127_overlap",
    "Verif.c127_order",
    "Verif.c127_violated"
   ],
   "note": "Violated: HelicalGear.mesh_to takes the mesh distance of parallel gears. A gear with the larger helix angle always gets play, profile shifts with equal helix angles always make the teeth overlap. Holds for equal helix angles and profile shifts that add up to 0."
  },
  {
   "property": "C128",
   "status": "proved",
   "theorems": [
    "Verif.c128_outline",
    "Verif.c128_mirror",
    "Verif.c128_cover",
    "Verif.c128_converts"
   ],
   "note": "Success of the conversion for cylindrical slices with three or more teeth; the other theorems hold whenever it succeeds."
  },
  {
   "property": "C129",
   "status": "partial",
   "theorems": [
    "Verif.c129_boundary_partial",
    "Verif.c129_pointed_violated",
    "Verif.c129_gap_violated",
    "Verif.c129_pointed_case",
    "Verif.c129_gap_case"
   ],
   "note": "Holds if the tip land and the bottom land have a width. For pointed teeth and round gaps the inactive arc is averaged into the end of the flank."
  },
  {
   "property": "C13",
   "status": "proved",
   "theorems": [
    "Verif.c13_cylindrical",
    "Verif.c13_cylindrical'",
    "Verif.c13_spherical",
    "Verif.c13_spherical_centre",
    "Verif.c13_spherical'"
   ],
   "note": "The centre itself, where the code divides by zero, is covered as the undefined case."
  },
  {
   "property": "C130",
   "status": "partial",
   "theorems": [
    "Verif.c130_gear",
    "Verif.c130_ruled",
    "Verif.c130_fitted",
    "Verif.c130_seams",
    "Verif.c130_slice",
    "Verif.c130_border_curves",
    "Verif.c130_partial_gear_violated",
    "Verif.c130_case"
   ],
   "note": "Proved exactly for all cylindrical gears whose teeth go all the way round, spur, helical and ring: with two vertical control points for every result of the optimisers, with more of them for every optimiser that moves along the gradients it is given. The code violates the property for partial gears (cut-out teeth or a tooth count that is not whole), which the documentation offers: the outline of the covers stays open. Slices must have the same number of control points, as the code itself needs. Sewing by the CAD kernel is trusted."
  },
  {
   "property": "C131",
   "status": "partial",
   "theorems": [
    "Verif.c131_exact",
    "Verif.c131_straight_gears",
    "Verif.c131_straight_others",
    "Verif.c131_rows_involute",
    "Verif.c131_rows_helical",
    "Verif.c131_rows_cycloid",
    "Verif.c131_ring_violated",
    "Verif.c131_two_rows_twisted",
    "Verif.c131_crowned",
    "Verif.c131_case"
   ],
   "note": "Helical ring gears never get more than five rows: above a twist of 135 degrees they twist by more than 45 degrees per inner row (c131_ring_violated). Everything else is proved; with more than two rows exactness assumes solvers that only move along the gradients they are given."
  },
  {
   "property": "C132",
   "status": "partial",
   "theorems": [
    "Verif.c132_blank",
    "Verif.c132_teeth",
    "Verif.c132_pick",
    "Verif.c132_ring_blank",
    "Verif.c132_ring_pick",
    "Verif.c132_blank_violated",
    "Verif.c132_crown_violated",
    "Verif.c132_ring_pick_violated"
   ],
   "note": "Proved for a positive cone angle (and the ring blank for both signs). Violated for negative cone angles: the blank is cut off above the lowest flanks, of a flat crown no tooth is left, and for ring gears the plug inside the teeth is returned. The parts of the last cut are an argument; that the side surfaces cut the blank in exactly two is not proved."
  },
  {
   "property": "C133",
   "status": "partial",
   "theorems": [
    "Verif.c133_copy",
    "Verif.c133_independent_partial",
    "Verif.c133_constructed",
    "Verif.c133_recalculated",
    "Verif.c133_setters",
    "Verif.c133_classes",
    "Verif.c133_shared",
    "Verif.c133_shared_scale",
    "Verif.c133_violated"
   ],
   "note": "Proved for programs that use the documented methods and properties, and for newly constructed or recalculated gears in all programs. Copies keep functions that read the original's inputparam and number of teeth, so that assignments to inputparam of the original change the copy (c133_violated)."
  },
  {
   "property": "C134",
   "status": "partial",
   "theorems": [
    "Verif.c134_flank",
    "Verif.c134_height_partial",
    "Verif.c134_corner",
    "Verif.c134_corner_solvable",
    "Verif.c134_undercut",
    "Verif.c134_octoid_partial",
    "Verif.c134_joint_partial",
    "Verif.c134_depth_violated",
    "Verif.c134_involute",
    "Verif.c134_involute_violated",
    "Verif.c134_enable_partial",
    "Verif.c134_enable_violated"
   ],
   "note": "Flank, spacing, pressure angle, corner and the bounds of the undercut curve are proved for all gears, and the joint with the octoid is closed exactly if the answer used is an intersection. Violated: the flat rack of octoid gears is less deep than h_d by a term of third order, so that the undercut never reaches the root cone; the involute rack cannot be deeper than the pressure angle on the sphere; the undercut of negative cones is always made."
  },
  {
   "property": "C135",
   "status": "partial",
   "theorems": [
    "Verif.c135_flat",
    "Verif.c135_cone_partial",
    "Verif.c135_cone_violated",
    "Verif.c135_hirth",
    "Verif.c135_recipe",
    "Verif.c135_rack_partial",
    "Verif.c135_rack_violated",
    "Verif.c135_case"
   ],
   "note": "Proved for cylindrical gears, cone angles up to 180 degrees, the coupling and the recipe. Violated: the arc of gears with a negative cone angle runs from the pitch point to the root, and the rack generator ignores the tooth width."
  },
  {
   "property": "C136",
   "status": "partial",
   "theorems": [
    "Verif.c136_independent_partial",
    "Verif.c136_construct_partial",
    "Verif.c136_swap_partial",
    "Verif.c136_swap_back",
    "Verif.c136_copy",
    "Verif.c136_center",
    "Verif.c136_mesh_partial",
    "Verif.c136_fits_partial",
    "Verif.c136_generator_violated",
    "Verif.c136_transform_violated",
    "Verif.c136_argument_violated",
    "Verif.c136_flat_violated",
    "Verif.c136_swap_flat_violated",
    "Verif.c136_pitch_angle_violated",
    "Verif.c136_case"
   ],
   "note": "Heap model of core gears and their argument objects, all programs. Independence, meshing as in C116 and fitting teeth hold when no object is used for two gears. Violated: a generator used for two gears gives the first one the flanks of the second; gears made with one transform move together when one is meshed; cone and generator arguments are overwritten; a plain GearToothGenerator makes a gear that cannot be evaluated; the pitch angle of undercut generators is never set."
  },
  {
   "property": "C137",
   "status": "partial",
   "theorems": [
    "Verif.c137_never_worse",
    "Verif.c137_accuracy",
    "Verif.c137_smooth",
    "Verif.c137_straight",
    "Verif.c137_arc",
    "Verif.c137_velocity",
    "Verif.c137_quadratic",
    "Verif.c137_flat",
    "Verif.c137_flat_violated",
    "Verif.c137_spread_violated",
    "Verif.c137_five_violated",
    "Verif.c137_same_fit",
    "Verif.c137_case",
    "Verif.c137_given",
    "Verif.c137_given_case"
   ],
   "note": "The error bound, its exactness on straight curves and the end velocities are proved for four control points (three dimensional fits) and the sample bound for every start; violated for five and more control points: the start is (n - 1) / 3 times too fast, doubles back from six on and does not follow a straight line, and force_2D raises. The bound is at the samples only."
  },
  {
   "property": "C138",
   "status": "partial",
   "theorems": [
    "Verif.c138_formed",
    "Verif.c138_formed_run",
    "Verif.c138_program",
    "Verif.c138_original",
    "Verif.c138_copy",
    "Verif.c138_copy_partial",
    "Verif.c138_formula_partial",
    "Verif.c138_deaf",
    "Verif.c138_trim",
    "Verif.c138_reverse",
    "Verif.c138_assign",
    "Verif.c138_cut",
    "Verif.c138_new",
    "Verif.c138_arith",
    "Verif.c138_formulas",
    "Verif.c138_follow",
    "Verif.c138_target",
    "Verif.c138_violated",
    "Verif.c138_mirror_violated",
    "Verif.c138_case"
   ],
   "note": "The code violates the claim for curves whose function is a lambda. The copy of an involute, a spherical involute or an octoid reads the attributes of its original: setting a.r moves the points of b = a.copy(), and setting b.r changes nothing but the attribute. The copy of a mirrored, rotated or otherwise transformed curve calls the target of the original, its own target is never used. A transformed curve follows later trims of its target while its length stays. Proved: originals never see changes of copies; copies of lines, arcs, NURBS pieces, plain functions and their sums, differences and multiples are independent under all programs; copies of involutes and octoids are as long as nobody sets attributes of the original; cut always works."
  },
  {
   "property": "C139",
   "status": "proved",
   "theorems": [
    "Verif.c139_simple",
    "Verif.c139_involute",
    "Verif.c139_root_line",
    "Verif.c139_case"
   ],
   "note": "Simple closed outline for every outward running flank; instances for involutes and for involutes with the root line of generate_involute_curve. The widths of the root gap and the tip must be zero or above the 1e-10 threshold of the code (C55 treats what happens below it)."
  },
  {
   "property": "C14",
   "status": "proved",
   "theorems": [
    "Verif.c14_cylindrical",
    "Verif.c14_conical",
    "Verif.c14_apex",
    "Verif.c14_pitch_circle"
   ],
   "note": "At the apex the transform is undefined, which is also proved. The last theorem fixes the value on the pitch circle."
  },
  {
   "property": "C140",
   "status": "proved",
   "theorems": [
    "Verif.c140_spur_outline",
    "Verif.c140_case",
    "Verif.c140_gap_case"
   ],
   "note": "Spur teeth without undercut and fillets. The gaps at root and tip are zero or wider than the tolerance of the code (ExactGaps, as in C55)."
  },
  {
   "property": "C141",
   "status": "proved",
   "theorems": [
    "Verif.c141_cycloid_outline",
    "Verif.c141_case"
   ],
   "note": "cylindrical teeth, no fillets, inner rolling circle at most half the pitch circle; solvers are arbitrary honest parameters and the places they find are assumed to lie on the curve (CycloidSearch, TrimSearches); the case has four teeth"
  },
  {
   "property": "C142",
   "status": "proved",
   "theorems": [
    "Verif.c142_undercut_outline",
    "Verif.c142_found",
    "Verif.c142_plain_outline",
    "Verif.c142_case",
    "Verif.c142_plain_case"
   ],
   "note": "Spur teeth of the undercut generator, without fillets, corner of the rack not beyond the middle of the gap if the base circle lies outside the root circle. The gaps at root and tip are zero or wider than the tolerance of the code (ExactGaps, as in C55). c142_found: with solvers that return the last solution on the curve, no hypothesis on the searches is left."
  },
  {
   "property": "C143",
   "status": "partial",
   "theorems": [
    "Verif.c143_chord_partial",
    "Verif.c143_straight",
    "Verif.c143_violated",
    "Verif.c143_closed_violated",
    "Verif.c143_center",
    "Verif.c143_center_opposite",
    "Verif.c143_case"
   ],
   "note": "Proved for positive curvature, curvature 0 and the version with a centre. Violated for every negative curvature whose radius exceeds half the chord: the curve turns the wrong way and does not end at p1. Equal points with a curvature raise."
  },
  {
   "property": "C144",
   "status": "partial",
   "theorems": [
    "Verif.c144_too_large",
    "Verif.c144_involute",
    "Verif.c144_octoid_partial",
    "Verif.c144_octoid_sign_violated",
    "Verif.c144_octoid_offset_violated",
    "Verif.c144_flat",
    "Verif.c144_case"
   ],
   "note": "Proved for spherical involutes with both signs of the curvature, and for octoids with positive curvature and no z offset. Violated for octoids with negative curvature or a z offset: the curve ignores both, the reported centre does not."
  },
  {
   "property": "C145",
   "status": "proved",
   "theorems": [
    "Verif.c145_outline",
    "Verif.c145_default",
    "Verif.c145_case",
    "Verif.c145_undercut_found",
    "Verif.c145_plain_found",
    "Verif.c145_found"
   ],
   "note": "End to end from the arguments of SpurGear to the outline, fillets off. The success of the searches (SpurSearches) and gaps that are zero or larger than the tolerance 1e-10 (ExactGaps) are hypotheses of c145_outline and c145_default. c145_found has neither: for every default gear with three teeth or more, with or without undercut, there are solvers that report only true solutions for which every search succeeds and the outline is simple (boxSolvers with undercut and up to 39 teeth, exactSolvers otherwise)."
  },
  {
   "property": "C146",
   "status": "proved",
   "theorems": [
    "Verif.c146_outline",
    "Verif.c146_default",
    "Verif.c146_case"
   ],
   "note": "c146_outline: conditions on the parameters, for all solvers that do not lie and whose searches succeed. c146_default: the conditions hold for the default parameters and all numbers of teeth from 3 up. c146_case: for all these gears, exact solvers meet the conditions on the searches, the profile exists and the outline is simple, with no assumption left. Fillets are not covered."
  },
  {
   "property": "C147",
   "status": "proved",
   "theorems": [
    "Verif.c147_index",
    "Verif.c147_case"
   ],
   "note": "The number of turns is specified by a continuous angle (Spec.TurnsAround); the curve is Lipschitz, not necessarily smooth. Array-valued centres are the same computation row by row and not modelled separately."
  },
  {
   "property": "C148",
   "status": "partial",
   "theorems": [
    "Verif.c148_partial",
    "Verif.c148_moved_chain_partial",
    "Verif.c148_inactive_violated",
    "Verif.c148_form_violated",
    "Verif.c148_trimmed_violated",
    "Verif.c148_alias_violated",
    "Verif.c148_case",
    "Verif.c148_moved_chain_case"
   ],
   "note": "Proved for nested chains of whole lines, arcs within the limits of C107 and new TransformedCurves of convertible curves (C111), and for TransformedCurves of chains, where inactive members give no edge. Violated for inactive members of chains, trimmed TransformedCurves, TransformedCurves of NurbCurves and in the form of the result. Missing: curves that are fitted."
  },
  {
   "property": "C149",
   "status": "proved",
   "theorems": [
    "Verif.c149_placed",
    "Verif.c149_as_new",
    "Verif.c149_first",
    "Verif.c149_case"
   ],
   "note": "The solid that the CAD kernel makes of a gear is a parameter; scipy's Euler angles are assumed to rebuild the rotation."
  },
  {
   "property": "C15",
   "status": "proved",
   "theorems": [
    "Verif.c15_mul_acts",
    "Verif.c15_assoc",
    "Verif.c15_neutral"
   ],
   "note": ""
  },
  {
   "property": "C150",
   "status": "proved",
   "theorems": [
    "Verif.c150_root",
    "Verif.c150_tip",
    "Verif.c150_root_case",
    "Verif.c150_tip_case"
   ],
   "note": "For reference circles about the origin as the gear makes them and teeth in the plane of the gear where the fillet touches; the situation is the one of C103 (intersection and tangent arc found, contact points within the half pitch)."
  },
  {
   "property": "C16",
   "status": "partial",
   "theorems": [
    "Verif.c16_inverse_partial",
    "Verif.c16_exact",
    "Verif.c16_violated"
   ],
   "note": "Holds exactly when scale^2 = 1 or the centre is the origin. Violated for other scales."
  },
  {
   "property": "C17",
   "status": "partial",
   "theorems": [
    "Verif.c17_planar_partial",
    "Verif.c17_no_spin_partial",
    "Verif.c17_mul_exact",
    "Verif.c17_invert_exact",
    "Verif.c17_data_mul_exact",
    "Verif.c17_data_invert_exact",
    "Verif.c17_violated",
    "Verif.c17_data_violated"
   ],
   "note": "Exact conditions are proved. Holds when the spins commute with the orientations (planar trains). Violated in general."
  },
  {
   "property": "C18",
   "status": "proved",
   "theorems": [
    "Verif.c18_similarity",
    "Verif.c18_similarity_plain"
   ],
   "note": ""
  },
  {
   "property": "C19",
   "status": "proved",
   "theorems": [
    "Verif.c19_location",
    "Verif.c19_euler_exists"
   ],
   "note": "The Euler decomposition is characterised by rebuilding the matrix; its existence for every rotation is proved."
  },
  {
   "property": "C20",
   "status": "proved",
   "theorems": [
    "Verif.c20_string",
    "Verif.c20_velocity"
   ],
   "note": ""
  },
  {
   "property": "C21",
   "status": "proved",
   "theorems": [
    "Verif.c21_involute_sphere",
    "Verif.c21_octoid",
    "Verif.c21_cycloid_cone"
   ],
   "note": ""
  },
  {
   "property": "C22",
   "status": "proved",
   "theorems": [
    "Verif.c22_rolling",
    "Verif.c22_no_slip",
    "Verif.c22_tooth_flanks"
   ],
   "note": ""
  },
  {
   "property": "C23",
   "status": "partial",
   "theorems": [
    "Verif.c23_offsets_partial",
    "Verif.c23_violated_involute_sphere",
    "Verif.c23_violated_cycloid_cone",
    "Verif.c23_violated_octoid"
   ],
   "note": "Holds for the cylindrical generators and the conical branch of the spherical involute. Violated in three places."
  },
  {
   "property": "C24",
   "status": "proved",
   "theorems": [
    "Verif.c24_pitch_crossing",
    "Verif.c24_crossing_exists"
   ],
   "note": "The root search result is a hypothesis; that such a root exists is proved."
  },
  {
   "property": "C25",
   "status": "partial",
   "theorems": [
    "Verif.c25_defaults_partial",
    "Verif.c25_violated"
   ],
   "note": "Both undercut generators overwrite the default with None."
  },
  {
   "property": "C26",
   "status": "proved",
   "theorems": [
    "Verif.c26_external",
    "Verif.c26_ring",
    "Verif.c26_root_exists"
   ],
   "note": ""
  },
  {
   "property": "C27",
   "status": "partial",
   "theorems": [
    "Verif.c27_external_partial",
    "Verif.c27_ring_partial",
    "Verif.c27_violated"
   ],
   "note": "Violated: half the backlash and the opposite sign convention for the base angles. The exact relation is proved."
  },
  {
   "property": "C28",
   "status": "proved",
   "theorems": [
    "Verif.c28_backlash_monotone"
   ],
   "note": ""
  },
  {
   "property": "C29",
   "status": "partial",
   "theorems": [
    "Verif.c29_external_partial",
    "Verif.c29_pinion_partial",
    "Verif.c29_scale_partial",
    "Verif.c29_ring_violated",
    "Verif.c29_cycloid_violated",
    "Verif.c29_cycloid_partial",
    "Verif.c29_side_partial"
   ],
   "note": "Violated for a ring gear meshed to its pinion and for cycloid gears with a target direction that is not a unit vector."
  },
  {
   "property": "C30",
   "status": "proved",
   "theorems": [
    "Verif.c30_external",
    "Verif.c30_ring2",
    "Verif.c30_ring1",
    "Verif.c30_external_whole",
    "Verif.c30_ring2_whole",
    "Verif.c30_ring1_whole"
   ],
   "note": ""
  },
  {
   "property": "C31",
   "status": "proved",
   "theorems": [
    "Verif.c31_bound",
    "Verif.c31_period",
    "Verif.c31_ratio_external",
    "Verif.c31_ratio_ring"
   ],
   "note": ""
  },
  {
   "property": "C32",
   "status": "proved",
   "theorems": [
    "Verif.c32_bevel",
    "Verif.c32_bevel_ring",
    "Verif.c32_bevel_around"
   ],
   "note": ""
  },
  {
   "property": "C33",
   "status": "partial",
   "theorems": [
    "Verif.c33_right_angle_partial",
    "Verif.c33_violated"
   ],
   "note": "Violated off 90 degrees. Proved at 90 degrees."
  },
  {
   "property": "C34",
   "status": "partial",
   "theorems": [
    "Verif.c34_external_partial",
    "Verif.c34_ring_partial",
    "Verif.c34_violated"
   ],
   "note": "Proved for gear planes perpendicular to the global z axis, violated for others."
  },
  {
   "property": "C35",
   "status": "partial",
   "theorems": [
    "Verif.c35_external_partial",
    "Verif.c35_opposite_partial",
    "Verif.c35_ring_violated"
   ],
   "note": "Violated for ring gears. External pairs proved for target directions perpendicular to the axis."
  },
  {
   "property": "C36",
   "status": "proved",
   "theorems": [
    "Verif.c36_history",
    "Verif.c36_frame",
    "Verif.c36_receiver"
   ],
   "note": ""
  },
  {
   "property": "C37",
   "status": "proved",
   "theorems": [
    "Verif.c37_prior_placement",
    "Verif.c37_idempotent"
   ],
   "note": ""
  },
  {
   "property": "C38",
   "status": "proved",
   "theorems": [
    "Verif.c38_ends",
    "Verif.c38_monotone",
    "Verif.c38_samples"
   ],
   "note": "All curve kinds, all ranges, repeated samples included."
  },
  {
   "property": "C39",
   "status": "proved",
   "theorems": [
    "Verif.c39_inverse",
    "Verif.c39_strict"
   ],
   "note": "Whole line with both extrapolations."
  },
  {
   "property": "C40",
   "status": "partial",
   "theorems": [
    "Verif.c40_violated",
    "Verif.c40_twice",
    "Verif.c40_symmetric_partial",
    "Verif.c40_line_arc_partial",
    "Verif.c40_ends_partial",
    "Verif.c40_recomputed_partial",
    "Verif.c40_chain_partial"
   ],
   "note": "False for asymmetric speed; exact for lines, arcs, chains of them, symmetric tables and after recomputing the lengths."
  },
  {
   "property": "C41",
   "status": "proved",
   "theorems": [
    "Verif.c41_start",
    "Verif.c41_end",
    "Verif.c41_both",
    "Verif.c41_cut",
    "Verif.c41_piece",
    "Verif.c41_start_path",
    "Verif.c41_end_path"
   ],
   "note": "All kinds and positions with a defined value. The path theorems say that the trimmed curve runs through exactly the remaining part, in order."
  },
  {
   "property": "C42",
   "status": "partial",
   "theorems": [
    "Verif.c42_line_partial",
    "Verif.c42_violated"
   ],
   "note": "Lines proved, arcs violated."
  },
  {
   "property": "C43",
   "status": "proved",
   "theorems": [
    "Verif.c43_lookup",
    "Verif.c43_extrapolate"
   ],
   "note": "Any member type (curves, nested chains)."
  },
  {
   "property": "C44",
   "status": "proved",
   "theorems": [
    "Verif.c44_continuous",
    "Verif.c44_ends",
    "Verif.c44_member",
    "Verif.c44_nested"
   ],
   "note": "Any member type; continuity in the product topology of three reals."
  },
  {
   "property": "C45",
   "status": "partial",
   "theorems": [
    "Verif.c45_start_partial",
    "Verif.c45_end_partial",
    "Verif.c45_both_partial",
    "Verif.c45_polyline_partial",
    "Verif.c45_mixed_partial",
    "Verif.c45_start_path",
    "Verif.c45_end_path",
    "Verif.c45_start_piece",
    "Verif.c45_sys_start",
    "Verif.c45_sys_end",
    "Verif.c45_violated"
   ],
   "note": "One-ended trimming proved, also for chains that mix curves and chains and curves traced backwards (c45_sys_start, c45_sys_end, used on the gear of c142_case), and as a statement about the whole remaining part; two-ended trimming violated."
  },
  {
   "property": "C46",
   "status": "partial",
   "theorems": [
    "Verif.c46_partial",
    "Verif.c46_active",
    "Verif.c46_violated_del",
    "Verif.c46_violated_reverse"
   ],
   "note": "append, extend, insert and pop proved for every sequence; activity of a chain; del and reverse violated."
  },
  {
   "property": "C47",
   "status": "partial",
   "theorems": [
    "Verif.c47_partial",
    "Verif.c47_violated"
   ],
   "note": "Division violated for ranges other than [0,1]."
  },
  {
   "property": "C48",
   "status": "partial",
   "theorems": [
    "Verif.c48_violated",
    "Verif.c48_affine_partial"
   ],
   "note": "Orders above one raise."
  },
  {
   "property": "C49",
   "status": "proved",
   "theorems": [
    "Verif.c49_two_points",
    "Verif.c49_point_angle",
    "Verif.c49_point_angle_perp",
    "Verif.c49_radius",
    "Verif.c49_radius_distance"
   ],
   "note": "All three constructors, with the full description of the arc at every parameter. scipy's Euler angles are any function that rebuilds rotations (eulerOk_exists)."
  },
  {
   "property": "C50",
   "status": "partial",
   "theorems": [
    "Verif.c50_line_partial",
    "Verif.c50_arc_partial",
    "Verif.c50_line_violated",
    "Verif.c50_arc_violated"
   ],
   "note": "Exact for untrimmed lines and arcs and all similarities. False for trimmed ones."
  },
  {
   "property": "C51",
   "status": "proved",
   "theorems": [
    "Verif.c51_involution",
    "Verif.c51_isometry",
    "Verif.c51_fixed",
    "Verif.c51_plane",
    "Verif.c51_curve",
    "Verif.c51_length",
    "Verif.c51_line_arc",
    "Verif.c51_rotated"
   ],
   "note": "Mirror map and the mirrored curve objects; a mirrored curve is resampled by its own chord lengths, which is the identity for lines and arcs. Also covers RotatedCurve."
  },
  {
   "property": "C52",
   "status": "proved",
   "theorems": [
    "Verif.c52_roundtrip",
    "Verif.c52_default",
    "Verif.c52_knots",
    "Verif.c52_write_read"
   ],
   "note": "NURBSCurve points, weights, knots, from_points with and without weights; any number of members with at least two control points."
  },
  {
   "property": "C53",
   "status": "proved",
   "theorems": [
    "Verif.c53_continuous",
    "Verif.c53_inner",
    "Verif.c53_noop",
    "Verif.c53_idempotent"
   ],
   "note": "Holds for every value of is_closed."
  },
  {
   "property": "C54",
   "status": "proved",
   "theorems": [
    "Verif.c54_cylindrical",
    "Verif.c54_conical"
   ],
   "note": ""
  },
  {
   "property": "C55",
   "status": "partial",
   "theorems": [
    "Verif.c55_profile",
    "Verif.c55_gap_partial",
    "Verif.c55_ring"
   ],
   "note": "Trimmed tooth curve is a parameter (what the solvers return); at least two teeth. Gaps of at most 1e-10 are not closed by the code and are only bounded."
  },
  {
   "property": "C56",
   "status": "partial",
   "theorems": [
    "Verif.c56_chain",
    "Verif.c56_boundaries_partial",
    "Verif.c56_violated"
   ],
   "note": "Both boundaries run through the teeth in the same order, whatever the outline as long as it is simple; the chain boundary is moved by the transform of the profile, the continuous one is not. They agree when that transform is the identity (height 0 of a straight gear). Violated at every other height."
  },
  {
   "property": "C57",
   "status": "partial",
   "theorems": [
    "Verif.c57_never_longer",
    "Verif.c57_reduced",
    "Verif.c57_lower_partial",
    "Verif.c57_violated"
   ],
   "note": "The returned tip can lie below the dedendum limit."
  },
  {
   "property": "C58",
   "status": "partial",
   "theorems": [
    "Verif.c58_closed_partial",
    "Verif.c58_outer_violated",
    "Verif.c58_ring_violated"
   ],
   "note": "profile_closed, tooth_profile_closed and generate_profile_closed are continuous and closed for cylindrical and conical outlines. tooth_profile_closed_outer and tooth_profile_closed_ring are not: proved on a concrete tooth."
  },
  {
   "property": "C59",
   "status": "partial",
   "theorems": [
    "Verif.c59_pure",
    "Verif.c59_fresh_partial",
    "Verif.c59_values_partial",
    "Verif.c59_settles_partial",
    "Verif.c59_success_partial",
    "Verif.c59_attribute_violated",
    "Verif.c59_nested_violated"
   ],
   "note": "Heap model of recipes. Purity holds for every recipe. Values and settling hold when functions are attributes of recipes (not of plain objects inside them) and return data. Violated: a recipe holding an attribute its constructor does not know cannot be evaluated, and a function inside a plain object such as ConicData is not replaced."
  },
  {
   "property": "C60",
   "status": "proved",
   "theorems": [
    "Verif.c60_negative",
    "Verif.c60_counts",
    "Verif.c60_whole"
   ],
   "note": ""
  },
  {
   "property": "C61",
   "status": "partial",
   "theorems": [
    "Verif.c61_involute",
    "Verif.c61_spur_bevel",
    "Verif.c61_helical",
    "Verif.c61_placement",
    "Verif.c61_helical_ring_violated",
    "Verif.c61_cycloid_violated",
    "Verif.c61_spur_ring_violated"
   ],
   "note": "Proved for involute, spur, bevel and helical gears. The code violates the property for helical ring gears, cycloid gears and the rim of spur ring gears."
  },
  {
   "property": "C62",
   "status": "partial",
   "theorems": [
    "Verif.c62_partial",
    "Verif.c62_amount_partial",
    "Verif.c62_violated"
   ],
   "note": "Exact condition: nominal at mid height and symmetric iff 1 - 2 z_anchor = module. Violated for every other module, e.g. module 2 anchored at the bottom."
  },
  {
   "property": "C63",
   "status": "proved",
   "theorems": [
    "Verif.c63_apex",
    "Verif.c63_lead"
   ],
   "note": "Involute (hence spur, bevel) and cycloid gears, any placement."
  },
  {
   "property": "C64",
   "status": "proved",
   "theorems": [
    "Verif.c64_planes",
    "Verif.c64_herringbone"
   ],
   "note": "Helical and helical ring gears; the tooth thickness part for crowning 0."
  },
  {
   "property": "C65",
   "status": "partial",
   "theorems": [
    "Verif.c65_helical",
    "Verif.c65_ring_violated"
   ],
   "note": "Proved for HelicalGear with and without herringbone. HelicalRingGear has no refinement, so the twist bound is violated."
  },
  {
   "property": "C66",
   "status": "partial",
   "theorems": [
    "Verif.c66_partial",
    "Verif.c66_moved_violated",
    "Verif.c66_herringbone_violated"
   ],
   "note": "Holds for gears centred at the origin, any orientation. Violated: moving a gear along its axis changes z_height; herringbone gears report at most half of the height."
  },
  {
   "property": "C67",
   "status": "partial",
   "theorems": [
    "Verif.c67_partial",
    "Verif.c67_violated",
    "Verif.c67_tilted_violated"
   ],
   "note": "Holds for gears at the origin with vertical axis. Violated for every other centre and for tilted gears."
  },
  {
   "property": "C68",
   "status": "partial",
   "theorems": [
    "Verif.c68_center_partial",
    "Verif.c68_angle_partial",
    "Verif.c68_module_violated",
    "Verif.c68_cone_angle_violated",
    "Verif.c68_cone_angle_lost_violated"
   ],
   "note": "Proved for center and angle. Violated for module (geometry keeps the old one) and cone_angle (the assignment is lost)."
  },
  {
   "property": "C69",
   "status": "partial",
   "theorems": [
    "Verif.c69_partial",
    "Verif.c69_violated"
   ],
   "note": "Proved for gears constructed at the default centre and angle after any history; violated for all others."
  },
  {
   "property": "C70",
   "status": "partial",
   "theorems": [
    "Verif.c70_partial",
    "Verif.c70_angle_violated",
    "Verif.c70_moved_violated"
   ],
   "note": "For whole tooth counts all points stay in place. Violated: the reported angle grows by a full turn, and gears with a fractional tooth count move."
  },
  {
   "property": "C71",
   "status": "partial",
   "theorems": [
    "Verif.c71_radii",
    "Verif.c71_idempotent",
    "Verif.c71_placement_partial",
    "Verif.c71_placement_violated"
   ],
   "note": "Radii and idempotence proved. Placements are kept only for gears still placed as constructed."
  },
  {
   "property": "C72",
   "status": "proved",
   "theorems": [
    "Verif.c72_place",
    "Verif.c72_periodic",
    "Verif.c72_turn"
   ],
   "note": "Directions along the gear axis give NaN and are excluded by a hypothesis."
  },
  {
   "property": "C73",
   "status": "partial",
   "theorems": [
    "Verif.c73_partial",
    "Verif.c73_violated",
    "Verif.c73_constants"
   ],
   "note": "Own lines and other racks' addendum, dedendum and outside lines proved; UP, DOWN and the pitch lines of all racks are changed, both constants by the same vector, RIGHT not."
  },
  {
   "property": "C74",
   "status": "partial",
   "theorems": [
    "Verif.c74_partial",
    "Verif.c74_violated"
   ],
   "note": "Violated when the surface generation of a conical gear raises."
  },
  {
   "property": "C75",
   "status": "proved",
   "theorems": [
    "Verif.c75_cover"
   ],
   "note": "All tooth counts."
  },
  {
   "property": "C76",
   "status": "partial",
   "theorems": [
    "Verif.c76_partial",
    "Verif.c76_fraction_violated",
    "Verif.c76_cutout_violated"
   ],
   "note": "Proved for whole tooth counts without cut-out teeth; violated for fractional counts and cut-outs."
  },
  {
   "property": "C77",
   "status": "proved",
   "theorems": [
    "Verif.c77_section_count",
    "Verif.c77_documented"
   ],
   "note": "The count is at least the number of control rows and two, equals two exactly when there are two control rows, and is the documented number rounded up."
  },
  {
   "property": "C78",
   "status": "proved",
   "theorems": [
    "Verif.c78_affine_matrix",
    "Verif.c78_gear_affine_matrix",
    "Verif.c78_affine_matrix_mul"
   ],
   "note": ""
  },
  {
   "property": "C79",
   "status": "partial",
   "theorems": [
    "Verif.c79_mixed_partial",
    "Verif.c79_mixed_exact",
    "Verif.c79_violated"
   ],
   "note": "The product drops the spin; it composes exactly when the spin is a full turn."
  },
  {
   "property": "C80",
   "status": "proved",
   "theorems": [
    "Verif.c80_bevel_involute",
    "Verif.c80_octoid"
   ],
   "note": "Octoid for cone angles in (0, pi)."
  },
  {
   "property": "C81",
   "status": "proved",
   "theorems": [
    "Verif.c81_trochoid",
    "Verif.c81_bevel_rolling"
   ],
   "note": ""
  },
  {
   "property": "C82",
   "status": "proved",
   "theorems": [
    "Verif.c82_rack_flank"
   ],
   "note": "The straight (cylindrical) rack flank."
  },
  {
   "property": "C83",
   "status": "proved",
   "theorems": [
    "Verif.c83_great_circle"
   ],
   "note": ""
  },
  {
   "property": "C84",
   "status": "proved",
   "theorems": [
    "Verif.c84_external",
    "Verif.c84_ring",
    "Verif.c84_around",
    "Verif.c84_constructed"
   ],
   "note": ""
  },
  {
   "property": "C85",
   "status": "partial",
   "theorems": [
    "Verif.c85_perpendicular_partial",
    "Verif.c85_violated"
   ],
   "note": "Violated for target directions with an axial component. Proved for directions in the gear plane."
  },
  {
   "property": "C86",
   "status": "partial",
   "theorems": [
    "Verif.c86_partial",
    "Verif.c86_violated"
   ],
   "note": "Holds for upward axes without x or without y component; false for every axis with both."
  },
  {
   "property": "C87",
   "status": "partial",
   "theorems": [
    "Verif.c87_partial",
    "Verif.c87_violated"
   ],
   "note": "Exact when the radius exceeds half the chord; otherwise the result is undefined (NaN)."
  },
  {
   "property": "C88",
   "status": "proved",
   "theorems": [
    "Verif.c88_section_ends",
    "Verif.c88_shared_edge"
   ],
   "note": "The profile as a function of height and the optimiser outcome are parameters."
  },
  {
   "property": "C89",
   "status": "proved",
   "theorems": [
    "Verif.c89_patches_are_members",
    "Verif.c89_shared_columns"
   ],
   "note": "First theorem: cutting a height row of a continuous chain gives back the members. Second: border columns agree for every row."
  },
  {
   "property": "C90",
   "status": "proved",
   "theorems": [
    "Verif.c90_symmetric",
    "Verif.c90_external",
    "Verif.c90_ring",
    "Verif.c90_root_of_law"
   ],
   "note": ""
  },
  {
   "property": "C91",
   "status": "proved",
   "theorems": [
    "Verif.c91_thickness",
    "Verif.c91_generator"
   ],
   "note": ""
  },
  {
   "property": "C92",
   "status": "proved",
   "theorems": [
    "Verif.c92_external",
    "Verif.c92_ring",
    "Verif.c92_around"
   ],
   "note": ""
  },
  {
   "property": "C93",
   "status": "proved",
   "theorems": [
    "Verif.c93_orientation"
   ],
   "note": ""
  },
  {
   "property": "C94",
   "status": "partial",
   "theorems": [
    "Verif.c94_cut_partial",
    "Verif.c94_violated"
   ],
   "note": "Proved for chains whose active members are line segments. Violated for chains with an arc cut inside the arc, because arcs keep their length when trimmed."
  },
  {
   "property": "C95",
   "status": "proved",
   "theorems": [
    "Verif.c95_phase"
   ],
   "note": "Every tooth of the row, even and odd tooth counts."
  },
  {
   "property": "C96",
   "status": "proved",
   "theorems": [
    "Verif.c96_involute",
    "Verif.c96_helical"
   ],
   "note": "Opposed gives for each pair of flanks the two parameters, the common normal, both points on the line of action through the moving pitch point, and the constant gap. The rack flank is taken as its whole line (fillets and tip end are not modelled here), the gear flank as the involute without limits."
  },
  {
   "property": "C97",
   "status": "partial",
   "theorems": [
    "Verif.c97_involute_spans",
    "Verif.c97_helical_spans",
    "Verif.c97_partial",
    "Verif.c97_violated"
   ],
   "note": "Holds for z_anchor = 0; violated for every other anchor, since mesh_to of the rack ignores z_anchor."
  },
  {
   "property": "C98",
   "status": "proved",
   "theorems": [
    "Verif.c98_external",
    "Verif.c98_ring"
   ],
   "note": "Untrimmed flanks; adapted gears, any placement."
  },
  {
   "property": "C99",
   "status": "partial",
   "theorems": [
    "Verif.c99_external_partial",
    "Verif.c99_violated"
   ],
   "note": "Holds for external gears. For a ring gear the backlash has the wrong sign."
  }
 ]
}
