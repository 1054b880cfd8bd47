{"id": "C01", "title": "Both Bezier evaluators agree", "statement": "Evaluating a Bezier curve by de Casteljau recursion (bezierdc) returns the same point as evaluating it by the Bernstein sum (bezier), for points of any dimension.", "quantifier": "for every non-empty list of control points and every real parameter t (inside or outside [0,1])", "why_tests_cant": "The number of control points is unbounded and t is continuous; a test samples a few degrees and parameters.", "anchors": ["src/gggears/function_generators.py:bezier", "src/gggears/function_generators.py:bezierdc"]}
{"id": "C02", "title": "Bezier curves interpolate their end control points and stay in the hull", "statement": "bezierdc at t=0 returns the first control point and at t=1 the last; for 0<=t<=1 the point lies in the convex hull of the control points.", "quantifier": "for every non-empty control list, every t in [0,1]", "why_tests_cant": "Hull containment is a statement about all t and all degrees.", "anchors": ["src/gggears/function_generators.py:bezierdc"]}
{"id": "C03", "title": "Rational Bezier evaluation commutes with gear transforms", "statement": "Transforming the control points of a rational Bezier curve (nurbezier) by any affine map p -> A p + c and then evaluating equals evaluating and then transforming, with the same weights.", "quantifier": "for every control list, weights with non-vanishing weight sum at t, affine map and t", "why_tests_cant": "The builder transforms control points instead of sampled points, so this must hold for every map and every parameter, not just sampled ones.", "anchors": ["src/gggears/function_generators.py:nurbezier", "src/gggears/gggears_convert.py:GearToNurbs.__init__", "src/gggears/gggears_base_classes.py:apply_gear_transform"]}
{"id": "C04", "title": "Reversing control points and weights reverses the curve", "statement": "A NurbCurve whose points and weights are flipped evaluates at natural parameter t to what the original evaluates to at 1-t, so reversing a NURB edge only changes its direction.", "quantifier": "for every control list, weight list and t", "why_tests_cant": "Symmetry over all degrees and parameters.", "anchors": ["src/gggears/function_generators.py:nurbezier", "src/gggears/curve.py:NurbCurve.reverse"]}
{"id": "C05", "title": "bezier_diff_t is the exact n-th derivative, for every order n", "statement": "bezier_diff_t(t, points, n) returns the n-th derivative of the Bezier curve at t for every order n>=1, including orders at or above the number of points (where the derivative is 0).", "quantifier": "for every control list, every order n>=1, every t", "why_tests_cant": "All orders and degrees; the boundary order n = number of points is one value that sampling misses.", "anchors": ["src/gggears/function_generators.py:bezier_diff_t"]}
{"id": "C06", "title": "nurbezier_diff_t is the exact velocity of a rational Bezier curve", "statement": "nurbezier_diff_t returns the derivative with respect to t of nurbezier.", "quantifier": "for every control list, weights and t where the weight polynomial is non-zero", "why_tests_cant": "Derivative claim over a continuum; finite differences only approximate it.", "anchors": ["src/gggears/function_generators.py:nurbezier_diff_t", "src/gggears/function_generators.py:nurbezier"]}
{"id": "C07", "title": "Control-point and weight sensitivities are exact partial derivatives", "statement": "nurbezier_diff_points and nurbezier_diff_weights return the exact partial derivatives of nurbezier with respect to each control point and each weight, as the optimiser Jacobians assume.", "quantifier": "for every control list, weights, index k and t with non-zero weight polynomial", "why_tests_cant": "Partial derivatives at every point of a continuum.", "anchors": ["src/gggears/function_generators.py:nurbezier_diff_points", "src/gggears/function_generators.py:nurbezier_diff_weights", "src/gggears/function_generators.py:bezier_diff_p"]}
{"id": "C08", "title": "Both NURBS surface evaluators agree", "statement": "nurbezier_surface (row-wise evaluation then rational combination) and nurbezier_surface_2 (tensor product sum) return the same point.", "quantifier": "for every rectangular control net and weight net of any size and every (u,v) where no row's weight polynomial and no total weight vanishes", "why_tests_cant": "Net sizes are unbounded and (u,v) continuous.", "anchors": ["src/gggears/function_generators.py:nurbezier_surface", "src/gggears/function_generators.py:nurbezier_surface_2"]}
{"id": "C09", "title": "NURBS arcs are exact circular arcs", "statement": "The quadratic rational curve built by calc_nurbezier_arc from two points on a circle starts at the first, ends at the second, and every point of it is exactly on the circle.", "quantifier": "for every centre, radius > 0 and pair of points on the circle that are neither equal nor opposite, every t in [0,1]", "why_tests_cant": "Exactness for all t; a sampled test only shows closeness at samples.", "anchors": ["src/gggears/function_generators.py:calc_nurbezier_arc", "src/gggears/function_generators.py:nurbezier", "src/gggears/curve.py:convert_curve_nurbezier"]}
{"id": "C10", "title": "Quadratic Bezier interpolation passes through its three points", "statement": "The Bezier curve returned by calc_quadratic_bezier_interp(p0,p1,p2) passes through p0 at t=0, p1 at t=1/2 and p2 at t=1.", "quantifier": "for every triple of points", "why_tests_cant": "Universal over points.", "anchors": ["src/gggears/function_generators.py:calc_quadratic_bezier_interp"]}
{"id": "C11", "title": "Curve fitting pins the end points for every optimiser outcome", "statement": "Whatever vector the numerical optimiser returns, the NURB built from it by fit_nurb_points starts at the first target point and ends at the last one; unpacking a packed (points, weights, t) triple gives it back.", "quantifier": "for every optimiser output vector, target list, and number of control points >= 2", "why_tests_cant": "The optimiser's output is arbitrary (it may fail to converge); no sample of outputs settles it.", "anchors": ["src/gggears/curve.py:fit_nurb_points", "src/gggears/function_generators.py:nurbezier"]}
{"id": "C12", "title": "Analytic gradients handed to the optimisers match the cost", "statement": "The Jacobian supplied to scipy.optimize.minimize is the true gradient of the supplied cost, both for curve fitting (fit_nurb_points) and for surface fitting (GearToNurbs.solve_surface).", "quantifier": "for every target data, current control points, weights and parameters", "why_tests_cant": "Gradient identity over a continuum of optimiser states.", "anchors": ["src/gggears/curve.py:fit_nurb_points", "src/gggears/gggears_convert.py:GearToNurbs.solve_surface", "src/gggears/gggears_convert.py:GearToNurbs.solve_surface_fast"]}
{"id": "C13", "title": "Cylindrical and spherical conversions round-trip", "statement": "cylindrical_to_xyz(xyz_to_cylindrical(p)) = p for every p, spherical_to_xyz(xyz_to_spherical(p)) = p for every p different from the centre, and the conversions the other way round also return their input on the canonical coordinate range.", "quantifier": "for every centre and every point", "why_tests_cant": "Branch behaviour of arctan2/arccos over all of space.", "anchors": ["src/gggears/function_generators.py:xyz_to_cylindrical", "src/gggears/function_generators.py:cylindrical_to_xyz", "src/gggears/function_generators.py:xyz_to_spherical", "src/gggears/function_generators.py:spherical_to_xyz"]}
{"id": "C14", "title": "Gear polar transform is invertible", "statement": "inverse_polar_transform(polar_transform(p)) = p for cylindrical gears at every p, and for conical gears at every p other than the apex.", "quantifier": "for every cone angle in the supported range, base radius > 0 and point", "why_tests_cant": "Branches by cone angle and trigonometric inverse ranges.", "anchors": ["src/gggears/gggears_core.py:GearPolarTransform"]}
{"id": "C15", "title": "Composing transforms composes their action", "statement": "Applying (A * B) to a point equals applying B and then A; composition is associative and the default transform is neutral, for Transform.", "quantifier": "for every pair/triple of transforms and every point", "why_tests_cant": "Algebraic law over all matrices.", "anchors": ["src/gggears/gggears_base_classes.py:TransformData.__mul__", "src/gggears/gggears_base_classes.py:Transform.__mul__", "src/gggears/gggears_base_classes.py:apply_transform"]}
{"id": "C16", "title": "Inverting a transform undoes it", "statement": "Applying T and then T.invert() returns the original point.", "quantifier": "for every Transform with rotation-matrix orientation and non-zero scale, every point", "why_tests_cant": "Universal over scales and centres; default tests use scale 1.", "anchors": ["src/gggears/gggears_base_classes.py:TransformData.invert", "src/gggears/gggears_base_classes.py:Transform.invert"]}
{"id": "C17", "title": "GearTransform composition and inversion respect the angle", "statement": "Applying (A * B) as gear transforms equals applying B then A, and applying T then T.invert() returns the original point.", "quantifier": "for every GearTransform with rotation-matrix orientation, angle and non-zero scale, every point", "why_tests_cant": "Universal over orientations and angles; special orientations hide the failure.", "anchors": ["src/gggears/gggears_base_classes.py:GearTransform.__mul__", "src/gggears/gggears_base_classes.py:GearTransform.invert", "src/gggears/gggears_base_classes.py:GearTransformData.__mul__", "src/gggears/gggears_base_classes.py:apply_gear_transform"]}
{"id": "C18", "title": "Gear transforms are similarities", "statement": "A gear transform with rotation orientation maps distances to |scale| times the distances and preserves angles (dot products scale by scale^2), so a placed gear is congruent to the designed one.", "quantifier": "for every gear transform with rotation-matrix orientation and all points", "why_tests_cant": "All points and all transforms.", "anchors": ["src/gggears/gggears_base_classes.py:apply_gear_transform", "src/gggears/gggears_base_classes.py:apply_transform"]}
{"id": "C19", "title": "The CAD location of a part equals the gear transform", "statement": "transform2Location yields the rigid motion p -> O Rz(angle) p + centre, i.e. the same placement as apply_gear_transform with scale 1.", "quantifier": "for every rotation-matrix orientation, angle and centre", "why_tests_cant": "Euler-angle decomposition branches over all orientations.", "anchors": ["src/gggears/gggears_build123d.py:transform2Location", "src/gggears/gggears_base_classes.py:apply_gear_transform"]}
{"id": "C20", "title": "involute_circle is the unwinding of a taut string", "statement": "Every point of involute_circle is at squared distance r^2(1+t^2) from the axis, the segment to the base circle point at polar angle t+angle is tangent to the base circle and has length r|t| (the unwound arc), and the velocity is along that radius with magnitude r|t|.", "quantifier": "for every base radius, start angle and t", "why_tests_cant": "Continuum of t and r.", "anchors": ["src/gggears/function_generators.py:involute_circle", "src/gggears/curve.py:InvoluteCurve"]}
{"id": "C21", "title": "Conical tooth flanks lie on the gear's sphere", "statement": "Every point of involute_sphere, of octoid and of cycloid_cone (without point offset) lies at distance exactly R from the sphere centre the generator uses.", "quantifier": "for every base radius <= sphere radius, pressure angle, curvature sign, angle and t", "why_tests_cant": "Continuum; a sampled test sees only tolerances.", "anchors": ["src/gggears/function_generators.py:involute_sphere", "src/gggears/function_generators.py:octoid", "src/gggears/function_generators.py:cycloid_cone"]}
{"id": "C22", "title": "Cycloids come from rolling without slip", "statement": "Every point of cycloid_circle is at distance |rc| from the rolling centre, which is at distance |rb+rc| from the axis; the curve starts on the base circle and its velocity is perpendicular to the segment joining it to the instantaneous contact point.", "quantifier": "for every base and rolling radius (rc non-zero), angle and t", "why_tests_cant": "Continuum of radii and t.", "anchors": ["src/gggears/function_generators.py:cycloid_circle", "src/gggears/curve.py:CycloidCurve"]}
{"id": "C23", "title": "Flank generators honour z offset, point offset and every curvature", "statement": "Every flank generator returns a point for every allowed curvature/cone value, passing z_offs translates the curve by z_offs along z, and v_offs is taken into account.", "quantifier": "for every generator, curvature (including 0), z_offs and t", "why_tests_cant": "Rarely used parameter combinations (curvature exactly 0 together with an offset) are missed by samples.", "anchors": ["src/gggears/function_generators.py:involute_sphere", "src/gggears/function_generators.py:cycloid_cone", "src/gggears/function_generators.py:octoid"]}
{"id": "C24", "title": "Involute flanks cross the pitch circle where and how they are asked to", "statement": "For a spur tooth, the generated involute flank meets the pitch circle at polar angle -pitch_intersect_angle, and there the angle between flank tangent and radius is the pressure angle.", "quantifier": "for every pitch radius > 0, pressure angle in (0, pi/2) with inv(alpha) <= pi, and intersect angle, provided the root search returns a crossing", "why_tests_cant": "Continuum of design parameters.", "anchors": ["src/gggears/gearteeth.py:InvoluteTooth.generate_involute_curve"]}
{"id": "C25", "title": "Omitted limits fall back to documented defaults", "statement": "Constructing an undercut tooth generator without ref_limits uses the default ToothLimitParam.", "quantifier": "for every constructor argument combination of InvoluteUndercutTooth, OctoidTooth and OctoidUndercutTooth", "why_tests_cant": "Constructor paths nobody calls in tests.", "anchors": ["src/gggears/gearteeth.py:InvoluteUndercutTooth.__init__", "src/gggears/gearteeth.py:OctoidUndercutTooth.__init__", "src/gggears/gearteeth.py:OctoidTooth.__init__"]}
{"id": "C26", "title": "Involute mesh distance obeys the textbook law", "statement": "For two external involute gears with common module and pressure angle, mesh distance equals the sum of pitch radii without profile shift, and in general the working pressure angle satisfies inv(aw) = inv(a) + 2 tan(a)(x1+x2)/(z1+z2) with distance (rb1+rb2)/cos(aw); for a ring and a pinion without shift it is the difference of pitch radii.", "quantifier": "for all tooth counts, modules, pressure angles in (0, pi/2) and profile shifts, for any root the solver returns in (-pi/2, pi/2)", "why_tests_cant": "Continuum of designs; the equation's root must be unique for the result to be determined.", "anchors": ["src/gggears/gearmath.py:calc_involute_mesh_distance", "src/gggears/gggears_wrapper.py:InvoluteGear.mesh_to", "src/gggears/gggears_wrapper.py:InvoluteGear.calc_params"]}
{"id": "C27", "title": "Backlash recovered from the distance equals the prescribed backlash", "statement": "backlash_from_ax_distance is the inverse of calc_involute_mesh_distance: given the same gear data and the distance computed for backlash b, it returns b.", "quantifier": "for all base radii > 0, angles, pitch angles and backlash values for which the distance is defined", "why_tests_cant": "Inverse law over a continuum; the function is never called in tests.", "anchors": ["src/gggears/gearmath.py:backlash_from_ax_distance", "src/gggears/gearmath.py:calc_involute_mesh_distance"]}
{"id": "C28", "title": "More backlash means larger centre distance", "statement": "For external gears with positive working pressure angle the mesh distance is strictly increasing in the prescribed backlash, and at least the sum of base radii.", "quantifier": "for all base radii > 0 and backlash values b1 < b2 whose solutions lie in [0, pi/2)", "why_tests_cant": "Monotonicity over all pairs.", "anchors": ["src/gggears/gearmath.py:calc_involute_mesh_distance"]}
{"id": "C29", "title": "mesh_to puts the gear on the requested side at the mesh distance", "statement": "After g.mesh_to(h, target_dir) on cylindrical gears, the centre of g is at the (positive) mesh distance from the centre of h in direction target_dir; the result does not depend on the length of target_dir.", "quantifier": "for every pair of cylindrical gears (ring or not), every non-zero target direction", "why_tests_cant": "All gear kinds in both roles and non-unit directions.", "anchors": ["src/gggears/gggears_wrapper.py:InvoluteGear.mesh_to", "src/gggears/gggears_wrapper.py:CycloidGear.mesh_to"]}
{"id": "C30", "title": "Mesh angle puts a tooth of one gear in a gap of the other", "statement": "After meshing two external gears, the fractional tooth phase of gear 1 at the contact direction plus that of gear 2 is 1/2 modulo 1 (tooth centre faces gap centre); for a ring and pinion the phases are equal modulo 1.", "quantifier": "for every pair of placements with rotation orientations, centres and positive pitch angles", "why_tests_cant": "Modular arithmetic over a continuum including wrap-around.", "anchors": ["src/gggears/gearmath.py:calc_mesh_angle"]}
{"id": "C31", "title": "Mesh angle transmits motion by the gear ratio and is bounded", "statement": "The mesh angle lies in [target, target + pitch_1); rotating gear 2 by a whole pitch does not change it; rotating gear 2 by d changes it by -d*p1/p2 (external) or +d*p1/p2 (ring) modulo pitch_1.", "quantifier": "for every placement, pitch angle > 0 and rotation d", "why_tests_cant": "Wrap-around cases and all d.", "anchors": ["src/gggears/gearmath.py:calc_mesh_angle"]}
{"id": "C32", "title": "Meshed bevel gears share the cone apex and roll on each other", "statement": "After placing a bevel gear against another (external mesh), both pitch cones have the same apex, the angle between the axes is gamma1+gamma2, and the cones touch along one common generator line.", "quantifier": "for every pair of bevel gears with half cone angles in (0,pi/2) and equal cone distance, every orientation/centre of the fixed gear and every target direction whose angle to its axis has sine at least 1e-12 (the tolerance of the code)", "why_tests_cant": "Continuum of placements in 3D.", "anchors": ["src/gggears/gearmath.py:calc_mesh_orientation", "src/gggears/gearmath.py:calc_bevel_gear_placement_vector", "src/gggears/gggears_base_classes.py:ConicData"]}
{"id": "C33", "title": "cone_angle_from_teeth gives rolling cones for the requested shaft angle", "statement": "The returned cone angles satisfy gamma1 + gamma2 = shaft angle and sin(gamma1)/sin(gamma2) = z1/z2.", "quantifier": "for all tooth counts >= 1 and shaft angles in (0, pi)", "why_tests_cant": "All shaft angles; the common 90 degree case hides the general one.", "anchors": ["src/gggears/gearmath.py:cone_angle_from_teeth"]}
{"id": "C34", "title": "Line of action is tangent to both base circles", "statement": "Each line returned by the line-of-action generator is tangent to both base circles, for external pairs and for ring pairs, and for external pairs it passes through the point dividing the centre line in the ratio of base radii.", "quantifier": "for all coplanar placements with centre distance large enough for the arccos to be defined", "why_tests_cant": "Continuum of placements and ring/non-ring branches.", "anchors": ["src/gggears/gggears_wrapper.py:LineOfAction"]}
{"id": "C35", "title": "Meshing helical gears crosses the axes by the right angle", "statement": "Meshing an external helical pair tilts the axis by the sum of helix angles (0 for opposite hands), and meshing a helical gear into a helical ring gear of the same helix angle leaves the axes parallel.", "quantifier": "for all helix angles and placements", "why_tests_cant": "All helix angles and both gear kinds in both roles.", "anchors": ["src/gggears/gggears_wrapper.py:HelicalGear.mesh_to"]}
{"id": "C36", "title": "Every history of calls keeps orientations rotations and touches only the receiver", "statement": "After any sequence of construction, mesh_to and reset_location calls on any number of gears, each gear's orientation is still a rotation matrix, its scale still equals its module, and each call changes only the gear it was called on.", "quantifier": "for every finite history of calls on every set of gears", "why_tests_cant": "Unbounded histories.", "anchors": ["src/gggears/gggears_wrapper.py:InvoluteGear.mesh_to", "src/gggears/gggears_wrapper.py:InvoluteGear.reset_location", "src/gggears/gggears_wrapper.py:HelicalGear.mesh_to"]}
{"id": "C37", "title": "mesh_to is idempotent", "statement": "Calling mesh_to twice with the same arguments gives the same placement as calling it once, whatever the placement was before.", "quantifier": "for every prior placement of the receiver and every partner", "why_tests_cant": "All prior states.", "anchors": ["src/gggears/gggears_wrapper.py:InvoluteGear.mesh_to", "src/gggears/gearmath.py:calc_mesh_angle"]}
{"id": "C38", "title": "Length parameter: ends map to ends, order is kept", "statement": "After update_lengths, s=0 evaluates the curve at t_0 and s=1 at t_1, and s -> t is monotone on [0,1] (increasing if t_0<=t_1).", "quantifier": "for every curve function, t range and number of subdivisions >= 2", "why_tests_cant": "All curve functions, including ones with repeated points.", "anchors": ["src/gggears/curve.py:Curve.s2t", "src/gggears/curve.py:Curve.update_lengths", "src/gggears/curve.py:Curve.__call__"]}
{"id": "C39", "title": "s2t and t2s are mutually inverse", "statement": "t2s(s2t(s)) = s and s2t(t2s(t)) = t on the whole line (including extrapolation), when the curve has no repeated sample points.", "quantifier": "for every curve with t_0 < t_1 and strictly positive sample segment lengths; every s and t", "why_tests_cant": "Piecewise-linear tables of arbitrary size.", "anchors": ["src/gggears/curve.py:Curve.s2t", "src/gggears/curve.py:Curve.t2s"]}
{"id": "C40", "title": "Reversing a curve runs it backwards", "statement": "After reverse(), the curve evaluated at s equals the original at 1-s; reversing twice restores the original.", "quantifier": "for every curve and every s in [0,1]", "why_tests_cant": "All curves, in particular with non-uniform speed.", "anchors": ["src/gggears/curve.py:Curve.reverse", "src/gggears/curve.py:CurveChain.reverse", "src/gggears/curve.py:NurbCurve.reverse"]}
{"id": "C41", "title": "Trimming keeps exactly the requested piece", "statement": "set_start_on(s)/set_end_on(s) make the new start/end the old point at s and keep the other end; cut(s) returns two curves that meet at the old point at s and keep the outer ends.", "quantifier": "for every curve and every s", "why_tests_cant": "All curves and parameters.", "anchors": ["src/gggears/curve.py:Curve.set_start_on", "src/gggears/curve.py:Curve.set_end_on", "src/gggears/curve.py:Curve.cut", "src/gggears/curve.py:Curve.set_start_and_end_on"]}
{"id": "C42", "title": "Lengths add up when a curve is cut", "statement": "The lengths of the two pieces returned by cut add to the length of the original, and lengths are never negative, for line and arc curves.", "quantifier": "for every line/arc and every cut position in [0,1]", "why_tests_cant": "All geometry and cut positions.", "anchors": ["src/gggears/curve.py:LineCurve.update_lengths", "src/gggears/curve.py:ArcCurve.update_lengths", "src/gggears/curve.py:Curve.cut"]}
{"id": "C43", "title": "Chain lookup always lands on an active curve with length", "statement": "For a chain with positive total length, the index found for s belongs to an active curve, the local parameter is in [0,1] for s in [0,1], and s is reproduced by the length portions of that curve.", "quantifier": "for every list of active/inactive curves with non-negative lengths and every s", "why_tests_cant": "Unbounded lists with inactive and zero-length members and boundary values of s.", "anchors": ["src/gggears/curve.py:CurveChain.get_s_index", "src/gggears/curve.py:CurveChain.get_length_portions"]}
{"id": "C44", "title": "A chain of touching curves is one continuous path", "statement": "If consecutive active curves meet end to start and each is continuous, the chain is continuous in s, starts at the start of its first active curve and ends at the end of its last active curve.", "quantifier": "for every chain of curves with positive lengths", "why_tests_cant": "Continuity over all s, unbounded chains.", "anchors": ["src/gggears/curve.py:CurveChain.__call__", "src/gggears/curve.py:CurveChain.curve_list_eval", "src/gggears/curve.py:CurveChain.get_s_index"]}
{"id": "C45", "title": "Trimming a chain keeps exactly the requested piece", "statement": "set_start_on / set_end_on / set_start_and_end_on on a chain make the chain start/end at the points it previously had at the given parameters.", "quantifier": "for every chain and parameters s0 < s1 in [0,1]", "why_tests_cant": "Interaction of two trims over all chains.", "anchors": ["src/gggears/curve.py:CurveChain.set_start_on", "src/gggears/curve.py:CurveChain.set_end_on", "src/gggears/curve.py:CurveChain.set_start_and_end_on", "src/gggears/curve.py:CurveChain.cut"]}
{"id": "C46", "title": "Chains behave like lists of curves", "statement": "append/insert/extend/pop/del/reverse on a chain act on the member list as on a Python list (and the chain keeps evaluating), reverse returning the chain like it does for any other curve. A chain is active exactly if its flag is set and a member is active, and an inactive chain counts with length 0 in the chain around it.", "quantifier": "for every chain and every sequence of list operations", "why_tests_cant": "Unbounded operation sequences.", "anchors": ["src/gggears/curve.py:CurveChain.__delitem__", "src/gggears/curve.py:CurveChain.append", "src/gggears/curve.py:CurveChain.insert", "src/gggears/curve.py:CurveChain.pop", "src/gggears/curve.py:CurveChain.reverse"]}
{"id": "C47", "title": "Curve arithmetic is pointwise at the ends", "statement": "(a+b), (a-b), (k*a) and (a/k) start and end at the corresponding combination of the operands' start and end points.", "quantifier": "for all curves, any parameter range, and scalars k (non-zero for division)", "why_tests_cant": "All parameter ranges; curves over [0,1] hide the failure.", "anchors": ["src/gggears/curve.py:Curve.__add__", "src/gggears/curve.py:Curve.__sub__", "src/gggears/curve.py:Curve.__mul__", "src/gggears/curve.py:Curve.__truediv__"]}
{"id": "C48", "title": "Numerical derivative works for every order and is exact on polynomials of low degree", "statement": "Curve.derivative(t,n=k) returns a value for every order k>=1; for affine curves the first order value is the exact velocity for every direction mode.", "quantifier": "for every order n >= 1 and direction", "why_tests_cant": "Orders above 1 are not exercised.", "anchors": ["src/gggears/curve.py:Curve.derivative"]}
{"id": "C49", "title": "Arc constructors go through their defining points", "statement": "An arc built from two points and a centre starts at the first, ends at the second and keeps constant distance from the centre; an arc built from point/centre/angle starts at the point and turns by the angle; an arc built from radius/centre/angle has that radius about that centre.", "quantifier": "for all point triples on a common circle (not collinear with the centre)", "why_tests_cant": "Continuum of configurations.", "anchors": ["src/gggears/curve.py:ArcCurve.from_2_point_center", "src/gggears/curve.py:ArcCurve.from_point_center_angle", "src/gggears/curve.py:ArcCurve.from_radius_center_angle", "src/gggears/curve.py:ArcCurve.arcfunc"]}
{"id": "C50", "title": "Transforming a line or arc equals transforming its points", "statement": "LineCurve.transform and ArcCurve.transform return a curve that evaluates at s to the transform of what the original evaluates to at s.", "quantifier": "for every line/arc (trimmed or not), every similarity transform with positive scale, every s", "why_tests_cant": "Trimmed curves and all s.", "anchors": ["src/gggears/curve.py:LineCurve.transform", "src/gggears/curve.py:ArcCurve.transform"]}
{"id": "C51", "title": "Mirroring is an involutive isometry", "statement": "MirroredCurve preserves distances to every point of the mirror plane, mirroring twice gives the original, and the points of the plane are fixed.", "quantifier": "for every curve, unit plane normal and centre", "why_tests_cant": "All curves and planes.", "anchors": ["src/gggears/curve.py:MirroredCurve"]}
{"id": "C52", "title": "NURBS curve points, weights and knots are one consistent flat representation", "statement": "For a continuous NURBSCurve, reading points/weights/knots and rebuilding with from_points gives the same member curves; writing points and reading them back returns what was written; knots are the prefix sums of member degrees.", "quantifier": "for every continuous NURBS curve with any number of members (each with >= 2 control points)", "why_tests_cant": "Unbounded member lists and index arithmetic.", "anchors": ["src/gggears/curve.py:NURBSCurve.points", "src/gggears/curve.py:NURBSCurve.knots", "src/gggears/curve.py:NURBSCurve.from_points"]}
{"id": "C53", "title": "enforce_continuity makes the NURBS curve continuous", "statement": "After enforce_continuity every member ends exactly where the next one starts, interior control points and weights are unchanged, and doing it again changes nothing.", "quantifier": "for every NURBS curve whose members have >= 2 control points", "why_tests_cant": "Unbounded lists.", "anchors": ["src/gggears/curve.py:NURBSCurve.enforce_continuity"]}
{"id": "C54", "title": "Reference circles have the prescribed radii", "statement": "For cylindrical gears the addendum/dedendum/outside reference circles have radii rp+h_a, |rp-h_d| and max(rp-h_o, DELTA); for conical gears the corresponding circles lie on the gear's sphere at cone half-angles gamma + h/R.", "quantifier": "for every pitch radius, limits and cone angle", "why_tests_cant": "Continuum and the clamping branch.", "anchors": ["src/gggears/gggears_core.py:generate_reference_circles"]}
{"id": "C55", "title": "The tooth profile is continuous and tiles the gear", "statement": "The reference profile (root arc, flank, tip arc, mirrored flank) is continuous, and its start rotated by one pitch is its end, so consecutive teeth join without gaps; for a full gear with integer tooth count the boundary closes.", "quantifier": "for every flank curve, pitch angle and tooth count, provided mirrored end points do not coincide", "why_tests_cant": "All flanks and counts.", "anchors": ["src/gggears/gggears_core.py:trim_reference_profile", "src/gggears/gggears_core.py:generate_boundary_chain", "src/gggears/gggears_core.py:generate_boundary"]}
{"id": "C56", "title": "Continuous and chain boundary agree", "statement": "The boundary of a gear at height z requested as one continuous curve traces the same points as the boundary requested as a chain of tooth curves.", "quantifier": "for every gear and every z", "why_tests_cant": "All z; z=0 hides the difference.", "anchors": ["src/gggears/gggears_core.py:generate_boundary", "src/gggears/gggears_core.py:generate_boundary_chain", "src/gggears/gggears_wrapper.py:GearInfoMixin.boundary_at_z"]}
{"id": "C57", "title": "Tip reduction never lengthens a tooth", "statement": "apply_tip_reduction never returns an addendum radius above the requested one, and stays above the dedendum limit by construction.", "quantifier": "for every solver outcome and every tip reduction", "why_tests_cant": "All solver outcomes.", "anchors": ["src/gggears/gggears_core.py:apply_tip_reduction"]}
{"id": "C58", "title": "Closed tooth outlines are closed", "statement": "The outlines offered for a single tooth (profile_closed, tooth_profile_closed_outer, tooth_profile_closed_ring) are continuous closed chains.", "quantifier": "for every reference profile", "why_tests_cant": "All profiles.", "anchors": ["src/gggears/gggears_core.py:GearRefProfileExtended"]}
{"id": "C59", "title": "Evaluating a recipe is pure and settles", "statement": "Evaluating a z-dependent recipe at z does not change the recipe, replaces every callable by its value at z, and evaluating the result again at any z' changes nothing.", "quantifier": "for every nesting of recipe data and every z, z'", "why_tests_cant": "Unbounded nesting.", "anchors": ["src/gggears/gggears_base_classes.py:ZFunctionMixin.__call__", "src/gggears/gggears_base_classes.py:eval_callables", "src/gggears/gggears_base_classes.py:make_callables"]}
{"id": "C60", "title": "Tooth parameters are normalised", "statement": "GearToothParam with a negative count equals the one with the positive count and toggled inside flag; the number of actual teeth is at most the nominal number minus cutout and more than it minus one; pitch angle times nominal count is 2 pi.", "quantifier": "for every non-zero tooth count and cutout", "why_tests_cant": "All counts including fractional and negative.", "anchors": ["src/gggears/gggears_base_classes.py:GearToothParam"]}
{"id": "C61", "title": "A negative tooth count means the other gear kind", "statement": "Constructing any gear with -n teeth is equivalent to constructing it with n teeth and the opposite inside_teeth setting.", "quantifier": "for every gear class and every n > 0", "why_tests_cant": "All classes and counts.", "anchors": ["src/gggears/gggears_wrapper.py:InvoluteGear.__init__", "src/gggears/gggears_wrapper.py:HelicalRingGear", "src/gggears/gggears_wrapper.py:CycloidGear.__init__"]}
{"id": "C62", "title": "Crowning leaves the middle of the tooth nominal", "statement": "With crowning, the tooth thickness at mid height is the nominal one and reduction is symmetric about mid height.", "quantifier": "for every module, height, z_anchor and crowning value", "why_tests_cant": "Modules other than 1 and anchors other than 0.", "anchors": ["src/gggears/gggears_wrapper.py:InvoluteGear.calc_params", "src/gggears/gggears_wrapper.py:InvoluteGear.crowning_func"]}
{"id": "C63", "title": "Conical slices share one apex and helices have the right lead", "statement": "Every z-slice of a conical gear shares the same apex; with helix angle b, the pitch point of the slice at z is rotated so that its tangential displacement at the pitch radius is z tan(b).", "quantifier": "for every tooth count, cone angle, helix angle and z", "why_tests_cant": "All z.", "anchors": ["src/gggears/gggears_wrapper.py:InvoluteGear.calc_params"]}
{"id": "C64", "title": "Helical parameters are converted between normal and transverse planes consistently", "statement": "The transverse module is the normal module over cos(beta), the transverse pressure angle satisfies tan(at) = tan(an)/cos(beta), absolute addendum/dedendum/profile shift equal coefficient times normal module, and herringbone twist is symmetric about its middle section.", "quantifier": "for every helix angle with cos > 0, module, pressure angle and coefficient", "why_tests_cant": "All angles.", "anchors": ["src/gggears/gggears_wrapper.py:HelicalGear.calc_params", "src/gggears/gggears_wrapper.py:HelicalGear.herringbone_mod"]}
{"id": "C65", "title": "Refining the height sections keeps the gear's height", "statement": "Inserting intermediate sections keeps the z list sorted, keeps both ends and every old section, and bounds the twist per section.", "quantifier": "for every height, module, anchor and helix angle", "why_tests_cant": "All values.", "anchors": ["src/gggears/gggears_wrapper.py:HelicalGear.calc_params", "src/gggears/gggears_wrapper.py:InvoluteGear.calc_params"]}
{"id": "C66", "title": "Measured size does not depend on where the gear is", "statement": "face width reported by a gear (z_height) does not change when the gear is moved, and covers the full height for herringbone gears.", "quantifier": "for every gear and every placement", "why_tests_cant": "All placements; the origin hides the failure.", "anchors": ["src/gggears/gggears_wrapper.py:GearInfoMixin.z_height"]}
{"id": "C67", "title": "The reported sphere centre is the cone apex", "statement": "For a bevel gear the reported spherical centre is the apex of its pitch cone in world coordinates: centre + orientation * (0,0, rp/tan(gamma)) * module.", "quantifier": "for every placement of a bevel gear", "why_tests_cant": "All placements; the origin hides the failure.", "anchors": ["src/gggears/gggears_wrapper.py:GearInfoMixin.center_spherical", "src/gggears/gggears_base_classes.py:ConicData.center"]}
{"id": "C68", "title": "Writable gear properties read back", "statement": "After assigning center, angle, module or cone_angle on a gear, reading the property returns the assigned value and geometry derived from it is consistent.", "quantifier": "for every gear and value", "why_tests_cant": "All values.", "anchors": ["src/gggears/gggears_wrapper.py:GearInfoMixin.module", "src/gggears/gggears_wrapper.py:GearInfoMixin.cone_angle", "src/gggears/gggears_wrapper.py:GearInfoMixin.center"]}
{"id": "C69", "title": "reset_location restores the original placement", "statement": "reset_location after any history returns the gear to the centre and angle it was constructed with.", "quantifier": "for every constructor placement and every history", "why_tests_cant": "Unbounded histories; default placement hides the failure.", "anchors": ["src/gggears/gggears_wrapper.py:InvoluteGear.reset_location"]}
{"id": "C70", "title": "Queries do not move the gear", "statement": "Building a boundary wire leaves the gear's placement unchanged.", "quantifier": "for every gear and z ratio", "why_tests_cant": "Any number of queries; the change is a whole turn for integer counts and is invisible in pictures.", "anchors": ["src/gggears/gggears_wrapper.py:InvoluteGear.build_boundary_wire", "src/gggears/gggears_build123d.py:generate_boundary_edges"]}
{"id": "C71", "title": "adapt_cycloid_radii makes partners conjugate without moving them", "statement": "After adapt, each external gear's outside rolling circle has the same absolute radius as the partner's inside rolling circle (for a gear in a ring gear, whose pitch circles curve the same way, inside equals inside and outside equals outside), adapting again changes nothing, and placements are kept.", "quantifier": "for every pair of cycloid gears with equal module and every prior history", "why_tests_cant": "Unbounded histories.", "anchors": ["src/gggears/gggears_wrapper.py:CycloidGear.adapt_cycloid_radii"]}
{"id": "C72", "title": "Rack meshing stays within half a pitch and is periodic", "statement": "Meshing a rack to a gear shifts the rack by less than a pitch along its direction, turning the gear by whole pitches does not change the result, and turning it by d shifts the rack by rp*d modulo a pitch.", "quantifier": "for every gear placement and rotation", "why_tests_cant": "Wrap-around cases.", "anchors": ["src/gggears/gggears_wrapper.py:InvoluteRack.mesh_to"]}
{"id": "C73", "title": "Moving a rack never corrupts shared constants", "statement": "Setting the centre of rack reference lines changes only that rack; direction constants such as UP keep their values.", "quantifier": "for every sequence of rack creations and centre assignments", "why_tests_cant": "Aliasing shows only through later, unrelated calls.", "anchors": ["src/gggears/gggears_base_classes.py:RackRefLines", "src/gggears/gggears_core.py:generate_reference_lines", "src/gggears/gggears_base_classes.py:RackRefLines.center"]}
{"id": "C74", "title": "A failed build leaves the gear unchanged", "statement": "If building the CAD part fails at any step, the gear object (in particular its z sections) is as before the call; a successful build does not change it either.", "quantifier": "for every failure point and any number of retries", "why_tests_cant": "Crash points.", "anchors": ["src/gggears/gggears_build123d.py:GearBuilder.__init__"]}
{"id": "C75", "title": "Tooth patterning covers each tooth exactly once", "statement": "The doubling scheme that fuses tooth copies produces each of the n tooth positions exactly once.", "quantifier": "for every tooth count n >= 1", "why_tests_cant": "All n.", "anchors": ["src/gggears/gggears_build123d.py:GearBuilder_old.__init__"]}
{"id": "C76", "title": "Boundary edges cover exactly the actual teeth", "statement": "generate_boundary_edges emits one rotated copy of the profile per actual tooth.", "quantifier": "for every tooth count including fractional counts and cutouts", "why_tests_cant": "Fractional counts.", "anchors": ["src/gggears/gggears_build123d.py:generate_boundary_edges", "src/gggears/gggears_base_classes.py:GearToothParam.num_teeth_act"]}
{"id": "C77", "title": "Section count rule", "statement": "The number of intermediate sections used for surface fitting is at least the number of vertical control points and at least 2.", "quantifier": "for every n_points_vert >= 2 and oversampling ratio >= 1", "why_tests_cant": "All values.", "anchors": ["src/gggears/gggears_convert.py:GearToNurbs", "src/gggears/gggears_wrapper.py:InvoluteGear.build_part"]}
{"id": "C78", "title": "The affine matrix of a transform represents it", "statement": "Multiplying affine_matrix with the homogeneous point (p, 1) gives the transformed point, for Transform and GearTransform, and the matrix of a product of Transforms is the product of the matrices.", "quantifier": "for every transform and point", "why_tests_cant": "Infinitely many transforms; a wrong entry can be invisible for symmetric samples.", "anchors": ["src/gggears/gggears_base_classes.py:TransformData.affine_matrix", "src/gggears/gggears_base_classes.py:GearTransformData.affine_matrix"]}
{"id": "C79", "title": "A plain transform times a gear transform composes", "statement": "Applying Transform * GearTransform to a point equals applying the gear transform and then the plain one.", "quantifier": "for every plain transform, every gear transform with rotation-matrix orientation and non-zero scale, every point", "why_tests_cant": "The gear's spin angle must survive for every angle, tests usually use angle 0.", "anchors": ["src/gggears/gggears_base_classes.py:TransformData.__mul__", "src/gggears/gggears_base_classes.py:Transform"]}
{"id": "C80", "title": "Bevel flanks cross the pitch circle where and how they are asked to", "statement": "For a conical tooth, the involute and octoid flanks pass through the pitch circle (plane z = 0) at polar angle -pitch_intersect_angle, and the octoid's tangent there makes the pressure angle with the direction of the tooth height.", "quantifier": "for every pitch radius > 0, cone angle and intersect angle; involute: for every root returned by the solver on the forward side", "why_tests_cant": "Continuum of cone and pressure angles.", "anchors": ["src/gggears/gearteeth.py:InvoluteTooth.generate_involute_curve", "src/gggears/gearteeth.py:OctoidTooth.generate_octoid_curve"]}
{"id": "C81", "title": "The undercut curve is the path of the rack corner", "statement": "The undercut curve starts at the rack corner handed to it and moves exactly as that corner does when the rack rolls without slip on the pitch circle (spur) or the crown rack rolls on the pitch cone (bevel).", "quantifier": "for every pitch radius > 0, reference point, cone angle in (-pi, pi) and t", "why_tests_cant": "A trochoid differs from similar curves by small amounts that sampling does not show.", "anchors": ["src/gggears/gearteeth.py:generate_undercut_curve", "src/gggears/function_generators.py:involute_circle", "src/gggears/function_generators.py:involute_sphere"]}
{"id": "C82", "title": "The reference rack flank has the requested pressure angle and heights", "statement": "The rack flank goes from radius rp - h_d to rp + h_a, crosses the pitch line at height -rp * pitch_intersect_angle, and rises by tan(pressure_angle) per unit of radius.", "quantifier": "for every radius, intersect angle, limits and pressure angle in (-pi/2, pi/2)", "why_tests_cant": "All pressure angles and limits.", "anchors": ["src/gggears/gearteeth.py:generate_involute_rack_curve", "src/gggears/gearteeth.py:generate_flat_rack_curve"]}
{"id": "C83", "title": "The spherical involute is the unwinding of a taut great circle", "statement": "The tracing point and the contact point on the base circle lie on a great circle tangent to the base circle, the angle between them seen from the sphere centre is the unwound base arc divided by the sphere radius, and the velocity is normal to that great circle.", "quantifier": "for every base radius <= sphere radius, curvature sign, start angle, offset and t", "why_tests_cant": "Continuum of radii and curvatures.", "anchors": ["src/gggears/function_generators.py:involute_sphere"]}
{"id": "C84", "title": "Meshed spur flanks are conjugate with the prescribed clearance", "statement": "After mesh_to with backlash b and angle_bias, while the gears turn with the ratio of their pitch angles, each pair of facing flanks keeps a common normal and a constant gap along it: b/2*(1+bias) on one side and b/2*(1-bias) on the other; with bias 1 or -1 one side touches and the other has the full backlash.", "quantifier": "for all pairs of cylindrical gears with equal base pitch (external pair, and pinion in ring), every placement and rotation of the partner, every target direction in its plane, every backlash and bias, every rotation angle and every tooth", "why_tests_cant": "The statement is about every rotation angle and a continuum of gear data; a test can only sample a few positions and cannot tell a small interference from rounding.", "anchors": ["src/gggears/gggears_wrapper.py:InvoluteGear.mesh_to", "src/gggears/gearmath.py:calc_involute_mesh_distance", "src/gggears/gearmath.py:calc_mesh_angle", "src/gggears/function_generators.py:involute_circle"]}
{"id": "C85", "title": "After mesh_to the axes are at the mesh distance", "statement": "After mesh_to on cylindrical gears the distance between the two (parallel) axes equals the computed mesh distance, for every target direction that is not parallel to the axis.", "quantifier": "for all pairs of cylindrical gears and all target directions, also those with a component along the axis", "why_tests_cant": "Continuum of directions; tests only use directions in the gear plane.", "anchors": ["src/gggears/gggears_wrapper.py:InvoluteGear.mesh_to"]}
{"id": "C86", "title": "Start angle of an arc is counted from one documented direction", "statement": "An arc built from radius, centre, angles and axis starts at angle_start from the direction UP x axis, turned about the axis.", "quantifier": "for every unit axis, radius, centre and start angle", "why_tests_cant": "Depends on Euler angle decompositions that are generic only for tilted axes.", "anchors": ["src/gggears/curve.py:ArcCurve.from_radius_center_angle"]}
{"id": "C87", "title": "An arc from two points and a curvature goes through both points", "statement": "from_2_point_curvature returns an arc that starts at p0, ends at p1, has radius 1/abs(curvature) (at least half the distance) and turns about the given axis for positive and against it for negative curvature.", "quantifier": "for all distinct points, nonzero curvatures and axes not parallel to the chord", "why_tests_cant": "Continuum of configurations; the clamped case is a measure-zero looking branch that covers all tight curvatures.", "anchors": ["src/gggears/curve.py:ArcCurve.from_2_point_curvature"]}
{"id": "C88", "title": "Side surfaces of neighbouring height sections share their edge", "statement": "The side surface built for the gear between two neighbouring heights z_vals starts exactly on the tooth profile at the lower height and ends exactly on the one at the upper height, whatever the surface optimiser returns; so the surfaces of neighbouring sections join without a gap.", "quantifier": "for every profile, list of heights, number of vertical control points >= 2, oversampling ratio >= 1 and optimiser outcome", "why_tests_cant": "The optimiser runs on floats and each test sees one converged result; a test cannot cover outcomes of failed or partial convergence.", "anchors": ["src/gggears/gggears_convert.py:GearToNurbs.generate_surface_points_sides", "src/gggears/gggears_convert.py:GearToNurbs.solve_surface", "src/gggears/gggears_convert.py:GearToNurbs.generate_gear_stacks"]}
{"id": "C89", "title": "Surface patches tile the profile", "statement": "get_patches cuts a side surface into one patch per profile segment, each with exactly the control points and weights of that segment, and neighbouring patches share their border column.", "quantifier": "for every list of segments with at least two points each and every row of control points", "why_tests_cant": "The number of segments and the points per segment vary with fillets, undercut and resolution; tests fix one layout.", "anchors": ["src/gggears/gggears_convert.py:NurbSurfaceData.get_patches", "src/gggears/curve.py:NURBSCurve.knots"]}
{"id": "C90", "title": "Nominal mesh distance", "statement": "calc_nominal_mesh_distance does not depend on the order of the gears and is never below the distance mesh_to uses; both agree exactly when the profile shifts cancel (external pair) or are equal (ring and pinion).", "quantifier": "for every pair of involute gears with non-negative working pressure angle", "why_tests_cant": "Continuum of shifts and pressure angles.", "anchors": ["src/gggears/gearmath.py:calc_nominal_mesh_distance", "src/gggears/gearmath.py:calc_involute_mesh_distance"]}
{"id": "C91", "title": "Tooth thickness on the pitch circle", "statement": "Both flanks of every tooth cross the pitch circle, symmetric about the middle of the tooth, at a distance (along the arc) of module*(pi/2 + 2*shift*tan(pressure angle) - 2*backlash).", "quantifier": "for every cylindrical involute gear without crowning that can be built, every tooth", "why_tests_cant": "Continuum of parameters; a wrong scaling of the backlash by the radius only shows for other tooth counts.", "anchors": ["src/gggears/gggears_wrapper.py:InvoluteGear.calc_params", "src/gggears/gearteeth.py:InvoluteTooth.generate_involute_curve"]}
{"id": "C92", "title": "Meshed bevel gears put tooth against gap", "statement": "After mesh_to of bevel gears with whole tooth counts, at the common generator of the two pitch cones a tooth of one gear lies in a gap of the other one, for an external pair, a pinion placed in a ring and a ring placed around a pinion.", "quantifier": "for all cone angles below 90 degrees, tooth counts, placements of the partner and target directions off its axis", "why_tests_cant": "Continuum of orientations; phase errors by half a pitch or a mirrored ring flag show only for some parities and directions.", "anchors": ["src/gggears/gggears_wrapper.py:InvoluteGear.mesh_to", "src/gggears/gearmath.py:calc_mesh_angle"]}
{"id": "C93", "title": "Orientation of a meshed gear", "statement": "calc_mesh_orientation keeps the orientation of gear 2 for cylindrical gears. Otherwise it tilts the axis away from the target direction (projected into the plane of gear 2, or gear 2's x axis if the target is along the axis) by the sum of the cone half angles plus offset/R for external gears, by their difference with the offset added for a ring gear 2 and subtracted for a ring gear 1, and leaves the common perpendicular where it is.", "quantifier": "for all cone angles, offsets, target directions and orientations of gear 2", "why_tests_cant": "The fallback direction and offset are reached by no test in the repository.", "anchors": ["src/gggears/gearmath.py:calc_mesh_orientation"]}
{"id": "C94", "title": "Cutting a chain splits it at the parameter", "statement": "CurveChain.cut(s) returns two chains that together follow the original one: the first at u is the chain at s*u, the second at u is the chain at s+(1-s)*u, and their lengths are in the ratio s to 1-s.", "quantifier": "for every chain and every s strictly between 0 and 1 that is not a joint", "why_tests_cant": "Continuum of parameters and segment lengths.", "anchors": ["src/gggears/curve.py:CurveChain.cut"]}
{"id": "C95", "title": "A meshed rack puts its teeth into the spaces of the gear", "statement": "After rack.mesh_to(gear), with the same module, every tooth centre of the rack lies on the pitch line where the middle of a tooth space of the gear arrives when the pitch circle rolls on it.", "quantifier": "all racks (any tooth count), gears (any placement, angle, tooth count), target directions not along the axis", "why_tests_cant": "needs all angles, placements and tooth-count parities; a test samples a few", "anchors": ["gggears_wrapper.py:2217-2251", "gggears_wrapper.py:2176-2193"]}
{"id": "C96", "title": "A meshed rack's flanks are conjugate to the gear's", "statement": "After rack.mesh_to(gear), with the same normal module, pressure angle and helix angle, when the gear turns by any angle and the rack moves by pitch radius times that angle, in every cross-section each flank of each rack tooth faces one flank of the gear: both have a point on the same line of action with the same normal direction, at a distance along that line that does not depend on the motion and that is the sum of the backlashes (and the crowning) seen along the normal, zero without them.", "quantifier": "for all cylindrical InvoluteGear and HelicalGear objects (any placement and angle, profile shift, backlash, crowning), all racks and HelicalRack objects with the same data, all target directions not along the axis, all motions and all cross-sections; herringbone pairs with equal height and z_anchor 0", "why_tests_cant": "continuum of motions, cross-sections and placements", "anchors": ["gggears_wrapper.py:2114-2251", "gggears_wrapper.py:2326-2404", "gggears_wrapper.py:490-592", "gearteeth.py:43-107"]}
{"id": "C97", "title": "A meshed rack covers the heights of the gear", "statement": "After rack.mesh_to(gear), a rack with the gear's height occupies the same range of heights along the axis as the teeth of the gear.", "quantifier": "for all cylindrical InvoluteGear and HelicalGear objects (any z_anchor, placement), racks of the same height, target directions not along the axis", "why_tests_cant": "the default z_anchor is 0, so tests with default arguments never show the displacement", "anchors": ["gggears_wrapper.py:2217-2251", "gggears_wrapper.py:563-568"]}
{"id": "C98", "title": "Meshed cycloid gears are conjugate", "statement": "After adapt_cycloid_radii and mesh_to, while the two gears turn in the ratio of their tooth counts (opposite ways for external gears, the same way in a ring), in every cross-section each flank of each tooth touches a flank of the other gear with a common normal through the pitch point, so the transmission ratio is exactly constant. Epicycloid parts meet hypocycloid parts for external gears, and parts of the same kind meet in a ring.", "quantifier": "for all cylindrical cycloid gear pairs of one module with whole tooth counts and matching helix angles, all cycloid coefficients other than 0, every placement, every direction in the plane, every turn, tooth and height", "why_tests_cant": "The law of gearing is an infinite statement over positions; a test can only sample intersections of meshes.", "anchors": ["src/gggears/gggears_wrapper.py:CycloidGear.mesh_to", "src/gggears/gggears_wrapper.py:CycloidGear.adapt_cycloid_radii", "src/gggears/gearteeth.py:CycloidTooth", "src/gggears/function_generators.py:cycloid_circle"]}
{"id": "C99", "title": "Backlash gives play", "statement": "A positive backlash coefficient on meshed gears leaves play between the flanks: the gear can be turned between its two contacts by the sum of the backlashes on either side.", "quantifier": "for all cylindrical cycloid gear pairs of one module, external or with a ring gear, every placement and turn", "why_tests_cant": "Needs exact contact positions on curved flanks; ring gears with backlash are not tested.", "anchors": ["src/gggears/gggears_wrapper.py:CycloidGear.calc_params", "src/gggears/gggears_wrapper.py:CycloidGear.mesh_to"]}
{"id": "C100", "title": "A tangent arc touches both curves", "statement": "calc_tangent_arc and fillet_curve return an arc of the requested radius that starts at a point of the first curve in the direction in which that curve runs and ends at a point of the second curve in its direction, turning by less than half a turn, together with the parameters of these two points.", "quantifier": "for all curves, radii > 0 and starting locations, whenever the solver's answer is a root of the cost function (or the minimum distance reached is 0)", "why_tests_cant": "Tests look at a few corners; the statement is for all pairs of curves and all solver behaviours.", "anchors": ["src/gggears/curve.py:calc_tangent_arc", "src/gggears/curve.py:fillet_curve", "src/gggears/curve.py:Curve.derivative"]}
{"id": "C101", "title": "Filleting keeps a chain connected and keeps its ends", "statement": "fillet_at_locations returns the chain up to the first tangent point, the arc and the chain from the second tangent point on; consecutive pieces meet, the arc is tangent at both joints, untouched members stay as they are and the chain starts and ends where it did before.", "quantifier": "for every connected chain with positive member lengths, every radius > 0 and every root with both parameters on the chain", "why_tests_cant": "All chains and all positions of the tangent points.", "anchors": ["src/gggears/curve.py:CurveChain.fillet_at_locations", "src/gggears/curve.py:CurveChain.fillet", "src/gggears/curve.py:CurveChain.set_end_on", "src/gggears/curve.py:CurveChain.set_start_on"]}
{"id": "C102", "title": "A straight corner gets the classical fillet", "statement": "At a corner between two straight members that turns by phi, the equation of the fillet is solved on the two legs exactly by the points at distance r*tan(phi/2) from the corner; filleting shortens both legs by that amount, inserts the arc and changes the length of the chain by r*phi - 2*r*tan(phi/2); if the legs are long enough such a solution exists.", "quantifier": "for all corners, turning angles in (0, pi), radii > 0 and chains containing the corner", "why_tests_cant": "All angles and radii.", "anchors": ["src/gggears/curve.py:CurveChain.fillet_at_locations", "src/gggears/curve.py:CurveChain.fillet", "src/gggears/curve.py:fillet_curve"]}
{"id": "C103", "title": "Tooth fillets are tangent arcs of the requested radius", "statement": "If the tooth curve meets the root (tip) circle in the half pitch sector, apply_fillet replaces the corner by an arc of exactly the given radius that is tangent to the circle at one end and to the tooth at the other, ends where the tooth was cut, and leaves the rest of the tooth as it was; the new tooth curve is connected.", "quantifier": "for every connected tooth curve, reference circle, radius > 0 and pitch angle, for root and tip", "why_tests_cant": "All tooth shapes, radii and solver answers.", "anchors": ["src/gggears/gggears_core.py:apply_fillet", "src/gggears/curve.py:calc_tangent_arc"]}
{"id": "C104", "title": "A fillet that does not fit becomes half of a round gap or tip", "statement": "If the tooth curve does not meet the root (tip) circle in its half pitch, apply_fillet starts (ends) the tooth with half of an arc of the given radius that is tangent to the tooth and meets the middle plane of the gap (tooth) at a right angle, so that tooth and mirror image continue each other smoothly.", "quantifier": "for every connected tooth curve, radius > 0 and pitch angle, for root and tip", "why_tests_cant": "All tooth shapes, radii and solver answers.", "anchors": ["src/gggears/gggears_core.py:apply_fillet", "src/gggears/curve.py:MirroredCurve"]}
{"id": "C105", "title": "Without fillets the tooth is cut at the tip and root circles", "statement": "trim_reference_profile with no tip (root) fillet cuts the tooth curve where it meets the tip (root) circle or, if that is beyond the middle of the tooth (gap), at the middle plane; the other end of the tooth stays.", "quantifier": "for every tooth curve, reference circle and pitch angle, for root and tip", "why_tests_cant": "All tooth shapes and all solver answers, also the unsuccessful ones.", "anchors": ["src/gggears/gggears_core.py:trim_reference_profile", "src/gggears/curve.py:find_curve_intersect", "src/gggears/curve.py:find_curve_plane_intersect"]}
{"id": "C106", "title": "The profile lies between the root and the tip circle and reaches both", "statement": "The reference profile of a gear without fillets never leaves the ring between root and tip circle: its tip arc lies on the tip circle, its root arc on the root circle, and the flanks are in between. So the reported root and tip radii are those of the generated outline.", "quantifier": "for every tooth curve whose distance from the axis grows from root to tip and that meets both circles on its own side of the middle planes", "why_tests_cant": "All tooth shapes and all points of the profile.", "anchors": ["src/gggears/gggears_core.py:trim_reference_profile", "src/gggears/gggears_core.py:GearRefProfile.profile"]}
{"id": "C107", "title": "Exported edges are the curves", "statement": "The CAD edge that line_to_b123d / arc_to_b123d creates covers exactly the points of the curve: also after the curve has been reversed, trimmed with set_start_on / set_end_on or reoriented.", "quantifier": "for every line and arc and every sequence of reversals, trims and reorientations", "why_tests_cant": "All histories of the curve object and all points of the edge.", "anchors": ["src/gggears/gggears_build123d.py:arc_to_b123d", "src/gggears/gggears_build123d.py:line_to_b123d", "src/gggears/curve.py:ArcCurve"]}
{"id": "C108", "title": "Chain queries about continuity are right", "statement": "CurveChain.is_continuous is True only if the chain evaluated over its whole range never jumps by more than the tolerance, False only if it does jump; is_closed is True only if in addition start and end coincide up to the tolerance.", "quantifier": "for every chain of continuous curves, active and inactive", "why_tests_cant": "All chains and all parameters of the chain.", "anchors": ["src/gggears/curve.py:CurveChain.continuity_list", "src/gggears/curve.py:CurveChain.is_continuous", "src/gggears/curve.py:CurveChain.is_closed"]}
{"id": "C109", "title": "Flattening a nested chain keeps the curve", "statement": "get_curves() of a nested CurveChain returns its elementary curves in order, and the chain of these is the same curve with the same length at every parameter.", "quantifier": "for every nesting depth, every chain and every parameter", "why_tests_cant": "All nesting depths, all members and all parameters.", "anchors": ["src/gggears/curve.py:CurveChain.get_curves", "src/gggears/curve.py:CurveChain.update_lengths"]}
{"id": "C110", "title": "Clean-up of inactive members leaves no trace", "statement": "del_inactive_curves leaves a chain without inactive members that is the same curve with the same length; get_curves(lerp_inactive=True) replaces each inactive member by an inactive straight line from the end of its predecessor to the start of its successor, keeps the active ones and the path of the chain.", "quantifier": "for every chain and every parameter", "why_tests_cant": "All chains and all parameters.", "anchors": ["src/gggears/curve.py:CurveChain.del_inactive_curves", "src/gggears/curve.py:CurveChain.get_curves"]}
{"id": "C111", "title": "Conversion to NURBS keeps the path and the original", "statement": "convert_curve_nurbezier returns, for a line, an arc below a half turn, or a transformed one, a NurbCurve that runs through the same points in the same order as the input curve with its current range; for a chain, the converted members in order without the inactive ones; the input curve is not changed.", "quantifier": "for every line, arc, history of trims and reversals, nesting of transformations and chains", "why_tests_cant": "All ranges and nestings; a comparison of end points does not show a complementary arc.", "anchors": ["src/gggears/curve.py:convert_curve_nurbezier", "src/gggears/curve.py:TransformedCurve", "src/gggears/curve.py:NurbCurve"]}
{"id": "C112", "title": "Reported radii are those of the gear", "statement": "radii_data_gen(z) returns circles that contain the tip and root arcs of the placed slice, the placed pitch circle and the outside ring; addendum_radius and dedendum_radius are the distances of the tip and root of the first section's flank from the gear's axis; max_outside_radius is at least the distance of every profile point of every section.", "quantifier": "for every gear, position, height and tooth shape", "why_tests_cant": "All positions, cone angles and tooth shapes, including teeth that come to a point.", "anchors": ["src/gggears/gggears_wrapper.py:GearInfoMixin.radii_data_gen", "src/gggears/gggears_wrapper.py:GearInfoMixin.addendum_radius", "src/gggears/gggears_wrapper.py:GearInfoMixin.max_outside_radius"]}
{"id": "C113", "title": "Reported cone angles are those seen from the apex", "statement": "cone_angles_at_z(z) returns the angles under which the outside ring, the root, the pitch circle and the tip of the placed slice are seen from the apex of the gear's pitch cone; the pitch entry is half the cone angle at every height.", "quantifier": "for every bevel gear, position and height", "why_tests_cant": "The angle is found through an arcsine, which is only wrong beyond a right angle.", "anchors": ["src/gggears/gggears_wrapper.py:GearInfoMixin.cone_angles_at_z"]}
{"id": "C114", "title": "Reported centres and proportions agree", "statement": "center_point_at_z(p2z(t)) divides the segment from center_point_bottom to center_point_top in the ratio t to 1-t, center_point_middle is its midpoint, and the two ends are the axial height apart along the gear's axis.", "quantifier": "for every gear, position and proportion", "why_tests_cant": "All positions and proportions; section lists have two entries in most tests.", "anchors": ["src/gggears/gggears_wrapper.py:GearInfoMixin.proportion_to_z", "src/gggears/gggears_wrapper.py:GearInfoMixin.center_point_at_z", "src/gggears/gggears_wrapper.py:HelicalGear"]}
{"id": "C115", "title": "A gear made from a reference curve follows it", "statement": "`gear_recipe_from_curve` gives, for every height, a slice whose pitch circle passes at the tooth middle through the point of the reference curve for the scaled height, whose plane is perpendicular to the axis and whose cone angle is twice the half angle of the cone the curve runs on, up to the rounding. A core `Gear` without a recipe has the slices of the wrapper classes for the same cone angle: scale 1 - 2 z sin(gamma)/N, centre z cos(gamma) on the axis, no turn. This holds whatever the order of `z_vals`.", "quantifier": "All reference curves, scaling functions, tooth numbers, heights, roundings; for the default line all cone angles, z_vals and modules.", "why_tests_cant": "The cone angle comes from a difference quotient of arbitrary curves; samples cannot cover all curves and branches of arctan2.", "anchors": ["gggears_core.py:851-895", "gggears_core.py:901-948", "gggears_core.py:1076-1091", "gggears_base_classes.py:637-652"]}
{"id": "C116", "title": "Core gears mesh", "statement": "`Gear.mesh_to(other, target_dir)` places the gear so that the pitch circles (or the pitch cones) touch on the side of `target_dir`, wherever the partner is placed, whatever the common module and whatever the length of `target_dir`; cylindrical gears get parallel axes at distance rp1 + rp2 (the difference for a ring) with teeth facing gaps, conical gears get a common apex.", "quantifier": "All core gears, placements of the partner, modules, target directions.", "why_tests_cant": "Placement depends on continuous data and on three coordinate frames; a test looks at a few positions, usually the origin with module 1, where the errors do not show.", "anchors": ["gggears_core.py:1030-1073", "gearmath.py:289-406"]}
{"id": "C117", "title": "Sphere centres and pitch radius of a core gear", "statement": "`center_sphere` and `sphere_data_at_z` of a core `Gear` give the apex of the pitch cone of the placed gear, the same for every slice, and the distance of the pitch circle from it; `rp` is the radius of the placed pitch circle.", "quantifier": "All core gears with nonzero cone angle of either sign, transforms and heights.", "why_tests_cant": "The sign of the cone angle and the explicit transform are separate branches of continuous formulas.", "anchors": ["gggears_core.py:950-1004", "gggears_core.py:944-948"]}
{"id": "C118", "title": "The undercut tooth curve starts at the rack's corner, stays outside the root circle and is joined to the involute", "statement": "For a cylindrical gear with enable_undercut whose base circle lies outside the root circle, the tooth curve starts at the corner of the generating rack tooth (or at the point where the rack's flanks meet in the middle of the gap, if that is shallower), its undercut part never goes inside the root circle, it is joined without a gap to the involute flank, and it ends at the tip end of the involute.", "quantifier": "all pitch radii, pressure angles, depths, tooth widths, tooth curves and solver answers", "why_tests_cant": "a gap or a cut below the root circle appears only for particular tooth counts and for particular failures of the numeric search", "anchors": ["src/gggears/gearteeth.py:128-200", "src/gggears/gearteeth.py:493-563"]}
{"id": "C119", "title": "The flank of a tooth reaches down to the root", "statement": "The tooth curve that check_lower_curve_limit returns begins on the root circle (cylindrical gears: radius pitch_radius - h_d) or on the root cone (conical gears: half angle cone_angle/2 - h_d/R), with the h_d the user asked for: a flank that crosses it is cut there, and one that ends above it is extended by a connector that joins it; the other end of the flank is unchanged.", "quantifier": "all pitch radii, cone angles, depths, flank curves and solver answers", "why_tests_cant": "whether the flank crosses the root or must be extended depends on tooth count, pressure angle and depth, and the faults are visible only in the start of one curve", "anchors": ["src/gggears/gggears_base_classes.py:506-528", "src/gggears/gggears_base_classes.py:578-614", "src/gggears/gearteeth.py:203-315", "src/gggears/gggears_wrapper.py:518-560"]}
{"id": "C120", "title": "The cycloid tooth flank runs outwards from the root through the pitch point to the middle of the tooth", "statement": "The tooth curve of CycloidTooth, cylindrical or conical, consists of two cycloids traced by circles (cones) that roll without slip inside and outside the pitch circle (cone). They are joined on the pitch circle at the pitch intersect angle, lead strictly outwards, begin at or below the root circle and end in the middle plane of the tooth.", "quantifier": "all pitch radii, cone angles up to 180 degrees, rolling coefficients, pitch intersect angles and solver answers", "why_tests_cant": "the number of teeth from which the flank misses the root, and the slip of a rolling cone, only show in exact distances along one curve", "anchors": ["src/gggears/gearteeth.py:565-628", "src/gggears/curve.py:743-754", "src/gggears/curve.py:1652-1736", "src/gggears/function_generators.py:215-250"]}
{"id": "C121", "title": "Meshed conical cycloid gears are conjugate", "statement": "After adapt_cycloid_radii and mesh_to, two conical cycloid gears have a common pitch cone apex and a common generator. While they turn in the ratio of their tooth counts (opposite ways for external gears, the same way in a ring), in every slice each flank of each tooth touches a flank of the other gear; both lie on one sphere around the apex and have a common normal through the point of the common generator on that sphere, so the transmission ratio is exactly constant.", "quantifier": "for all conical cycloid gear pairs of one module and cone distance with whole tooth counts and matching helix angles, cone half angles below 90 degrees, rolling cones no wider than a plane, every placement, every target direction not along the axis, every turn, tooth and height", "why_tests_cant": "The law of gearing on a sphere is an infinite statement over positions; a test can only sample distances of two meshes.", "anchors": ["src/gggears/gggears_wrapper.py:1803-1857", "src/gggears/gggears_wrapper.py:1859-1909", "src/gggears/gearteeth.py:565-628", "src/gggears/function_generators.py:215-250", "src/gggears/gearmath.py:289-420"]}
{"id": "C122", "title": "Meshed bevel gears with octoid teeth are conjugate", "statement": "After mesh_to two bevel gears (InvoluteGear or BevelGear with a cone angle, with or without undercut) have a common pitch cone apex and a common generator. While they turn in the ratio of their tooth counts (opposite ways for external gears, the same way in a ring), in every slice each flank of each tooth touches a flank of the other gear. Both flanks lie on one sphere around the apex and have a common normal in it, and the great circle in its direction goes through the common generator, so the transmission ratio is exactly constant.", "quantifier": "for all bevel gear pairs of one module, pressure angle and cone distance with whole tooth counts and matching helix angles, cone half angles below 90 degrees, every placement, every target direction not along the axis, every turn, tooth and height, every profile shift, backlash and crowning", "why_tests_cant": "The law of gearing on a sphere is an infinite statement over positions; a test can only sample distances of two meshes, and octoid and spherical involute differ by less than usual tolerances.", "anchors": ["src/gggears/gggears_wrapper.py:490-592", "src/gggears/gggears_wrapper.py:641-716", "src/gggears/gearteeth.py:226-266", "src/gggears/gearteeth.py:313-351", "src/gggears/function_generators.py:621-679", "src/gggears/gearmath.py:289-420"]}
{"id": "C123", "title": "Meshed bevel gears do not overlap on their pitch cones", "statement": "After mesh_to two external bevel gears that turn together never have the common generator of their pitch cones inside a tooth of both gears.", "quantifier": "for all bevel gear pairs of one module, pressure angle and cone distance with whole tooth counts, every profile shift, backlash and crowning, every placement, turn and height", "why_tests_cant": "Overlap by a profile shift depends on the position; a test that meshes at one angle sees tooth against gap, and a visual check does not show a tenth of a module.", "anchors": ["src/gggears/gggears_wrapper.py:507-513", "src/gggears/gggears_wrapper.py:641-716"]}
{"id": "C124", "title": "Meshed helical gears on parallel axes are conjugate in every slice", "statement": "After mesh_to two gears on parallel axes (InvoluteGear, HelicalGear, HelicalRingGear, with or without herringbone; helix angles of opposite hand for external gears, of the same hand in a ring) turn in the ratio of their tooth counts, and at every height each flank of each tooth of the partner keeps a common normal and a constant gap along it with a flank of the meshed gear. The gap is b/2(1+bias) on one side and b/2(1-bias) on the other, plus how much the crownings move the flanks at that height. Turning the partner by x closes the gap by the base radius times x.", "quantifier": "for all gear pairs of one module and pressure angle with whole tooth counts, every placement of the partner, every target direction in its plane, every turn, tooth and height, every profile shift, tooth backlash and crowning, every mesh backlash and bias", "why_tests_cant": "Contact along the whole width at every turn is an infinite statement; a wrong twist of one gear only shows in slices away from height 0, and sampled meshes cannot tell it from rounding.", "anchors": ["src/gggears/gggears_wrapper.py:490-592", "src/gggears/gggears_wrapper.py:641-716", "src/gggears/gggears_wrapper.py:986-1353", "src/gggears/gggears_core.py:802-819", "src/gggears/gearmath.py:39-103"]}
{"id": "C125", "title": "Crowned gears can be meshed without interference", "statement": "Crowning only takes material away from a tooth, so meshing crowned gears without backlash leaves in every slice at least as much room as meshing the same gears without crowning: no slice of a tooth is wider than the space between the teeth of the other gear.", "quantifier": "for all pairs of external cylindrical gears with crowning on one or both, every placement, turn, tooth and height", "why_tests_cant": "The interference is of the size of the crowning (hundredths of a module) and only appears between the ends of the teeth; tests look at the drawing or at the centre distance.", "anchors": ["src/gggears/gggears_wrapper.py:451-481", "src/gggears/gggears_wrapper.py:497-505", "src/gggears/gggears_wrapper.py:641-716"]}
{"id": "C126", "title": "Meshed helical gears on crossed axes are conjugate", "statement": "After HelicalGear.mesh_to of two helical gears with the same module and pressure angle whose helix angles do not add up to 0, every flank of each gear has a common normal with a flank of the other, whatever angles the two gears are turned by. The normal has the same direction all the time, and the distance of the flanks along it is constant if the gears turn in the ratio of their tooth counts.", "quantifier": "for all helix angles, tooth counts, profile shifts and tooth backlashes, every placement of the partner, every target direction in its plane, every turn of both gears and every tooth", "why_tests_cant": "Contact of crossed gears is in a point that wanders over both flanks; a test would have to search it for every turn, and cannot tell a slightly wrong tilt from rounding.", "anchors": ["src/gggears/gggears_wrapper.py:986-1175", "src/gggears/gggears_wrapper.py:641-716", "src/gggears/gggears_core.py:802-819", "src/gggears/gearmath.py:39-103"]}
{"id": "C127", "title": "Crossed helical gears meshed without backlash touch on both sides", "statement": "After HelicalGear.mesh_to of two helical gears on crossed axes, with no backlash given anywhere, the teeth neither overlap nor have play: the flanks of C126 are at distance 0 on both sides.", "quantifier": "for all helix angles, tooth counts and profile shifts with the same module and pressure angle", "why_tests_cant": "The play is a function of six real parameters that vanishes on a subset; tests with equal gears only see that subset.", "anchors": ["src/gggears/gggears_wrapper.py:1166-1175", "src/gggears/gggears_wrapper.py:641-716", "src/gggears/gearmath.py:39-103"]}
{"id": "C128", "title": "The exported outline of a slice has no gaps", "statement": "gearprofile_to_nurb keeps the outline of a slice together whatever its optimiser returns. The edges of the cover run from the end of one tooth to the end of the next, with connectors and ring they form a closed wire, over all teeth of a cylindrical gear they form a closed wire, the side faces use the same control points and weights as the edges of the cover, and the mirrored flank is the mirror image of the flank.", "quantifier": "for all trimmed teeth, all numbers of control points and all ratios of sample to control points, every placement of the slice and every outcome of the optimiser", "why_tests_cant": "The optimiser's answer depends on solver tolerances, so a test sees one answer per gear; that the ends stay pinned and mirrored for every answer can only be argued.", "anchors": ["src/gggears/gggears_convert.py:287-364", "src/gggears/gggears_build123d.py:198-221", "src/gggears/gggears_build123d.py:238-306", "src/gggears/curve.py:783-945"]}
{"id": "C129", "title": "The boundary wire runs along the profile", "statement": "The edges of build_boundary_wire (generate_boundary_edges) are the curves of the slice's profile, copied to every tooth of the placed gear, and form one closed wire.", "quantifier": "for all trimmed teeth, placements of the gear and outcomes of the optimiser", "why_tests_cant": "A wire whose corner is slightly off is still a valid closed wire to the CAD kernel, and the deviation appears only for pointed teeth or round gaps.", "anchors": ["src/gggears/gggears_build123d.py:519-546", "src/gggears/gggears_wrapper.py:724-740", "src/gggears/curve.py:1598-1612", "src/gggears/gggears_convert.py:287-364"]}
{"id": "C130", "title": "The faces of a cylindrical gear close up", "statement": "The faces that the builder hands to the CAD kernel for a gear with cone angle 0 - the side surfaces of all teeth and sections, the two covers and, for a ring gear, the outer ring - form a closed shell: every border curve of a face is, control point by control point and weight by weight, the border of exactly one other face, so that the shell is watertight.", "quantifier": "for every tooth profile, number of teeth, number of sections, helix, number of control points and every result of the optimisers", "why_tests_cant": "A test builds a few gears and asks the kernel whether the solid is valid, with tolerances; the statement is exact and for all profiles and all results of the optimisers.", "anchors": ["src/gggears/gggears_build123d.py:GearBuilder.__init__", "src/gggears/gggears_build123d.py:GearBuilder.gen_side_surfaces", "src/gggears/gggears_build123d.py:GearBuilder.generate_cover", "src/gggears/gggears_convert.py:GearToNurbs.generate_surface_points_sides"]}
{"id": "C131", "title": "Straight teeth are built exactly, twisted ones with enough control rows", "statement": "Called without n_vert, build_part gives the sections of a gear two control rows only if the slices of the gear differ by a straight motion, and then the built side faces coincide with the gear at every height: the point of a face at (u, v) is the point at v of the same piece of the slice a fraction u of the way up. This also holds for any larger number of rows. Gears with helix or crowning get at least three rows, and no section twists by more than 30 degrees (45 degrees for cycloid gears) per inner row.", "quantifier": "for every gear of every class, every height, face and point of a face", "why_tests_cant": "A test compares a few points of a few built gears with tolerances; here exactness holds for every point of every straight gear, and the bound on the twist for every twisted gear.", "anchors": ["src/gggears/gggears_wrapper.py:InvoluteGear.build_part", "src/gggears/gggears_wrapper.py:HelicalRingGear.build_part", "src/gggears/gggears_wrapper.py:CycloidGear.build_part", "src/gggears/gggears_convert.py:GearToNurbs.generate_surface_points_sides"]}
{"id": "C132", "title": "The solid of a bevel gear is the toothed piece of a spherical blank", "statement": "The blank of a gear with a cone angle is bounded by the two spheres about the apex through its lowest and highest slice (the documented spherical end faces) and by the cone of the outside ring: for outer teeth the hub inside that cone ends in planes, for a ring gear the blank is the part of the shell within the cone. All flanks of the slices between the two ends are in the blank and no others, and of the pieces into which the side surfaces cut the blank the one with the body of the gear is kept. This holds for either sign of the cone angle.", "quantifier": "for every involute and cycloid bevel gear with a cone half angle below 90 degrees, every point of space, every slice and every cut of the blank in two", "why_tests_cant": "A test builds a few gears and looks at the volume; the statement is about every point of the solid and every tooth number, height and cone angle.", "anchors": ["src/gggears/gggears_build123d.py:GearBuilder.gen_ref_solid", "src/gggears/gggears_build123d.py:GearBuilder.__init__", "src/gggears/gggears_core.py:Gear.sphere_data_at_z"]}
{"id": "C133", "title": "A copy of a gear is independent of the original", "statement": "gear.copy() returns a further gear that looks exactly like the original (input, sections, module, placement, recipe, tooth shape at every height), and making it changes no existing gear. From then on whatever is done with one gear (moving, meshing, changing module or limits, recalculating) never changes any other gear, be it original, copy, or copy of a copy.", "quantifier": "all programs that construct, copy, change and recalculate gears of all classes, in any order and number, with any parameters", "why_tests_cant": "Sharing between copies shows only after particular sequences of changes, and the shapes depend on functions evaluated later", "anchors": ["gggears_wrapper.py:742-743", "gggears_wrapper.py:1929-1931", "gggears_wrapper.py:490-592", "gggears_wrapper.py:1683-1756"]}
{"id": "C134", "title": "The undercut of a bevel gear is cut by a crown rack with the requested flank, spacing and depth", "statement": "Teeth of bevel gears with `enable_undercut` are undercut by a crown rack. Its flank lies on the sphere of the gear (radius R = pitch radius / sin of the pitch cone), crosses the pitch plane at the arc length of half a tooth of the gear and under the pressure angle, and reaches from h_d below to h_a above the pitch plane, measured along the sphere. The undercut starts from the lower corner of the rack tooth, or from the point where the two flanks of the rack tooth meet if they meet earlier, in the middle of the gap. The undercut curve stays on the sphere of the gear, never goes inside the root cone, and reaches the root cone when the rack has its full depth. The undercut is made exactly if the root cone lies inside the base cone.", "quantifier": "All pitch radii, cone angles of either sign, pressure angles between 0 and 90 degrees, heights and tooth widths; all answers of the solvers, where the position of the corner needs a true root.", "why_tests_cant": "The statement is about all points of a continuous curve on a sphere and about whether it touches a cone; the deviation in depth is of third order and disappears in the tolerance of a test on one gear.", "anchors": ["src/gggears/gearteeth.py:353-398", "src/gggears/gearteeth.py:401-435", "src/gggears/gearteeth.py:438-490", "src/gggears/gearteeth.py:493-533", "src/gggears/gearteeth.py:287-311"]}
{"id": "C135", "title": "Default tooth generators make straight flanks through the pitch point", "statement": "For all pitch radii, pitch intersect angles and tooth angles: the flank of GearToothGenerator is a straight line, that of GearToothConicGenerator with a cone angle is an arc of a great circle about the apex. Both pass through the pitch point at the azimuth -pitch_intersect_angle, lean by tooth_angle from the depth direction, and move away from the axis. default_gear_recipe makes teeth half a pitch wide whose slices share the apex. Two equal gears with a cone angle of 180 degrees fit each other as a Hirth coupling, in every slice and for every tooth angle. The flank of RackToothGenerator is at half the tooth width from the middle of the tooth.", "quantifier": "all pitch radii > 0, numbers of teeth, cone angles, tooth angles, heights and curve parameters", "why_tests_cant": "Direction and side of a flank are lost when looking at one gear; the coupling is exact for every tooth angle and every slice, a test sees a few", "anchors": ["src/gggears/gggears_base_classes.py:484-504", "src/gggears/gggears_base_classes.py:531-576", "src/gggears/gggears_base_classes.py:617-635", "src/gggears/gggears_core.py:822-848", "examples/straight_tooth_bevel_hirth_thing.py"]}
{"id": "C136", "title": "Core gears own their parts", "statement": "Core gears made from the caller's tooth generators, recipes, transforms and cones do not affect each other or the argument objects: constructing, copying, meshing, moving a gear or swapping its tooth generator changes only that gear. A new gear has the given number of teeth, module, heights, cone and placement, and its tooth flanks have the form of the given generator and fit the gear (cone angle, pitch radius and pitch angle) at every height; swap_tooth_generator changes the form and keeps the fit, and swapping back restores the gear.", "quantifier": "for every program that makes generators, recipes, transforms, cones and gears, and copies, meshes, moves and swaps", "why_tests_cant": "Aliasing only shows when several gears are made from the same objects in one session; the existing tests make one gear per object.", "anchors": ["src/gggears/gggears_core.py:Gear.__init__", "src/gggears/gggears_core.py:Gear.swap_tooth_generator", "src/gggears/gggears_core.py:Gear.copy", "src/gggears/gggears_core.py:Gear.mesh_to", "src/gggears/gggears_core.py:gear_recipe_from_curve", "src/gggears/gggears_base_classes.py:ZFunctionMixin.__call__"]}
{"id": "C137", "title": "Converted curves stay close to the original and fits start sensibly", "statement": "fit_nurb_optim with four control points (the default), whatever the optimiser does short of returning a worse vector than it was given, yields a NURB that passes every sample of the curve within sqrt(N-2) times (M4/384 + 4/27 of the end velocity errors), M4 being a bound of the fourth derivative; curves of constant velocity are met exactly; the curve the fit starts with has the ends and the numerical end velocities of the original; with three control points its middle point is where the end tangents meet; force_2D keeps planar curves in their plane; this holds for every number of control points.", "quantifier": "for every curve, sample ratio, optimiser that does not worsen its start, root finder and number of control points", "why_tests_cant": "The optimiser is an external program and the curves form a continuum; a test fits one curve with one version of the optimiser.", "anchors": ["src/gggears/curve.py:fit_bezier_hermite_cubic", "src/gggears/curve.py:fit_bezier_hermite_quadratic", "src/gggears/curve.py:fit_nurb_optim", "src/gggears/curve.py:fit_nurb_points"]}
{"id": "C138", "title": "A copy of a curve is a curve of its own", "statement": "copy() of a curve is the same curve as the original at that moment. Afterwards whatever is done with the copy (setting attributes, reversing, trimming, copying, building other curves from it) leaves the original and all older curves as they are, and whatever is done with the original and other older curves leaves the copy as it is. cut(s) gives the two pieces of the curve and leaves the curve whole. Setting attributes of a curve changes that curve; a curve built from other curves by arithmetic, mirroring or rotation has the length of the points it gives.", "quantifier": "for every set of curve objects built by any sequence of constructors, arithmetic, copies, attribute changes, reversals and trims, and every such sequence afterwards", "why_tests_cant": "The claim is about all histories of objects that refer to each other; a test follows one history.", "anchors": ["src/gggears/curve.py:Curve.copy", "src/gggears/curve.py:Curve.cut", "src/gggears/curve.py:Curve.__init__", "src/gggears/curve.py:InvoluteCurve.__init__", "src/gggears/curve.py:SphericalInvoluteCurve.__init__", "src/gggears/curve.py:OctoidCurve.__init__", "src/gggears/curve.py:TransformedCurve.__init__", "src/gggears/curve.py:MirroredCurve.__init__", "src/gggears/curve.py:NurbCurve.reverse"]}
{"id": "C139", "title": "The outline of a gear does not cross itself", "statement": "If the flank of a tooth runs outwards and stays between the middle of the gap and the middle of the tooth, then the profiles of all teeth together form one closed outline, and no point of that outline is visited twice: teeth do not overlap, the root and tip arcs do not cut the flanks, and the mirrored flank does not cut the flank. Involute flanks, with or without the radial line below the base circle, qualify as soon as their two ends are on their side of the two middles.", "quantifier": "all numbers of teeth from 2 up, all curve classes, all continuous flanks with growing distance from the axis, all involutes and sampling counts, all pairs of points of the outline", "why_tests_cant": "It is a statement about every pair of points of the outline. Tests check that faces can be made for a few gears, and a CAD kernel only reports a self-intersection for the sampled shape.", "anchors": ["src/gggears/gggears_core.py:342-432", "src/gggears/gggears_core.py:599-646", "src/gggears/gearteeth.py:34-72", "src/gggears/curve.py:1319-1349"]}
{"id": "C140", "title": "A spur gear generated from its parameters has a simple outline", "statement": "Take pressure angle, pitch radius and tooth thickness of a spur gear without undercut and fillets. The generator turns and trims an involute and puts a radial line below it; the trimming cuts this curve at the tip circle or the middle of the tooth, and at the root circle or the middle of the gap. If the root finder only reports true solutions and the places found lie on the curve, the resulting flank is exactly the piece of the generated curve between two places, it runs outwards between the middle of the gap and the middle of the tooth, and the outline of all teeth is closed and never crosses or touches itself, whatever the radii of the tip and root circles are.", "quantifier": "all pressure angles, pitch radii, tooth thicknesses, numbers of teeth from 2 up, tip and root circles, and all root finders and minimisers that do not lie", "why_tests_cant": "The outline passes through two generators, four searches and two trims. Tests check that some faces can be built; they cannot show that no choice of parameters or solver makes the flank jump, run back or pass the middle.", "anchors": ["src/gggears/gearteeth.py:34-72", "src/gggears/gggears_core.py:435-582", "src/gggears/curve.py:252-268", "src/gggears/curve.py:580-628"]}
{"id": "C141", "title": "A cylindrical cycloid gear generated from its parameters has a simple outline", "statement": "Take pitch radius, tooth thickness and the two rolling circles of a cylindrical cycloid gear without fillets, the inner rolling circle at most half as large as the pitch circle. The generator joins the two cycloids and cuts the outer one at the middle of the tooth; the trimming cuts the result at the tip circle or the middle of the tooth, and at the root circle or the middle of the gap. If the root finder only reports true solutions and the places found lie on the curve, the flank is the piece of the generated curve between two places, it runs outwards between the middle of the gap and the middle of the tooth, and the outline of all teeth is closed and never crosses or touches itself.", "quantifier": "all pitch radii, tooth thicknesses, inner rolling circles up to half and outer rolling circles up to the whole pitch radius, numbers of teeth from 2 up, tip and root circles, and all root finders and minimisers that do not lie", "why_tests_cant": "The outline passes through a generator and five searches whose guesses depend on the parameters. Tests build a few gears; they cannot exclude rolling circles for which one of the cycloids folds back or the two halves meet.", "anchors": ["src/gggears/gearteeth.py:565-628", "src/gggears/gggears_core.py:435-582", "src/gggears/curve.py:743-754", "src/gggears/curve.py:1652-1736"]}
{"id": "C142", "title": "A spur gear with undercut has a simple outline", "statement": "Take pressure angle, pitch radius, tooth thickness and depths of a spur gear with undercut, the default, without fillets, whose base circle lies outside the root circle. The generator makes the involute tooth curve, rolls the corner of the rack through the gap, joins its path to the involute and trims the result at the tip and the root. If the root finder only reports true solutions, the places found lie on the curves, the path of the corner does not turn back before its deepest point and does not reach the middle of the tooth, then the flank starts on the root circle exactly where the corner is deepest, consists of points of the involute tooth curve and of the path of the corner only, runs outwards between the middle of the gap and the middle of the tooth, and the outline of all teeth is closed and never crosses or touches itself. If the base circle lies inside the root circle, the generator gives the plain involute tooth, and the same holds for it.", "quantifier": "all pressure angles, pitch radii, tooth thicknesses, depths, numbers of teeth from 2 up, tip circles, and all root finders that do not lie", "why_tests_cant": "The outline passes through three generators, seven searches and four trims, and the undercut runs inwards first. Tests build a few gears; they cannot show that no choice of parameters leaves the inward running part in the outline or makes it cross the next tooth.", "anchors": ["src/gggears/gearteeth.py:34-72", "src/gggears/gearteeth.py:128-200", "src/gggears/gearteeth.py:493-563", "src/gggears/gggears_core.py:435-582"]}
{"id": "C143", "title": "The arc functions run from the first point to the second", "statement": "arc_from_2_point(t, p0, p1, curvature, axis, revolutions) and arc_from_2_point_center(t, p0, p1, center, revolutions) return p0 at t = 0 and p1 at t = 1 and points of one circular arc in between: about the given centre, respectively with radius 1/abs(curvature) or half the chord if that is larger, turning about the perpendicular of the chord on the side of the axis, the short way round plus the given number of full turns. Curvature 0 gives the straight segment.", "quantifier": "for all points, axes not along the chord, curvatures, whole numbers of revolutions and parameters t", "why_tests_cant": "Tests use a few curvatures, usually positive ones and chords in a coordinate plane; the wrong turning direction shows only for negative curvature and the missing answer only for equal points.", "anchors": ["src/gggears/function_generators.py:263-290", "src/gggears/function_generators.py:293-305"]}
{"id": "C144", "title": "Spherical flank curves report the sphere they lie on", "statement": "Every point that a SphericalInvoluteCurve or an OctoidCurve returns lies on the sphere with centre center_sphere and radius abs(R), whatever trims and reversals the curve has gone through and whatever its attributes have been set to; the sign of R is that of c_sphere; the involute starts at the reported base radius; a curve without curvature has no sphere and reading it raises.", "quantifier": "for all base radii, curvatures, offsets and angles, all states of the curve and all parameters", "why_tests_cant": "Reading a property at one construction does not show whether it agrees with the curve for negative curvature, with offsets, and after trims and assignments.", "anchors": ["src/gggears/curve.py:1352-1404", "src/gggears/curve.py:1407-1460", "src/gggears/function_generators.py:146-183", "src/gggears/function_generators.py:621-679"]}
{"id": "C145", "title": "Outline of a spur gear from its parameters", "statement": "For SpurGear(n, ...) without fillets, the profile generated at any height has a flank that runs outwards between the middle of the gap and the middle of the tooth, and the outline of the n teeth is closed and does not cross or touch itself, whenever half the tooth thickness w and the depth h (in modules) satisfy, where an undercut is cut, w + h tan(alpha) < pi/2, h <= 0.4 n, h <= w + h tan(alpha), (w + h tan(alpha))^2 <= h (n - h), and otherwise the involute does not start exactly in the middle of the gap. The default parameters satisfy this for every n >= 3, with and without undercut.", "quantifier": "For all numbers of teeth n >= 2, pressure angles, profile shifts, backlash, crowning, addendum, dedendum, tip truncation, heights z, modules and placements meeting the stated conditions; for the default parameters, all n >= 3; for all solvers that report only true solutions and whose searches succeed.", "why_tests_cant": "Tests build a few tooth counts; a fault that appears only at particular counts (an involute starting in the middle of the gap, an undercut reaching the middle of the tooth) would be missed, and a self-crossing outline is not visible in a volume check.", "anchors": ["gggears_wrapper.py:490-592", "gggears_wrapper.py:823-863", "gggears_core.py:599-646", "gggears_core.py:192-228", "gearteeth.py:147-157"]}
{"id": "C146", "title": "Every default cycloid gear has a simple outline", "statement": "CycloidGear(n) with its default parameters (rolling circles half as large as the pitch circle, addendum 1, dedendum 1.2, tip truncation 0.1), with any number of teeth from three up, any height, helix angle, module and placement, as external or ring gear, gets a profile at every height: the flank is a piece of the generated tooth curve, it runs outwards between the middle of the gap and the middle of the tooth, and the outline of all teeth is closed and never crosses or touches itself. For other parameters the same holds under conditions on the parameters alone, as long as the solvers report only true solutions and the searches succeed; for the default gears there are solvers with which nothing has to be assumed.", "quantifier": "all numbers of teeth from 3 up, heights, helix angles, modules and placements (default parameters); all rolling circles inside up to half and outside up to the whole pitch circle, backlash, crowning, addendum, dedendum and tip truncation (general parameters); all solvers that do not lie", "why_tests_cant": "The outline depends on the number of teeth through the generator, the tip reduction and the trimming. The middle of the tooth is beyond the end of the generated curve from five teeth on, so the search works on the extrapolated curve. Tests build a few numbers of teeth.", "anchors": ["src/gggears/gggears_wrapper.py:1615-1756", "src/gggears/gearteeth.py:565-628", "src/gggears/gggears_core.py:192-228", "src/gggears/gggears_core.py:599-646", "src/gggears/curve.py:743-754"]}
{"id": "C147", "title": "curve_index counts the turns of a closed curve around a point", "statement": "For a closed curve that turns m times around the centre, keeps a distance of at least d from it and moves with speed at most L, curve_index with n sample points (n at least 2 L / d) returns the number of turns without sign, up to an error of at most (L/d)^3/(8 n^2). The curve may have corners, and may turn either way.", "quantifier": "for every closed curve, every centre off the curve, every number of turns and every number of samples from 2 L / d on", "why_tests_cant": "All closed curves, centres and sample counts; the error bound holds uniformly.", "anchors": ["src/gggears/curve.py:curve_index"]}
{"id": "C148", "title": "Exported edges are the curve", "statement": "curve_to_edges gives one edge for every active curve of its argument, in order, each consisting of exactly the points of that curve with its current range, and leaves the curves unchanged, so that a second export gives the same edges.", "quantifier": "for every curve, nesting of chains and history of trims, reversals and transformations", "why_tests_cant": "Every class, nesting and range; an edge that is too long or moved twice looks plausible.", "anchors": ["src/gggears/gggears_build123d.py:curve_to_edges", "src/gggears/gggears_build123d.py:gen_splines", "src/gggears/curve.py:CurveChain.get_curves"]}
{"id": "C149", "title": "The part follows the gear", "statement": "After a gear was moved, rotated or meshed in any way, update_part returns its solid at the gear's current place: exactly what build_part with the arguments of the last build would return now (build_part() if there was none), without moving any gear or touching the parts of other gears.", "quantifier": "for every history of constructions, meshes, placements, builds and updates of any number of gears", "why_tests_cant": "All histories; a part left at an old place differs only by a motion.", "anchors": ["src/gggears/gggears_wrapper.py:InvoluteGear.update_part", "src/gggears/gggears_wrapper.py:InvoluteGear.build_part", "src/gggears/gggears_wrapper.py:CycloidGear.update_part", "src/gggears/gggears_build123d.py:apply_transform_part"]}
{"id": "C150", "title": "Fillets stay on the material side", "statement": "A root fillet fitted between the root circle and a flank that runs away from the axis lies entirely outside the root circle and within one fillet diameter of it; a tip fillet fitted between such a flank and the tip circle lies entirely inside the tip circle and within one fillet diameter of it.", "quantifier": "for every tooth chain, circle, fillet radius and solver answer for which apply_fillet finds the tangent arc", "why_tests_cant": "Every point of every arc; an arc on the wrong side of the circle is still tangent to both curves, so end points and tangents do not show it.", "anchors": ["src/gggears/gggears_core.py:apply_fillet", "src/gggears/curve.py:calc_tangent_arc"]}
