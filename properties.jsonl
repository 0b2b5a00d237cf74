{"id": "C01", "title": "A string built top-down is a gap-free tiling", "statement": "After any sequence of successful add_section calls on a String(method='top_down'), the sections are numbered from the top, the first starts at the string's top, each next one starts exactly where the previous one ends, none ends below the string's bottom and no added section is lost. The string reports complete whenever the last section ends at the string's bottom.", "quantifier": "every string top/bottom and every finite sequence of successful add_section calls, with or without an explicit top", "why_tests_cant": "The claim is an invariant of arbitrary call histories with real-valued depths.", "anchors": ["welleng/architecture.py:String.add_section_top_down"]}
{"id": "C02", "title": "A string built bottom-up is a gap-free tiling", "statement": "After any sequence of successful add_section calls on a String(method='bottom_up'), the deepest section ends at the string's bottom, each section ends exactly where the next deeper one starts, none starts above the string's top and no added section is lost; the string reports complete whenever the shallowest section starts at the top.", "quantifier": "every string and every finite sequence of successful add_section calls", "why_tests_cant": "The claim is an invariant of arbitrary call histories.", "anchors": ["welleng/architecture.py:String.add_section_bottom_up"]}
{"id": "C03", "title": "A rejected add_section leaves the string unchanged", "statement": "When add_section raises, the string's sections and complete flag are the same as before the call.", "quantifier": "every reachable string state and every rejected call", "why_tests_cant": "Requires considering every failing call in every reachable state.", "anchors": ["welleng/architecture.py:String.add_section_top_down", "welleng/architecture.py:String.add_section_bottom_up"]}
{"id": "C04", "title": "Running a string to a shallower depth preserves its make-up from the bottom", "statement": "For a complete string built bottom-up from section lengths, depth(md) for any top < md <= bottom succeeds and returns a complete, gap-free string from top to md whose sections, counted from the bit upwards, carry the same properties and (except the topmost one) the same lengths as the original.", "quantifier": "every complete bottom-up string and every md in range", "why_tests_cant": "Universally quantified over strings and over real depths.", "anchors": ["welleng/architecture.py:String.depth"]}
{"id": "C05", "title": "Dogleg is the angle between the two tangents", "statement": "For any two stations the computed dogleg lies in [0, pi] and its cosine equals the dot product of the two unit tangent vectors; it is zero exactly when the tangents coincide, is symmetric, and does not change if both azimuths are rotated.", "quantifier": "all inclination/azimuth pairs", "why_tests_cant": "A trigonometric identity over all real angles.", "anchors": ["welleng/utils.py:get_dogleg", "welleng/utils.py:MinCurve"]}
{"id": "C06", "title": "A minimum-curvature step lands on the end of the circular arc", "statement": "For a station pair with dogleg strictly between 0 and pi, the displacement returned is exactly the end point of the constant-curvature arc of length delta-md that leaves along the first tangent and arrives along the second; for dogleg 0 it is the straight line.", "quantifier": "all tangent pairs and lengths", "why_tests_cant": "An analytic identity over all reals.", "anchors": ["welleng/utils.py:get_rf", "welleng/utils.py:min_curve_step", "welleng/utils.py:MinCurve"]}
{"id": "C07", "title": "Displacement never exceeds drilled length", "statement": "The straight-line distance between any two stations of a computed survey is at most the difference of their measured depths.", "quantifier": "every survey with increasing measured depth and every pair of stations", "why_tests_cant": "Induction over unbounded numbers of stations with real trigonometry.", "anchors": ["welleng/utils.py:MinCurve"]}
{"id": "C08", "title": "Interpolated stations lie on the survey: splitting a step changes nothing", "statement": "Inserting the interpolated station (direction interpolated on the arc) between two stations leaves the position of the later station unchanged, for every split point.", "quantifier": "all arcs with dogleg below pi and all split points", "why_tests_cant": "Real-analytic identity at every interior point.", "anchors": ["welleng/survey.py:_interpolate_survey", "welleng/utils.py:MinCurve"]}
{"id": "C09", "title": "Positions are causal and translate with the start", "statement": "The computed position of a station depends only on the stations above it; appending stations never changes earlier positions, and moving the start position translates every position by the same amount.", "quantifier": "every list of stations and every continuation", "why_tests_cant": "Unbounded station lists.", "anchors": ["welleng/utils.py:MinCurve"]}
{"id": "C10", "title": "Rotating all azimuths rotates the well", "statement": "Adding a constant angle to every azimuth leaves all TVDs and doglegs unchanged and rotates all north/east positions by that angle.", "quantifier": "every survey and every rotation angle", "why_tests_cant": "Unbounded station lists and all real angles.", "anchors": ["welleng/utils.py:MinCurve", "welleng/utils.py:get_dogleg"]}
{"id": "C11", "title": "Direction vector and angles round-trip", "statement": "get_vec returns a unit vector; converting it back with get_angles returns the inclination and the azimuth normalised into [0, 2*pi), for every inclination strictly between 0 and pi; at vertical the inclination is still returned.", "quantifier": "all angles", "why_tests_cant": "Real-valued identity with branch cuts.", "anchors": ["welleng/utils.py:get_vec", "welleng/utils.py:get_angles"]}
{"id": "C12", "title": "NEV and XYZ conversions are inverse", "statement": "get_xyz(get_nev(p)) = p and get_nev(get_xyz(p)) = p whenever both calls use the same start datum; conversion preserves distances.", "quantifier": "all points and datums", "why_tests_cant": "All real inputs.", "anchors": ["welleng/utils.py:get_nev", "welleng/utils.py:get_xyz"]}
{"id": "C13", "title": "Borehole-frame rotation is lossless for covariances", "statement": "Transforming a covariance to the HLA frame and back returns the original matrix; the transform keeps symmetry, non-negative definiteness and total variance (trace).", "quantifier": "all inclinations, azimuths and 3x3 covariances", "why_tests_cant": "All real matrices.", "anchors": ["welleng/utils.py:NEV_to_HLA", "welleng/utils.py:HLA_to_NEV", "welleng/utils.py:_get_transform"]}
{"id": "C14", "title": "Curvature rate and radius conversions are mutually inverse", "statement": "radius_from_dls and dls_from_radius are inverse on positive values and both decrease strictly.", "quantifier": "all positive reals", "why_tests_cant": "All reals.", "anchors": ["welleng/utils.py:dls_from_radius", "welleng/utils.py:radius_from_dls"]}
{"id": "C15", "title": "Decimal degrees survive a DMS round trip", "statement": "Converting decimal degrees to degrees/minutes/seconds and back returns the original value.", "quantifier": "all real angles", "why_tests_cant": "All reals, including the sign boundary near zero.", "anchors": ["welleng/utils.py:decimal2dms", "welleng/utils.py:dms2decimal"]}
{"id": "C16", "title": "Azimuth references are consistent", "statement": "Whatever reference (grid, true, magnetic) and unit (degrees, radians) a survey is entered in, the stored azimuths of every station that is not exactly vertical satisfy true = grid + convergence and magnetic = true - declination in both units, the entered azimuth is stored unchanged, and re-entering any stored azimuth under its own reference reproduces the others.", "quantifier": "all azimuths, convergences, declinations, all references and units", "why_tests_cant": "All reals, all combinations.", "anchors": ["welleng/survey.py:Survey._process_azi_ref"]}
{"id": "C17", "title": "All reported positions of a station agree", "statement": "A survey's pos_nev column and its n, e, tvd attributes describe the same points.", "quantifier": "all surveys, start positions and grid scale factors", "why_tests_cant": "All option combinations.", "anchors": ["welleng/survey.py:Survey._min_curve", "welleng/survey.py:Survey._get_nev"]}
{"id": "C18", "title": "Interpolation by depth brackets correctly and reproduces stations", "statement": "interpolate_md(md) uses the interval that contains md; at a station's md it returns that station's depth, direction and position; at or above the first station it returns the first station; beyond the last station it returns None. It never extrapolates.", "quantifier": "all strictly increasing measured depth lists and all md", "why_tests_cant": "Unbounded station lists and all real depths.", "anchors": ["welleng/survey.py:Survey.interpolate_md", "welleng/survey.py:interpolate_md", "welleng/survey.py:_interpolate_survey"]}
{"id": "C19", "title": "Consecutive-duplicate removal is safe", "statement": "Removing duplicate stations keeps the first station, keeps the original order, never leaves two adjacent stations at the same rounded depth, and applying it twice equals applying it once.", "quantifier": "all station lists", "why_tests_cant": "Unbounded lists.", "anchors": ["welleng/survey.py:_remove_duplicates"]}
{"id": "C20", "title": "Splicing surveys keeps depth order and every non-tie station", "statement": "Splicing surveys in metres that have covariances and a grid or true azimuth reference returns all stations of the first followed by all but the first station of each later one, in order; if each starts at the tie-on depth of the previous one the spliced depths increase strictly and no depth is lost.", "quantifier": "all lists of surveys", "why_tests_cant": "Unbounded lists of unbounded surveys.", "anchors": ["welleng/survey.py:splice_surveys", "welleng/survey.py:SurveyData"]}
{"id": "C21", "title": "Maximum-curvature conversion keeps the original depths", "statement": "maximum_curvature returns 2n-1 stations in non-decreasing depth order which include every original measured depth.", "quantifier": "all surveys with increasing measured depth", "why_tests_cant": "Unbounded lists, all reals.", "anchors": ["welleng/survey.py:Survey.maximum_curvature"]}
{"id": "C22", "title": "Vertical section is the projection on the section azimuth", "statement": "The vertical section equals n*cos(a)+e*sin(a); its absolute value never exceeds the horizontal displacement and equals it when the section azimuth points at the station.", "quantifier": "all positions and azimuths", "why_tests_cant": "All reals.", "anchors": ["welleng/survey.py:Survey._get_vertical_section"]}
{"id": "C23", "title": "Every error covariance is symmetric and non-negative definite", "statement": "For any tool model and any survey, the covariance of each error source at each station and the total covariance are symmetric and non-negative definite, in NEV and in HLA.", "quantifier": "all weight vectors, all propagation modes, any number of sources and stations", "why_tests_cant": "Unbounded sums of outer products over all reals.", "anchors": ["welleng/error.py:ErrorModel._generate_error", "welleng/errors/tool_errors.py:ToolError"]}
{"id": "C24", "title": "Partition of the total covariance by propagation mode", "statement": "The random, systematic, global and within-pad covariances add up to the total covariance.", "quantifier": "all tool models and surveys", "why_tests_cant": "All combinations of terms.", "anchors": ["welleng/errors/tool_errors.py:ToolError"]}
{"id": "C25", "title": "Uncertainty scales with the square of tool magnitude", "statement": "Multiplying an error source's magnitude by a factor c multiplies its covariance at every station by c squared, whatever its propagation.", "quantifier": "all sources, stations and factors", "why_tests_cant": "All reals, unbounded stations.", "anchors": ["welleng/error.py:ErrorModel._generate_error"]}
{"id": "C26", "title": "Position partials are the true derivatives", "statement": "The partial derivatives of a station's position used by the error model equal the mathematical derivatives of the balanced-tangential displacement with respect to depth, inclination and azimuth of both end stations.", "quantifier": "all station pairs", "why_tests_cant": "Calculus statement over all reals.", "anchors": ["welleng/error.py:ErrorModel.drk_dDepth", "welleng/error.py:ErrorModel._drdp"]}
{"id": "C27", "title": "The fast partial-derivative table equals the reference functions", "statement": "The fused derivative table equals, entry by entry, the individual drk/drk+1 functions for every station, including the zero first/last rows.", "quantifier": "all surveys of any length", "why_tests_cant": "Unbounded lists over all reals.", "anchors": ["welleng/error.py:ErrorModel._drdp"]}
{"id": "C28", "title": "Every catalogued propagation mode contributes to the uncertainty", "statement": "A tool model loaded from either catalogue format (YAML or JSON), with any of the catalogue's propagation modes, yields a covariance for every term; loading never fails because of a term's propagation mode.", "quantifier": "all terms of either catalogue format", "why_tests_cant": "Quantifies over all term sets.", "anchors": ["welleng/errors/tool_errors.py:_JSON_PROP_TO_LEGACY", "welleng/error.py:ErrorModel._generate_error"]}
{"id": "C29", "title": "The formula interpreter is a sandbox", "statement": "A formula that passes validation can only perform arithmetic and call the listed mathematical functions by name; attribute access, subscripts, lambdas, comprehensions and calls of anything else are rejected for every expression, at any nesting depth.", "quantifier": "all Python expression trees", "why_tests_cant": "Unbounded expression trees.", "anchors": ["welleng/errors/interpreter.py:_validate", "welleng/errors/interpreter.py:evaluate_formula"]}
{"id": "C30", "title": "Separation factor, boundary and allowed distance agree", "statement": "With a positive uncertainty boundary, SF >= 1 exactly when the centre distance is at least the reported minimum allowable separation distance, exactly when the reported uncertainty separation is non-negative; SF does not fall when the distance grows or hole sizes or the surface margin shrink, nor, while the bores with their margin do not overlap, when the uncertainty shrinks.", "quantifier": "all real inputs", "why_tests_cant": "All reals.", "anchors": ["welleng/clearance.py:IscwsaClearance._get_sf"]}
{"id": "C31", "title": "Uncertainty along the separation direction is well defined", "statement": "The combined sigma used for separation is the square root of a non-negative quantity for every direction and covariance, is symmetric in reference and offset well, and never exceeds the largest-axis uncertainty.", "quantifier": "all directions and covariances", "why_tests_cant": "All reals.", "anchors": ["welleng/clearance.py:IscwsaClearance"]}
{"id": "C32", "title": "Sidetrack uncertainty restarts at the kick-off point", "statement": "With a kick-off depth, the reference covariance at the kick-off station is zero and below it the covariance stays symmetric and non-negative definite.", "quantifier": "all surveys, sources and kick-off depths", "why_tests_cant": "Unbounded stations and sources.", "anchors": ["welleng/clearance.py:Clearance._get_ref_cov_below_kop"]}
{"id": "C33", "title": "Well meshes are watertight", "statement": "The triangulation built for a well with at least two rings of at least three vertices references only existing vertices and every edge is shared by exactly two triangles.", "quantifier": "all ring counts and ring sizes", "why_tests_cant": "Unbounded sizes.", "anchors": ["welleng/mesh.py:WellMesh.get_faces", "welleng/mesh.py:WellMesh.get_ends"]}
{"id": "C34", "title": "Well meshes are consistently oriented", "statement": "Adjacent triangles traverse their shared edge in opposite directions.", "quantifier": "all ring counts and ring sizes", "why_tests_cant": "Unbounded sizes.", "anchors": ["welleng/mesh.py:WellMesh.get_faces"]}
{"id": "C35", "title": "Curve-hold solution reaches the target", "statement": "For a target off the start tangent, outside the turning circle and not exactly one turning diameter to the side, the returned dogleg and tangent length describe an arc of the design radius followed by a straight that ends exactly at the target; a target straight ahead is reached by the straight alone.", "quantifier": "all radii, target offsets", "why_tests_cant": "Real-analytic identity over all reals.", "anchors": ["welleng/connector.py:min_dist_to_target"]}
{"id": "C36", "title": "Single-curve solution reaches the target", "statement": "For a target off the current tangent and not level with the start, the returned critical radius and dogleg describe a single arc ending exactly at the target; it is the only radius with which a single arc can reach it, and no larger radius can with a curve towards the target followed by a straight.", "quantifier": "all target offsets", "why_tests_cant": "All reals.", "anchors": ["welleng/connector.py:min_curve_to_target", "welleng/connector.py:get_radius_critical"]}
{"id": "C37", "title": "Connector input table is total and unambiguous", "statement": "Every combination of supplied target inputs (md, inc, azi, pos, vec) either selects exactly one construction method or is rejected; over-specified targets (a vector together with angles, or md together with a position) are always rejected.", "quantifier": "all 32 combinations", "why_tests_cant": "Finite table, but tests cover only some rows.", "anchors": ["welleng/connector.py:Connector._get_initial_methods", "welleng/connector.py:Connector._get_method"]}
{"id": "C38", "title": "Connector depth bookkeeping is monotone", "statement": "For every construction method, md1 <= md2 <= md3 <= md_target and the total length is the sum of the section lengths.", "quantifier": "all inputs", "why_tests_cant": "All reals.", "anchors": ["welleng/connector.py:Connector"]}
{"id": "C39", "title": "Interpolation grids are aligned, ordered and complete", "statement": "Interpolating a connector section of positive length with a step returns measured depths that start at the section start, end at its end, increase strictly, are exactly the multiples of the step in the interior and are never further apart than the step.", "quantifier": "all section starts, lengths and positive steps", "why_tests_cant": "All reals; unbounded number of grid points.", "anchors": ["welleng/connector.py:interpolate_curve", "welleng/connector.py:interpolate_hold"]}
{"id": "C40", "title": "Interpolated curve directions stay on the arc", "statement": "For a turn of less than half a circle (above the parallelism tolerance), interpolated tangent vectors along a curve section are unit vectors in the plane of the start and end tangents, are the tangents of the circular arc, start at the start tangent and finish at the end tangent.", "quantifier": "all tangent pairs and depths", "why_tests_cant": "All reals.", "anchors": ["welleng/connector.py:interpolate_curve"]}
{"id": "C41", "title": "Pick-up, rotating and slack-off are ordered", "statement": "With non-negative friction, at every station the pick-up (or overpull) tension is at least the rotating tension, which is at least the slack-off tension (likewise drilling and sliding), and torque is non-negative and non-decreasing towards surface.", "quantifier": "all strings, surveys and friction factors", "why_tests_cant": "Induction over unbounded element counts.", "anchors": ["welleng/torque_drag.py:force_tension_delta", "welleng/torque_drag.py:TorqueDrag.get_forces_and_torsion"]}
{"id": "C42", "title": "A torque and drag model can be built from any valid string", "statement": "Constructing TorqueDrag from a survey, a complete string and a complete wellbore does not raise.", "quantifier": "all non-empty strings and wellbores", "why_tests_cant": "All histories that build a string.", "anchors": ["welleng/torque_drag.py:TorqueDrag.get_weight_buoyed_and_radius"]}
{"id": "C43", "title": "Attribute search honours AND/OR", "statement": "EDM.get_attributes with logic AND returns each element of the tag that matches all the given attributes exactly once, with OR each element that matches at least one exactly once, in document order.", "quantifier": "all documents and attribute sets", "why_tests_cant": "Unbounded documents and queries.", "anchors": ["welleng/exchange/edm.py:EDM.get_attributes"]}
{"id": "C44", "title": "Wellbore ancestry does not depend on earlier queries", "statement": "Asking for a wellbore's ancestors returns the chain of parents of that wellbore, whatever was asked before.", "quantifier": "all parent relations and query histories", "why_tests_cant": "Depends on the call history.", "anchors": ["welleng/exchange/edm.py:EDM.get_parents"]}
{"id": "C45", "title": "A tied survey is the parent down to the tie-on plus the child below", "statement": "Assembling the survey of a wellbore returns the stations of each ancestor survey down to its tie-on depth followed by the survey's own stations, without duplicates, and an untied survey returns its own stations.", "quantifier": "all tie-on chains", "why_tests_cant": "Unbounded chains.", "anchors": ["welleng/exchange/edm.py:Well._get_surveys"]}
{"id": "C46", "title": "Stripping duplicates keeps the trajectory", "statement": "Stripping identical successive stations removes only stations that repeat their predecessor, and keeps the first and last station.", "quantifier": "all surveys", "why_tests_cant": "Unbounded lists.", "anchors": ["welleng/exchange/wbp.py:strip_duplicates"]}
{"id": "C47", "title": "Loading a .wbp file assigns every line to exactly one well plan", "statement": "load terminates on every file and, when it does not raise, assigns every line to exactly one well plan in file order. In a file whose section keyword lines (DEPTH, TARGETS:, WELLPLANS:) all come before the first header line, every well plan has at most one header line.", "quantifier": "all files", "why_tests_cant": "Unbounded files.", "anchors": ["welleng/exchange/wbp.py:load", "welleng/exchange/wbp.py:WellPlan._process_wbp_data"]}
{"id": "C48", "title": "Mud mixture conserves mass and volume", "statement": "The component volume fractions of a fluid are non-negative, add to one, and their weighted densities give back the requested fluid density.", "quantifier": "all fluid, base and weighting-material densities", "why_tests_cant": "All reals.", "anchors": ["welleng/fluid.py:Fluid"]}
{"id": "C49", "title": "Every advertised target shape can be constructed", "statement": "For each shape name the target class accepts there is a set of geometry arguments with which construction succeeds, and wrong geometry arguments are rejected.", "quantifier": "all shapes and geometry argument sets", "why_tests_cant": "Quantifies over all argument sets.", "anchors": ["welleng/target.py:Target"]}
{"id": "C50", "title": "The newest workbook revision wins", "statement": "The reported revision of a workbook is the numerically largest revision listed, so 5.11 is newer than 5.9.", "quantifier": "all revision lists", "why_tests_cant": "Unbounded lists.", "anchors": ["welleng/errors/iscwsa_ingest.py:_latest_readme_revision"]}
{"id": "C51", "title": "No error source is lost on conversion", "statement": "Converting a parsed workbook to the legacy code table keeps every error source as its own entry.", "quantifier": "all parsed workbooks", "why_tests_cant": "Unbounded source lists.", "anchors": ["welleng/errors/iscwsa_ingest.py:to_legacy_codes_dict"]}
{"id": "C52", "title": "Reference diagnostics are attributed to the right station", "statement": "Parsing a reference diagnostics file attaches to each station exactly the term rows printed between the previous station header and its own header, the last row winning for a repeated code.", "quantifier": "all files", "why_tests_cant": "Unbounded files.", "anchors": ["welleng/errors/copsegrove.py:parse_copsegrove"]}
{"id": "C53", "title": "A string that reports complete is complete", "statement": "A String whose complete flag is set has sections that span exactly from its top to its bottom.", "quantifier": "every sequence of successful add_section calls with any keyword arguments, both methods", "why_tests_cant": "The flag is sticky: whether it stays accurate depends on the whole history of calls.", "anchors": ["welleng/architecture.py:String.add_section_top_down", "welleng/architecture.py:String.add_section_bottom_up"]}
{"id": "C54", "title": "Documented ways of giving a bottom-up section all work", "statement": "add_section on a bottom-up string accepts a section given by length, by top, or by neither (then it extends to the top of the string).", "quantifier": "every bottom-up string and every choice of arguments", "why_tests_cant": "The failing branches depend on which arguments are given and on whether the string is still empty.", "anchors": ["welleng/architecture.py:String.add_section_bottom_up"]}
{"id": "C55", "title": "Rounded DMS output is accurate and normalised", "statement": "Asking for rounded seconds changes the angle by at most half a unit of the last digit, and minutes and seconds stay below 60.", "quantifier": "all angles, all digit counts", "why_tests_cant": "A carry only appears for angles within half a rounding unit of a whole minute.", "anchors": ["welleng/utils.py:decimal2dms", "welleng/utils.py:dms2decimal"]}
{"id": "C56", "title": "Vertical-section queries do not change the survey", "statement": "Constructing a survey and asking it for a vertical section leave the stored azimuths as entered, at vertical stations too, and degrees and radians of an azimuth stay consistent.", "quantifier": "all surveys, section azimuths and query sequences", "why_tests_cant": "The change is an in-place write to a shared array seen only by later readers.", "anchors": ["welleng/survey.py:Survey.get_vertical_section"]}
{"id": "C57", "title": "Any surveys can be spliced", "statement": "Splicing works whatever the azimuth reference and unit of the surveys and whether or not they carry covariances.", "quantifier": "all lists of surveys", "why_tests_cant": "Combinations of reference, unit and covariance presence are not all exercised.", "anchors": ["welleng/survey.py:splice_surveys", "welleng/survey.py:SurveyData"]}
{"id": "C58", "title": "A slice of a survey is the same well", "statement": "The stations of slice_survey(survey, start, stop) have the same grid, true and magnetic azimuths as the corresponding stations of the survey.", "quantifier": "all surveys, references and slices", "why_tests_cant": "Only visible with a non-zero convergence or declination and a non-grid reference.", "anchors": ["welleng/survey.py:slice_survey"]}
{"id": "C59", "title": "A correlated error displaces every station to first order", "statement": "For a source propagated as systematic, global or within-pad, the covariance reported at a station is the outer product of the first-order displacement of the balanced-tangential position when all stations but the first carry the error.", "quantifier": "all surveys, stations and error vectors", "why_tests_cant": "A test compares one published well; the identity has to hold for any geometry.", "anchors": ["welleng/error.py:ErrorModel", "welleng/error.py:ErrorModel._sigma_e_NEV_systematic", "welleng/error.py:ErrorModel.drdp"]}
{"id": "C60", "title": "Sources do not depend on the unit of gravity or field", "statement": "Expressing gravity, the magnetic field and the corresponding error magnitudes in another unit leaves the contribution of every source unchanged.", "quantifier": "all sources, surveys, magnitudes and unit factors", "why_tests_cant": "Tests use one unit only.", "anchors": ["welleng/errors/tool_errors.py:ToolError"]}
{"id": "C61", "title": "Uncertainty at a station does not depend on deeper stations", "statement": "Two surveys that agree down to a station have the same covariance from every source at that station, whatever follows below it.", "quantifier": "all sources and all pairs of surveys with a common upper part", "why_tests_cant": "Tests evaluate a survey once, at full length.", "anchors": ["welleng/errors/tool_errors.py:ToolError", "welleng/error.py:ErrorModel"]}
{"id": "C62", "title": "Turning a well about the vertical turns its non-magnetic uncertainty", "statement": "For sources that do not refer to the magnetic field, adding the same angle to every azimuth rotates the covariance at every station by that angle; for north/east misalignment pairs this holds for the sum of the two sources.", "quantifier": "all surveys, angles, magnitudes and propagation modes", "why_tests_cant": "Needs the same survey at every heading; tests use one heading.", "anchors": ["welleng/errors/tool_errors.py:ToolError", "welleng/error.py:ErrorModel"]}
{"id": "C63", "title": "A JSON tool model contributes every term", "statement": "For every survey and every JSON tool model that loads without an exception, each term listed in the file contributes its own covariance: a term whose magnitude and weighting are not zero is not dropped.", "quantifier": "all surveys, all JSON tool models and all formula terms", "why_tests_cant": "The set of formulas and surveys is unbounded, and a dropped term raises no exception.", "anchors": ["welleng/errors/tool_errors.py:ToolError._call_interpreter", "welleng/errors/interpreter.py:evaluate_formula"]}
{"id": "C64", "title": "Dogleg severity is the rate of turn", "statement": "For every accepted survey and every pair of consecutive stations at different depths, the reported dogleg severity times the interval divided by 30 m (or 100 ft) is the angle in degrees between the two tangents; at a repeated depth it is 0 if the directions agree and infinite otherwise.", "quantifier": "all surveys with two or more stations, both units, all station pairs", "why_tests_cant": "Real-valued inputs and lists of any length.", "anchors": ["welleng/utils.py:MinCurve", "welleng/utils.py:get_dogleg"]}
{"id": "C65", "title": "Evaluating a formula leaves the survey unchanged", "statement": "Evaluating any formula that passes validation reads the survey bound to it and does not modify it.", "quantifier": "all formulas, all bindings", "why_tests_cant": "Unbounded expression trees; the effect shows only in later terms.", "anchors": ["welleng/errors/interpreter.py:evaluate_formula", "welleng/errors/tool_errors.py:ToolError._call_interpreter"]}
{"id": "C66", "title": "Mesh separation factor tells collisions apart", "statement": "For every pair of well sections the separation factor reported by the mesh method is below 1 if the meshes collide and at least 1 if they do not.", "quantifier": "all centre distances, mesh distances and penetration depths", "why_tests_cant": "All reals, including values next to the rounding step.", "anchors": ["welleng/clearance.py:MeshClearance._process_well"]}
{"id": "C67", "title": "The sidetrack reference is the tail of the well", "statement": "With a kick-off depth, the reference well used for clearance has at each station below it the azimuths of the original survey.", "quantifier": "all surveys, azimuth references and kick-off depths", "why_tests_cant": "All headers and angles.", "anchors": ["welleng/clearance.py:Clearance._get_ref"]}
{"id": "C68", "title": "The minimum searched for is that of the reported separation factor", "statement": "The quantity minimised between stations to find a local minimum is the separation factor that is reported for the same pair of points.", "quantifier": "all pairs of points, covariances and settings", "why_tests_cant": "All reals.", "anchors": ["welleng/clearance.py:IscwsaClearance._get_sf_min", "welleng/clearance.py:IscwsaClearance.get_sf_mins"]}
{"id": "C69", "title": "Mesh rings are placed on the well", "statement": "Every vertex of a mesh ring lies in the plane through its survey station perpendicular to the well; it is at the hole radius (circle method), on the ellipse with the stated semi-axes (ellipse method) or on its pedal curve (pedal-curve method).", "quantifier": "all stations, covariances, settings and ring sizes", "why_tests_cant": "All reals.", "anchors": ["welleng/mesh.py:WellMesh._get_vertices"]}
{"id": "C70", "title": "A mesh has one ring per station", "statement": "For every method and number of vertices the faces of the mesh are built for as many rings as the survey has stations.", "quantifier": "all methods, vertex counts and surveys", "why_tests_cant": "Unbounded sizes.", "anchors": ["welleng/mesh.py:WellMesh._get_faces", "welleng/mesh.py:WellMesh._get_vertices"]}
{"id": "C71", "title": "Ring alignment only turns rings", "statement": "Aligning a ring with the one above keeps its vertices in cyclic order, starts it at the vertex nearest to the first one above, and does not reverse a ring that already runs in the same sense.", "quantifier": "all rings and nearest-neighbour results", "why_tests_cant": "Unbounded ring sizes.", "anchors": ["welleng/mesh.py:WellMesh._align_verts"]}
{"id": "C72", "title": "The uncertainty ring contains uncertainty plus hole size", "statement": "In every direction perpendicular to the well, the ellipse ring extends at least sigma standard deviations in that direction plus the hole radius and margins.", "quantifier": "all covariances, directions and margins", "why_tests_cant": "All reals.", "anchors": ["welleng/mesh.py:WellMesh._get_vertices"]}
{"id": "C73", "title": "Every target outside the turning circle is reached", "statement": "The curve-hold solver reaches every target outside the turning circle, including one exactly one turning diameter to the side.", "quantifier": "all radii and targets outside the turning circle", "why_tests_cant": "The failing targets form a surface of measure zero that random or round-number tests rarely hit.", "anchors": ["welleng/connector.py:min_dist_to_target", "welleng/connector.py:solve_curve_hold_batch"]}
{"id": "C74", "title": "A connector to a position ends at that position", "statement": "A Connector built with a target position and no direction describes a path of the reported radius and lengths that ends at the requested position.", "quantifier": "all start poses, target positions, design radii and tolerances", "why_tests_cant": "Needs every geometry, including the tolerance band between the two solution methods and targets exactly ahead.", "anchors": ["welleng/connector.py:Connector._use_method", "welleng/connector.py:Connector._get_distances"]}
{"id": "C75", "title": "Interpolated curves end along the solved direction", "statement": "Interpolating a solved curve section ends along the direction the solver reported, for every dogleg the solver can return.", "quantifier": "all solved doglegs in (0, 2 pi)", "why_tests_cant": "Turns of more than half a circle only arise for targets behind the start.", "anchors": ["welleng/connector.py:interpolate_curve", "welleng/connector.py:check_dogleg"]}
{"id": "C76", "title": "An interpolated path has no duplicate depths", "statement": "The measured depths of an interpolated multi-section connector increase strictly and are never further apart than the step.", "quantifier": "all section lengths and steps", "why_tests_cant": "Requires all section lengths, including a hold of zero length.", "anchors": ["welleng/connector.py:get_interpololate_curve_hold_curve", "welleng/connector.py:get_interpolate_min_dist_to_target"]}
{"id": "C77", "title": "A requested target direction is honoured", "statement": "When a target inclination or azimuth is requested together with a target position, the connector ends along a direction with that inclination or azimuth.", "quantifier": "all combinations of inputs", "why_tests_cant": "Must hold for all 32 input combinations and all geometries.", "anchors": ["welleng/connector.py:Connector._get_initial_methods", "welleng/connector.py:Connector._use_method"]}
{"id": "C78", "title": "Rotating tension is the hanging weight", "statement": "The rotating tension at a station equals the sum of the axial components of the buoyed weights of all elements below it (less the weight on bit when drilling), whatever the friction.", "quantifier": "all strings, surveys and friction factors", "why_tests_cant": "Induction over unbounded element counts.", "anchors": ["welleng/torque_drag.py:TorqueDrag.get_forces_and_torsion", "welleng/torque_drag.py:force_tension_delta"]}
{"id": "C79", "title": "Load cases are independent", "statement": "Adding a drilling or overpull case leaves the pick-up, slack-off, rotating and torque profiles as they were; a weight on bit without a torque on bit (or the reverse) is refused.", "quantifier": "all arrays and load cases", "why_tests_cant": "All histories of calls.", "anchors": ["welleng/torque_drag.py:TorqueDrag.get_forces_and_torsion"]}
{"id": "C80", "title": "Torque uses each element's own contact radius", "statement": "The torque and tension at a station are those of the elements hanging below it, each with its own contact radius.", "quantifier": "all strings", "why_tests_cant": "Shows only for strings of several diameters; must hold for all of them.", "anchors": ["welleng/torque_drag.py:TorqueDrag.get_forces_and_torsion"]}
{"id": "C81", "title": "Torque and drag do not depend on the compass direction", "statement": "Turning the whole well about the vertical does not change any tension or torque.", "quantifier": "all surveys and turn angles", "why_tests_cant": "All azimuths, including paths that cross north.", "anchors": ["welleng/torque_drag.py:TorqueDrag.get_azi_delta", "welleng/torque_drag.py:force_normal"]}
{"id": "C82", "title": "Section boundaries become stations once", "statement": "The stations used are in order of depth, include every survey station and every section bottom of string and wellbore, and no depth occurs twice.", "quantifier": "all surveys and section lists", "why_tests_cant": "All coincidences of string and wellbore depths.", "anchors": ["welleng/torque_drag.py:TorqueDrag.add_survey_points_from_strings"]}
{"id": "C83", "title": "Buoyed weight is weight less displaced fluid", "statement": "The buoyancy factor times the weight in air is the weight in air less the weight of the displaced fluid, and the factor lies in [0, 1] when the fluid is no denser than the string.", "quantifier": "all densities", "why_tests_cant": "All real densities.", "anchors": ["welleng/torque_drag.py:buoyancy_factor"]}
{"id": "C84", "title": "Hook load ranges cover the request", "statement": "The friction factors and depths of a hook load calculation increase strictly, in steps of at most the requested step, and include both ends of the range (for depths, the string bottom).", "quantifier": "all ranges and steps", "why_tests_cant": "All real ranges, including those that the step does not divide.", "anchors": ["welleng/torque_drag.py:HookLoad.get_ff_range", "welleng/torque_drag.py:HookLoad.get_data"]}
{"id": "C85", "title": "Every wellbore can be fetched by id and by name", "statement": "After opening a document, every wellbore in it can be fetched by its identifier and by its name.", "quantifier": "all documents", "why_tests_cant": "Depends on coincidences of names across unbounded documents.", "anchors": ["welleng/exchange/edm.py:EDM._wellbore_id_to_name", "welleng/exchange/edm.py:EDM.get_wellbore_ids", "welleng/exchange/edm.py:EDM.get_wellbore"]}
{"id": "C86", "title": "Collected wellbore data lists every element once", "statement": "The data collected for a wellbore lists every related element exactly once.", "quantifier": "all documents and wellbores", "why_tests_cant": "Depends on aliasing of lists, for all parent relations.", "anchors": ["welleng/exchange/edm.py:EDM.get_wellbore_data", "welleng/exchange/edm.py:EDM.add_attributes"]}
{"id": "C87", "title": "Pressure tables are complete and sorted", "statement": "Each group of a pore pressure, fracture or temperature table contains exactly the rows of that group, in order of depth.", "quantifier": "all tables", "why_tests_cant": "Unbounded tables.", "anchors": ["welleng/exchange/edm.py:Well._get_ppfpt_data"]}
{"id": "C88", "title": "Hole section data keeps every section", "statement": "The hole section data of a group contains every section of that group.", "quantifier": "all documents", "why_tests_cant": "Unbounded documents.", "anchors": ["welleng/exchange/edm.py:Well._get_hole_section_data"]}
{"id": "C89", "title": "Well-formed well plan files load", "statement": "A .wbp file whose lines are individually well formed loads without raising, including files with blank lines and with target geometry lines.", "quantifier": "all files", "why_tests_cant": "Unbounded files.", "anchors": ["welleng/exchange/wbp.py:load", "welleng/exchange/wbp.py:WellPlan._process_wbp_data", "welleng/exchange/wbp.py:TurnPoint"]}
{"id": "C90", "title": "Plan headers survive a write and read", "statement": "Reading a header line written by the exporter gives back the side track id, plan name, parent name, dogleg severity and extension.", "quantifier": "all header contents", "why_tests_cant": "All strings.", "anchors": ["welleng/exchange/wbp.py:export", "welleng/exchange/wbp.py:add_header"]}
{"id": "C91", "title": "A loaded well plan can be exported", "statement": "A well plan read from a file can be written back; the side track id column is unchanged.", "quantifier": "all loaded headers", "why_tests_cant": "All strings.", "anchors": ["welleng/exchange/wbp.py:export", "welleng/exchange/wbp.py:add_header", "welleng/exchange/wbp.py:string_strip"]}
{"id": "C92", "title": "Codes and units of well plan files round trip", "statement": "The unit code written for a pair of depth and surface units reads back as that pair, and each location type and plan method is written with the code it is read from.", "quantifier": "all units, types and methods", "why_tests_cant": "Must hold for the whole table, in both directions.", "anchors": ["welleng/exchange/wbp.py:get_unit_key", "welleng/exchange/wbp.py:get_key", "welleng/exchange/wbp.yaml"]}
{"id": "C93", "title": "The density profile balances the mass of the mud column", "statement": "The density that the profile seeks at a depth is the average density for which the mass of the column equals the surface density times the depth, with the oil and water compressed and expanded along the column; at zero depth it is the surface density. This holds for every fluid that can be constructed.", "quantifier": "all fluids, depths, temperatures and pressures", "why_tests_cant": "An identity between a closed form with logarithms and an integral, for all reals.", "anchors": ["welleng/fluid.py:Fluid.get_density_profile", "welleng/fluid.py:Fluid._func"]}
{"id": "C94", "title": "Every constructed target can be drawn", "statement": "plot_data returns a shape for each target that was constructed, with the radius it was given.", "quantifier": "all targets", "why_tests_cant": "All shapes and argument sets.", "anchors": ["welleng/target.py:Target.plot_data"]}
{"id": "C95", "title": "A validation row passes only within tolerance", "statement": "A comparison against a workbook passes exactly when all six components are within the absolute tolerance, or all are within the relative tolerance of the expected value.", "quantifier": "all expected and computed values, all tolerances", "why_tests_cant": "All reals, including zeros.", "anchors": ["welleng/errors/iscwsa_validate.py:validate_workbook", "welleng/errors/iscwsa_validate.py:_relative_error"]}
{"id": "C96", "title": "A successful validation run covers every row", "statement": "The command line validation exits with zero exactly when every row of the workbook's validation sheet was compared and passes.", "quantifier": "all workbooks and models", "why_tests_cant": "Unbounded row lists.", "anchors": ["welleng/errors/iscwsa_validate.py:main", "welleng/errors/iscwsa_validate.py:validate_workbook", "welleng/errors/iscwsa_validate.py:ValidationReport.source_pass_fail"]}
{"id": "C97", "title": "A MATCH verdict against reference diagnostics is sound", "statement": "A term of the formula catalogue gets the verdict MATCH exactly when it is random, is reported at some station, and each reported sigma agrees within tolerance with the absolute formula value times the magnitude on the corresponding axis.", "quantifier": "all models, files and tolerances", "why_tests_cant": "Unbounded station lists.", "anchors": ["welleng/errors/copsegrove_validate.py:validate_random_terms"]}
{"id": "C98", "title": "Sensor error weights are the sensitivities of the survey equations", "statement": "For a magnetic survey with six sensors the weighting function of each bias and scale factor error equals the change of computed inclination and azimuth per unit of that error; the cross-axial terms reproduce the covariance of the two sensors for every toolface (bias) or on average over all toolfaces (scale factor).", "quantifier": "all inclinations with non-zero sine, azimuths, dips, field strengths, toolfaces", "why_tests_cant": "The claim is about derivatives of the survey equations at every attitude; a diagnostic file only tests a few stations.", "anchors": ["welleng/errors/tool_errors.py:ABZ", "welleng/errors/tool_errors.py:ASZ", "welleng/errors/tool_errors.py:MBZ", "welleng/errors/tool_errors.py:MSZ", "welleng/errors/tool_errors.py:ABXY_TI1", "welleng/errors/tool_errors.py:MSXY_TI1"]}
{"id": "C99", "title": "Weights of interference-corrected surveys are the sensitivities of the corrected equations", "statement": "For a survey with axial interference correction the weights of cross-axial biases and scale factors, of the axial accelerometer scale factor and of the reference field strength and dip equal the change of inclination and azimuth per unit of error.", "quantifier": "all attitudes where the corrected azimuth is determined", "why_tests_cant": "Derivatives of an implicit equation at every attitude.", "anchors": ["welleng/errors/tool_errors.py:ABIXY_TI1", "welleng/errors/tool_errors.py:ASIXY_TI1", "welleng/errors/tool_errors.py:ASIZ", "welleng/errors/tool_errors.py:MBIXY_TI1", "welleng/errors/tool_errors.py:MSIXY_TI1", "welleng/errors/tool_errors.py:MFI", "welleng/errors/tool_errors.py:MDI"]}
{"id": "C100", "title": "Weight of the axial accelerometer bias in corrected surveys", "statement": "For a survey with axial interference correction the weight of the axial accelerometer bias equals the change of inclination and azimuth per unit of bias.", "quantifier": "all attitudes where the corrected azimuth is determined", "why_tests_cant": "Derivative of an implicit equation at every attitude.", "anchors": ["welleng/errors/tool_errors.py:ABIZ"]}
{"id": "C101", "title": "Covariance of an interpolated station", "statement": "At a measured depth inside a survey with covariances, every entry of the reported covariance lies on the straight line between the entries of the two surrounding stations, and the result is again a covariance matrix.", "quantifier": "all surveys, all depths inside, all covariances", "why_tests_cant": "Real-valued depths and matrices.", "anchors": ["welleng/survey.py:interpolate_md", "welleng/survey.py:_interpolate_survey"]}
{"id": "C102", "title": "Toolface of a survey station", "statement": "The toolface listed at a station is the angle, clockwise from the high side looking down the hole, of the direction in which the minimum-curvature arc to the next station turns; at the last station it is that of the arc that arrives, in [0, 360). Every station has one toolface.", "quantifier": "all surveys of two or more stations, all intervals whose directions differ and are not opposite", "why_tests_cant": "Directions are continuous; special cases at vertical, north crossing and dropping sections.", "anchors": ["welleng/survey.py:Survey.toolface"]}
{"id": "C103", "title": "Build and turn rate are rates of change", "statement": "The build and turn rates listed at a station are the sizes of the rates of change of inclination and azimuth, per 30 m or 100 ft, along the minimum-curvature path leaving the station (arriving, at the last one).", "quantifier": "all surveys, all non-vertical stations", "why_tests_cant": "Rates of change are limits; a test of a single curved section has the same severity above and below each station.", "anchors": ["welleng/survey.py:Survey.build_rate", "welleng/survey.py:Survey.turn_rate"]}
{"id": "C104", "title": "Build, turn and dogleg severity are consistent", "statement": "At every non-vertical station build rate and turn rate are not negative and build^2 + (turn sin inc)^2 equals the square of the dogleg severity listed there; at a vertical station the turn rate is not a finite number.", "quantifier": "all surveys, all stations with finite severity", "why_tests_cant": "Real-valued angles.", "anchors": ["welleng/survey.py:Survey.build_rate", "welleng/survey.py:Survey.turn_rate", "welleng/survey.py:Survey.dls"]}
{"id": "C105", "title": "Projecting ahead follows an arc", "statement": "Projecting ahead by a length with a dogleg severity (deg/30 m) and toolface ends, in position and direction, on the circular arc leaving along the current direction with that curvature towards that toolface; a survey through start and end has the same position, severity and toolface. Severity zero gives a straight line. A vertical start measures the toolface from north.", "quantifier": "all positions, unit directions, lengths, severities and toolfaces", "why_tests_cant": "Continuous inputs; a round trip between two independent formulas.", "anchors": ["welleng/survey.py:project_ahead"]}
{"id": "C106", "title": "Projecting to the bit continues the survey", "statement": "Without further arguments, projecting to the bit continues the last minimum-curvature arc of the survey.", "quantifier": "all surveys in metres or feet, all lengths", "why_tests_cant": "Units and vertical stations are special cases of a continuous input space.", "anchors": ["welleng/survey.py:Survey.project_to_bit"]}
{"id": "C107", "title": "Toolface to a point", "statement": "The vectorised and fast toolface functions return the same angle in [0, 360) degrees for every pair of points and non-zero direction, and it is the angle from the high side of the direction in which the point lies off the hole axis.", "quantifier": "all points and directions", "why_tests_cant": "Equality of two formulas over all reals.", "anchors": ["welleng/utils.py:get_toolface", "welleng/utils.py:get_toolface_fast"]}
{"id": "C108", "title": "Arcs from a toolface", "statement": "An arc built from sweep, radius and toolface ends on the circle leaving the position along the direction towards the toolface; its length is sweep times radius; with target=True the result is the start of an arc that arrives at the position along the direction. The toolface to the end of the arc is the toolface it was built with.", "quantifier": "all unit directions, sweeps, radii, toolfaces", "why_tests_cant": "Continuous inputs.", "anchors": ["welleng/utils.py:get_arc", "welleng/utils.py:Arc.transform"]}
{"id": "C109", "title": "Building an arc leaves its inputs alone", "statement": "Building an arc does not change the caller's position and direction arrays.", "quantifier": "all calls", "why_tests_cant": "Hidden aliasing shows only on reuse of an array.", "anchors": ["welleng/utils.py:get_arc", "welleng/utils.py:Arc.transform"]}
{"id": "C110", "title": "Curve-hold-curve paths", "statement": "A generated curve-hold-curve path is an arc, a straight piece of the given length along the arc's end direction and a second arc leaving along it, with the given radius, toolfaces and sweeps.", "quantifier": "all start positions and directions, sweeps, lengths, toolfaces", "why_tests_cant": "Continuous inputs.", "anchors": ["welleng/utils.py:make_clc_path"]}
{"id": "C111", "title": "Centres of curvature", "statement": "The two centres of curvature reported for a survey interval are the centre of its minimum-curvature arc.", "quantifier": "all surveys, all curved intervals", "why_tests_cant": "Only visible where the curvature changes.", "anchors": ["welleng/survey.py:get_circle_radius", "welleng/survey.py:Survey.curve_radius"]}
{"id": "C112", "title": "Annular volume", "statement": "The annular volume is the area between the circles times the length, adds up over nested annuli and stacked lengths, and is positive exactly if the inner diameter is smaller.", "quantifier": "all diameters and lengths", "why_tests_cant": "Real-valued inputs.", "anchors": ["welleng/utils.py:annular_volume"]}
{"id": "C113", "title": "Depth of a vertical-depth interpolation", "statement": "Whenever interpolating at a vertical depth returns a point, that point has the requested vertical depth.", "quantifier": "all surveys, all requested vertical depths", "why_tests_cant": "The half-angle solution has exceptional depths that no sampled survey hits.", "anchors": ["welleng/survey.py:interpolate_tvd"]}
{"id": "C114", "title": "Every depth in range is found", "statement": "On a survey whose stations get strictly deeper, every vertical depth from the first to the last station is found, between the two neighbouring stations whose depths enclose it, on the arc between them.", "quantifier": "all surveys with increasing measured and vertical depth, all depths in range", "why_tests_cant": "Which of the two roots is chosen, and the assertions on it, depend on the shape of the arc.", "anchors": ["welleng/survey.py:interpolate_tvd"]}
{"id": "C115", "title": "No point off the well", "statement": "Interpolating at a vertical depth returns only points between two stations of the survey.", "quantifier": "all surveys, all requested vertical depths", "why_tests_cant": "Behaviour outside the surveyed range depends on whether the last interval is straight.", "anchors": ["welleng/survey.py:interpolate_tvd"]}
{"id": "C116", "title": "What the tortuosity indices add up", "statement": "At each station the (modified) tortuosity index is the stated factor times the total, over the sections down to the station, of drilled length over straight-line length less one (per drilled length for the modified index), the well being cut at the stations where it is not continuous.", "quantifier": "all surveys with increasing depth, all patterns of sections", "why_tests_cant": "Any number and layout of sections.", "anchors": ["welleng/survey.py:tortuosity_index", "welleng/survey.py:modified_tortuosity_index", "welleng/survey.py:_get_ti_data"]}
{"id": "C117", "title": "Tortuosity is not negative", "statement": "The tortuosity index of a survey is nowhere negative and is zero at a station exactly if every section down to it is as long as the straight line between its ends.", "quantifier": "all surveys with distinct positions, all patterns of sections", "why_tests_cant": "Rests on a bound of chord by arc for every survey.", "anchors": ["welleng/survey.py:tortuosity_index"]}
{"id": "C118", "title": "Modified tortuosity is unit free", "statement": "The modified tortuosity index is the same for a survey in feet and in metres and for every coeff.", "quantifier": "all surveys, all unit ratios", "why_tests_cant": "All real surveys and ratios.", "anchors": ["welleng/survey.py:modified_tortuosity_index"]}
{"id": "C119", "title": "Tortuosity index and units", "statement": "The tortuosity index of a survey does not depend on the unit of length of the survey.", "quantifier": "all surveys, all unit ratios", "why_tests_cant": "All real surveys and ratios.", "anchors": ["welleng/survey.py:tortuosity_index"]}
{"id": "C120", "title": "Directional difficulty", "statement": "The directional difficulty index at a station is the decimal logarithm of measured depth times horizontal displacement times total turn over vertical depth (feet, degrees), and zero where that is not a positive number.", "quantifier": "all stations", "why_tests_cant": "Zero, negative and undefined quotients all occur.", "anchors": ["welleng/survey.py:directional_difficulty_index"]}
{"id": "C121", "title": "Directional difficulty and units", "statement": "The directional difficulty index of a survey does not depend on the unit of length of the survey.", "quantifier": "all surveys, all unit ratios", "why_tests_cant": "All real surveys and ratios.", "anchors": ["welleng/survey.py:directional_difficulty_index"]}
{"id": "C122", "title": "A well-formed formula evaluates to its mathematical value", "statement": "For every weighting formula built from numbers, pi, the bound variables, + - * / **, signs and the listed functions, evaluate_formula accepts the formula and returns, at every station, the mathematical value of the formula at that station, and leaves the caller's arrays unchanged.", "quantifier": "every formula of the grammar, of any depth; every binding of arrays and scalars that does not shadow a function name", "why_tests_cant": "Formulas nest without bound and are evaluated elementwise over arrays of any length; a test fixes a few formulas.", "anchors": ["welleng/errors/interpreter.py:evaluate_formula", "welleng/errors/interpreter.py:_build_safe_namespace"]}
{"id": "C123", "title": "Every unit in the shipped tool models is converted to base units", "statement": "The magnitude of every JSON error term is converted from its declared unit to radians, metres, nanoteslas and m/s2 before it is used.", "quantifier": "every unit declared in the shipped JSON tool models", "why_tests_cant": "A wrong unit only scales one error source, so an ellipse still looks plausible; validation data covers only models without these units.", "anchors": ["welleng/errors/tool_errors.py:_MAG_UNIT_TO_BASE", "welleng/errors/tool_errors.py:ToolError._call_interpreter"]}
{"id": "C124", "title": "A JSON error term contributes its formulas times its magnitude in base units", "statement": "For a JSON error term in any declared unit other than deg.nT and deg/sqr(hr), whose three formulas have mathematical values, the term's depth, inclination and azimuth errors at every station are those values times the magnitude in base units, propagated in the mode of the term; the survey arrays are unchanged.", "quantifier": "every survey, magnitude, unit but those two, propagation mode and triple of formulas", "why_tests_cant": "Universally quantified over formulas and surveys of any length.", "anchors": ["welleng/errors/tool_errors.py:ToolError._call_interpreter"]}
{"id": "C125", "title": "An error source is propagated in the mode its tool model gives", "statement": "The propagation mode (random, systematic, global, within pad) given in a tool model for an error source is the mode used to accumulate it.", "quantifier": "every weighting function, survey, magnitude and mode", "why_tests_cant": "The mode only changes how variances add along the well; a test of one shipped model with one mode cannot see an ignored argument.", "anchors": ["welleng/errors/tool_errors.py:XYM2", "welleng/errors/tool_errors.py:XYM4L", "welleng/errors/tool_errors.py:ToolError.__init__"]}
{"id": "C126", "title": "Ring vertices are evenly spaced around the well and pairwise distinct", "statement": "Each cross-section of a well mesh consists of the requested number of vertices, at equal steps of angle around the centre and pairwise distinct, so the wall closes without a repeated or missing facet.", "quantifier": "every number of vertices of at least one, ellipse or circle method, every positive semi-axis", "why_tests_cant": "Ranges over all vertex counts, covariances and radii.", "anchors": ["welleng/mesh.py:WellMesh._get_vertices"]}
{"id": "C127", "title": "Control points are stations of the survey, in order", "statement": "The control points exported for a survey are stations of that survey in increasing order without repetition: the first, the last, and exactly those in between at which the well does not continue as before (plane normals beyond tolerance, or severities differing if these are compared). Each carries the depth, angles and position of its station.", "quantifier": "every survey of at least two stations, every tolerance and severity setting", "why_tests_cant": "Ranges over surveys of any length and any pattern of breaks.", "anchors": ["welleng/survey.py:get_sections", "welleng/survey.py:get_data"]}
{"id": "C128", "title": "A survey rebuilt from exported control points passes through them where the original does", "statement": "Minimum curvature through the exported control points (depth, inclination, azimuth) gives every control point the position the original survey has at that station.", "quantifier": "every survey and tolerance setting", "why_tests_cant": "An error appears only for particular combinations of severities within one plane, and a tolerance hides it in sampled wells.", "anchors": ["welleng/survey.py:get_sections", "welleng/survey.py:get_data", "welleng/survey.py:export_csv"]}
{"id": "C129", "title": "Exported toolface is the direction in which the section turns", "statement": "For a section that consists of one curved interval, the exported toolface is the angle from high side, in degrees, in which the well turns at the start of the section, also across north.", "quantifier": "every survey, azimuths in [0,360), interval ending at an inclination strictly between 0 and 180 degrees and not exactly opposite in azimuth", "why_tests_cant": "Sign and wrap-around cases range over all pairs of azimuths.", "anchors": ["welleng/survey.py:get_sections", "welleng/survey.py:get_data"]}
{"id": "C130", "title": "Exported turn rate and size of build rate account for the change of direction", "statement": "Over a curved section, turn rate times length is the change of azimuth the shorter way round, at most 180 degrees, and build rate times length is the size of the change of inclination, per 30 m or 100 ft.", "quantifier": "every survey with azimuths in [0,360) and every curved section", "why_tests_cant": "Wrap-around must hold for all pairs of azimuths.", "anchors": ["welleng/survey.py:get_sections", "welleng/survey.py:get_data"]}
{"id": "C131", "title": "Exported build rate is negative when inclination decreases", "statement": "Over a curved section, build rate times length is the signed change of inclination.", "quantifier": "every survey and curved section", "why_tests_cant": "Tests on building wells never reach a dropping section.", "anchors": ["welleng/survey.py:get_sections", "welleng/survey.py:get_data"]}
{"id": "C132", "title": "Exported severity times length is the angle turned along the section", "statement": "For every section, the exported dogleg severity times the length of the section is the angle between the directions at its ends.", "quantifier": "every survey and section", "why_tests_cant": "Fails only when intervals of different severity fall in one section.", "anchors": ["welleng/survey.py:get_sections", "welleng/survey.py:get_data"]}
{"id": "C133", "title": "A section is exported as a hold exactly if it is straight", "statement": "A section is exported with zero severity, toolface and rates exactly if all its stations have one direction; otherwise the severity is positive and the well turns in every interval of the section.", "quantifier": "every survey with doglegs below 180 degrees, every section and tolerance", "why_tests_cant": "Only the first interval of a section is inspected; that this suffices needs an induction along the section.", "anchors": ["welleng/survey.py:get_sections", "welleng/survey.py:get_data"]}
{"id": "C134", "title": "A well plan read from a .wbp file can be converted to a survey", "statement": "wbp_to_survey returns a survey for every well plan with at least three steps.", "quantifier": "every well plan", "why_tests_cant": "Not covered by tests; holds or fails for every input alike.", "anchors": ["welleng/exchange/wbp.py:wbp_to_survey", "welleng/survey.py:from_connections"]}
{"id": "C135", "title": "The contact force of a string is the resultant of tension and weight across the hole", "statement": "The normal force on each element of a string equals the size of the force that tension in the curved hole and weight exert across the hole at that element.", "quantifier": "every tension, weight, direction and change of direction of an element", "why_tests_cant": "It is a vector identity over all directions; a sign error still gives plausible numbers.", "anchors": ["welleng/torque_drag.py:force_normal", "welleng/torque_drag.py:get_inc_delta"]}
{"id": "C136", "title": "Contact is made at the tool joint", "statement": "The diameter used for torque is the tool joint diameter of the section if it has a non-zero one, and the pipe diameter otherwise.", "quantifier": "every string section", "why_tests_cant": "Sections may have no, zero or non-zero tool joints in any mixture.", "anchors": ["welleng/torque_drag.py:get_characteristic_od"]}
{"id": "C137", "title": "Loads are computed for exactly the stations the string reaches", "statement": "The elements that carry the string are those of the stations at or above the bottom of the string, the lowest being at the bottom; a string whose bottom is not at a station is refused.", "quantifier": "every survey with increasing depths and every string bottom", "why_tests_cant": "An off-by-one error drops the bit element or adds one below the bit for every well.", "anchors": ["welleng/torque_drag.py:TorqueDrag.__init__"]}
{"id": "C138", "title": "Legacy entries describe the same error source", "statement": "In the legacy table each error source has its own weighting function, magnitude, unit and propagation. Degrees are given as radians and the unit says so. A propagation letter outside R, S, G, W becomes systematic.", "quantifier": "every workbook with different codes, without both XCLA and XCLL", "why_tests_cant": "Units are free text; the conversion must be right for every text and position of 'deg'.", "anchors": ["welleng/errors/iscwsa_ingest.py:to_legacy_codes_dict", "welleng/errors/iscwsa_ingest.py:ErrorTerm.magnitude_si", "welleng/errors/iscwsa_ingest.py:ErrorTerm.unit_si"]}
{"id": "C139", "title": "Totals are read by column name", "statement": "Each component of the total covariance is read from the first column headed with its name, whatever the order of the columns, and is NaN if there is none.", "quantifier": "every TOTALS sheet", "why_tests_cant": "Column orders and sheet sizes are unbounded.", "anchors": ["welleng/errors/iscwsa_ingest.py:parse_totals_sheet", "welleng/errors/iscwsa_ingest.py:_extract_cov_columns"]}
{"id": "C140", "title": "Validation values are read by column name", "statement": "Each component of a validation row is read from the column headed with its name, the first such column for the diagnostic and the second for the calculated value.", "quantifier": "every Validation sheet", "why_tests_cant": "The shipped workbooks all have one order of columns, so tests cannot see the dependence.", "anchors": ["welleng/errors/iscwsa_ingest.py:parse_validation_sheet"]}
{"id": "C141", "title": "Every block of a source sheet is kept", "statement": "Every labelled block of columns of an error source sheet is kept with its columns under a name of its own.", "quantifier": "every source sheet", "why_tests_cant": "Any labels may be repeated any number of times.", "anchors": ["welleng/errors/iscwsa_ingest.py:parse_error_source_sheet"]}
{"id": "C142", "title": "Blocks of a source sheet do not overlap", "statement": "Every labelled cell of the header row belongs to a block and no column belongs to two blocks.", "quantifier": "every header row with merged ranges that do not overlap", "why_tests_cant": "All arrangements of merged and single cells.", "anchors": ["welleng/errors/iscwsa_ingest.py:_merged_header_spans"]}
{"id": "C143", "title": "Every listed error model can be used", "statement": "Every name returned by get_error_models can be given as error_model of a survey and finds a definition.", "quantifier": "every name of the shipped index and every order in which the file system lists the files", "why_tests_cant": "Only a few of the 62 names are used in tests, and the order of a directory listing is not defined.", "anchors": ["welleng/error.py:get_error_models", "welleng/errors/tool_errors.py:_resolve_json_model", "welleng/errors/tool_errors.py:ToolError.__init__"]}
{"id": "C144", "title": "An error model name selects one definition", "statement": "The name of an error model selects the tool model with that name, whatever the order in which the file system lists the files.", "quantifier": "every usable name of the shipped index and every listing order", "why_tests_cant": "A test sees one listing order.", "anchors": ["welleng/errors/tool_errors.py:_resolve_json_model", "welleng/error.py:ErrorModel.__init__"]}
{"id": "C145", "title": "The deprecated name of the Rev 5 model still works", "statement": "Giving the error model 'ISCWSA MWD Rev5' to a survey gives the results of 'ISCWSA MWD Rev5.11'.", "quantifier": "every survey", "why_tests_cant": "The alias is handled in one class and checked in another.", "anchors": ["welleng/error.py:_DEPRECATED_ERROR_MODEL_ALIASES", "welleng/survey.py:Survey.__init__", "welleng/survey.py:Survey.get_error"]}
{"id": "C146", "title": "A tool model is refused outside its inclination range", "statement": "A tool model with a largest inclination is used for a survey exactly if every station has a smaller inclination.", "quantifier": "every survey and limit", "why_tests_cant": "All reals and station lists.", "anchors": ["welleng/errors/tool_errors.py:ToolError.__init__"]}
{"id": "C147", "title": "Diagnostics list the components of every source and their total", "statement": "For every station, make_diagnostic_data lists the six covariance components of each error source at that station, and as TOTAL those of the survey's covariance.", "quantifier": "every survey and set of error sources", "why_tests_cant": "Numbers of stations and sources are unbounded; empty models and repeated depths are not tested.", "anchors": ["welleng/error.py:make_diagnostic_data", "welleng/error.py:get_errors"]}
{"id": "C148", "title": "A survey header does not depend on the unit of its angles", "statement": "A SurveyHeader described in degrees equals the SurveyHeader described in radians with every angle converted: dip, declination, convergence, vertical limit and vertical-section azimuth, whether or not dip and declination are given and whatever the geomagnetic look-up returns.", "quantifier": "every set of constructor arguments, every result of the geomagnetic look-up", "why_tests_cant": "Dip and declination take three routes (given, looked up, default) in two units each; a test fixes one combination and, without network, one route.", "anchors": ["welleng/survey.py:SurveyHeader.__init__", "welleng/survey.py:SurveyHeader._get_mag_data"]}
{"id": "C149", "title": "The inclination below which a station counts as vertical does not depend on the angle unit", "statement": "If no vertical_inc_limit is given, headers made with deg=True and deg=False treat the same stations as vertical.", "quantifier": "every pair of headers made without an explicit limit", "why_tests_cant": "The limit only matters for stations that are almost vertical, in error terms with a singular formula; no test compares headers in the two units.", "anchors": ["welleng/survey.py:SurveyHeader.__init__", "welleng/survey.py:SurveyHeader._get_mag_data"]}
{"id": "C150", "title": "A survey header keeps the survey date it is given", "statement": "The survey_date of a header is the date passed to the constructor.", "quantifier": "every date and every behaviour of the geomagnetic look-up, including failing ones", "why_tests_cant": "The look-up needs the network; whether it fails depends on the day and place the test runs.", "anchors": ["welleng/survey.py:SurveyHeader._get_mag_data", "welleng/survey.py:SurveyHeader._get_date"]}
{"id": "C151", "title": "A survey header is refused exactly for a bad position, reference or date", "statement": "SurveyHeader raises if and only if a latitude is outside -90..90, a longitude outside -180..180, the azimuth reference is none of true, magnetic and grid, or the survey date is not YYYY-MM-DD; a failing look-up never makes it raise, and a position that is given, also zero, is kept.", "quantifier": "every set of constructor arguments and every behaviour of the look-up", "why_tests_cant": "Absence of exceptions for all arguments and every failure of an external service.", "anchors": ["welleng/survey.py:SurveyHeader.__init__", "welleng/survey.py:SurveyHeader._validate_date"]}
{"id": "C152", "title": "A survey is accepted in the unit its header was made with", "statement": "Survey(..., unit=u, header=SurveyHeader(depth_unit=u)) is accepted for every unit name u that the header accepts, and a survey in feet or in meters can be made without giving a header.", "quantifier": "every unit name and every header", "why_tests_cant": "Tests use the spelled out names and mostly meters.", "anchors": ["welleng/survey.py:Survey.__init__", "welleng/survey.py:get_unit", "welleng/survey.py:SurveyHeader.__init__"]}
{"id": "C153", "title": "make_survey_header reads header data as the constructor does", "statement": "make_survey_header(data) returns the header SurveyHeader(**data) returns, and applied to the properties of a header it returns an equal header.", "quantifier": "every dictionary of header data", "why_tests_cant": "The function is not called by any test.", "anchors": ["welleng/survey.py:make_survey_header"]}
{"id": "C154", "title": "A node's vectors and angles describe one direction", "statement": "A Node made from angles in degrees or radians, or from a non-zero vector in either axis order, holds unit vectors in both axis orders and angles in their standard ranges that all describe the direction given; the axis order makes no difference; it is refused exactly if there is no vector and only one of the two angles.", "quantifier": "every direction, position, angle unit and axis order", "why_tests_cant": "Continuum of directions with quadrant cases, in four ways of describing them.", "anchors": ["welleng/node.py:Node.__init__", "welleng/node.py:Node.check_angle_inputs", "welleng/node.py:Node.get_pos"]}
{"id": "C155", "title": "A node without direction reports None for every direction attribute", "statement": "Each of vec_nev, vec_xyz, inc_rad, inc_deg, azi_rad and azi_deg can be read on every node, and is None exactly if the node was given no direction.", "quantifier": "every node and every direction attribute", "why_tests_cant": "An attribute that is never assigned is only noticed when it is read on a node of that kind.", "anchors": ["welleng/node.py:Node.check_angle_inputs"]}
{"id": "C156", "title": "Every station of a survey has a hole radius", "statement": "A survey of n stations holds n hole radii: the list given if it has n entries, the one number given (or one foot if none is given) for all stations; a list of another length, other than one, is refused.", "quantifier": "every number of stations and every radius argument", "why_tests_cant": "All lengths of the list against all lengths of the survey.", "anchors": ["welleng/survey.py:Survey._get_radius"]}
{"id": "C157", "title": "The closest point is on the offset well and beats every station", "statement": "For a reference station, the point reported as closest lies on the offset well, in an interval that ends at the nearest offset station; the reported distance is the distance to it and, up to the tolerance of the one-dimensional search, no larger than the distance to any offset station or to any point of the intervals that meet at the nearest station.", "quantifier": "all offset and reference wells, station spacings, positions and optimiser results within the search bounds", "why_tests_cant": "Tests compare a few wells with tabulated distances; the statement ranges over all well pairs and every behaviour of the optimiser.", "anchors": ["welleng/clearance.py:IscwsaClearance._get_closest_points", "welleng/clearance.py:IscwsaClearance._fun"]}
{"id": "C158", "title": "The reported distance is the smallest distance to the offset well", "statement": "For every reference station the reported centre-to-centre distance is the smallest distance from it to any point of the offset well.", "quantifier": "all offset and reference wells, station spacings, positions and optimiser results within the search bounds", "why_tests_cant": "Whether the search misses a nearer branch depends on the spacing of the offset stations.", "anchors": ["welleng/clearance.py:IscwsaClearance._get_closest_points"]}
{"id": "C159", "title": "The hole radii used are the ones given", "statement": "The combined hole radius of a station is the radius of the reference hole there plus that of the offset hole at the closest point, with the radii given to the surveys, or else the radii given to the clearance calculation.", "quantifier": "all surveys with or without radii, all radius arguments", "why_tests_cant": "A default elsewhere can make an argument ineffective for every input.", "anchors": ["welleng/clearance.py:Clearance._get_radii", "welleng/clearance.py:IscwsaClearance._get_calc_hole", "welleng/survey.py:Survey._get_radius"]}
{"id": "C160", "title": "Adding the minima leaves the reference well as it is", "statement": "When minima of the separation factor between stations are added to the reference well, all original stations stay with their data and positions, the depths increase and are the original ones plus the minima, each added station is marked as interpolated, lies on the well and has the hole radius of the station below.", "quantifier": "all reference wells and all lists of depths found between stations", "why_tests_cant": "Induction over any number of insertions, each changing the survey the next one interpolates.", "anchors": ["welleng/clearance.py:IscwsaClearance.get_sf_mins", "welleng/survey.py:interpolate_md"]}
{"id": "C161", "title": "An added minimum has the reference well's uncertainty", "statement": "The separation factor reported at an added station uses the uncertainty of the reference well at that depth.", "quantifier": "all reference wells, covariances and depths", "why_tests_cant": "Tests look at the presence of the extra station, not at its covariance.", "anchors": ["welleng/clearance.py:IscwsaClearance.get_sf_mins", "welleng/survey.py:get_node", "welleng/node.py:Node.__init__"]}
{"id": "C162", "title": "A minimum is added exactly if it lies between stations", "statement": "A minimum found at a station is not added again, and a minimum found strictly between two stations is added.", "quantifier": "all station spacings and search results", "why_tests_cant": "The wrong cases need the optimiser to end exactly on a bound or at a coincident distance.", "anchors": ["welleng/clearance.py:IscwsaClearance.get_sf_mins"]}
{"id": "C163", "title": "Separation factors can be computed in feet", "statement": "For wells in feet the calculation with refinement of minima succeeds as it does for wells in metres.", "quantifier": "all reference wells, units and minima", "why_tests_cant": "Depends on whether a minimum between stations exists.", "anchors": ["welleng/clearance.py:IscwsaClearance.get_sf_mins", "welleng/survey.py:Survey.__init__"]}
{"id": "C164", "title": "Interpolating a survey does not change other surveys", "statement": "A survey made from a header and azimuths is the same whether or not surveys with that header have been interpolated or compared for clearance before.", "quantifier": "all headers, azimuths and histories of making and interpolating surveys", "why_tests_cant": "The header is shared and mutated; the effect depends on the order of calls.", "anchors": ["welleng/survey.py:_interpolate_survey", "welleng/clearance.py:IscwsaClearance.get_sf_mins"]}
{"id": "C165", "title": "A curve-hold-curve path is a continuous, tangent path with matching depths", "statement": "When a Connector joins two positions with two directions, the delivered path is an arc that starts at the start position in the start direction, a straight of non-negative length along the intermediate direction and an arc that ends in the target direction; each piece starts where and in the direction in which the previous one ends; the depths of the nodes are the start depth plus the lengths of the pieces; the first arc is not sharper than the design radius counted as the stored length divided by the stored dogleg.", "quantifier": "all start and target positions and directions, radii and results of the iterative solver", "why_tests_cant": "The iterative solver may leave any state, and the rescues combine several of them.", "anchors": ["welleng/connector.py", "Connector._target_pos_and_vec_defined", "Connector._happy_finish", "Connector._endpoint_rescue", "Connector._enforce_planarity"]}
{"id": "C166", "title": "The last straight and curve reach the target when they can", "statement": "Whatever first curve was chosen: if the target position and direction can be reached from its end by a straight followed by one arc, the delivered path ends within 1 mm of the target; if the target lies out of the plane of the two directions, no other straight and arc come closer by more than 1 mm.", "quantifier": "all end points and directions of the first curve, target positions and directions; turn with squared sine above 1e-6 and a straight that is not degenerate", "why_tests_cant": "The choice is a closed formula behind several tolerances.", "anchors": ["welleng/connector.py", "Connector._happy_finish", "Connector._rendered_endpoint_error"]}
{"id": "C167", "title": "Rescue attempts never make a path worse", "statement": "The end of the path delivered after all rescue attempts is never farther from the target than the end of the first attempt, and it is within 1 mm or not farther than the end of any of the retries.", "quantifier": "all sequences of solver results in the retries", "why_tests_cant": "Depends on the order and the results of the attempts.", "anchors": ["welleng/connector.py", "Connector._delta_pos3_rescue", "Connector._endpoint_rescue", "Connector._enforce_planarity"]}
{"id": "C168", "title": "A converged iteration gives an exact path at the design radii", "statement": "If the iteration for two positions with two directions has converged at the design radii, with straights longer than the minimum tangent and turns of less than half a turn, the delivered path ends exactly at the target, both curves have exactly the design radii and the depth of the target is the start depth plus the lengths of the two curves and of the straight.", "quantifier": "all plans, and all fixed points of the iteration", "why_tests_cant": "A fixed point is a real-valued equation, tests only see approximate ones.", "anchors": ["welleng/connector.py", "minimize_target_pos_and_vec_defined", "Connector._happy_finish"]}
{"id": "C169", "title": "A retry with a tighter radius is drawn with that radius", "statement": "When the solver is repeated with a tighter radius because the design radius does not reach the target, the path of the retry is drawn with the radius for which it was solved.", "quantifier": "all plans and retries", "why_tests_cant": "The retry looks successful inside the solver; only the stored path shows the other radius.", "anchors": ["welleng/connector.py", "Connector._endpoint_rescue", "Connector._happy_finish"]}
{"id": "C170", "title": "Neither curve is sharper than the design allows", "statement": "In a delivered curve-hold-curve path neither curve has a smaller radius than the smaller of the design radius and the critical radius of the state found by the solver.", "quantifier": "all plans and solver results", "why_tests_cant": "The re-placement of the second curve happens only for states that miss the target.", "anchors": ["welleng/connector.py", "Connector._happy_finish"]}
{"id": "C171", "title": "The reported severity has the unit of the design severity", "statement": "Connector.dls of a curve of the design radius equals the design severity, in degrees per 30 m or per 100 ft, whichever method was used.", "quantifier": "all design severities and turns, both length units, all methods", "why_tests_cant": "A scale factor that depends on the method and the unit.", "anchors": ["welleng/connector.py", "Connector._min_dist_to_target", "Connector._min_curve_to_target", "minimize_target_pos_and_vec_defined", "welleng/utils.py dls_from_radius"]}
{"id": "C172", "title": "A curve to a direction meets direction and depth", "statement": "A Connector to a direction follows an arc of the design radius that ends in that direction; with a depth beyond the end of that arc it goes on straight to exactly that depth; with a closer depth it reaches the direction at exactly that depth by one arc; a hold to a depth is a straight along the start direction.", "quantifier": "all start positions, directions, radii and depths; turns of less than half a turn", "why_tests_cant": "Real-valued geometry with three branches.", "anchors": ["welleng/connector.py", "Connector._min_curve", "Connector._hold"]}
{"id": "C173", "title": "A curve to a direction is not sharper than the design", "statement": "A Connector to a direction never uses a smaller radius than the design radius.", "quantifier": "all start positions, directions, design radii and target depths", "why_tests_cant": "Only depths close to the start show it.", "anchors": ["welleng/connector.py", "Connector._min_curve"]}
{"id": "C174", "title": "The closest approach is a curve that can be drilled", "statement": "With closest_approach=True and a target inside the turning circle, the Connector delivers a curve from the start to a nearby point; its reported length is at least the distance to that point.", "quantifier": "all starts, directions, targets inside the turning circle and design radii", "why_tests_cant": "Needs particular directions: along an axis the result is NaN, otherwise the centre of the circle is not beside the start.", "anchors": ["welleng/connector.py", "Connector._closest_approach", "Connector._min_curve_to_target"]}
{"id": "C175", "title": "The listing of control points gives the position of each", "statement": "Each row of the listing of control points of a survey (get_data) holds the measured depth, inclination and azimuth in degrees, north, east and vertical depth of one station of the survey.", "quantifier": "all surveys, tolerances and control points", "why_tests_cant": "Columns can be exchanged or reversed without any error.", "anchors": ["welleng/survey.py", "get_data", "get_sections"]}
{"id": "C176", "title": "The horizontal bearing points to the offset well", "statement": "IscwsaClearance.hoz_bearing_deg is in [0, 360) and is, to half a unit of the sixth decimal of a radian, the direction from grid north in which the closest point of the offset well lies from the reference station.", "quantifier": "all positions of stations and closest points, with or without a kick-off point", "why_tests_cant": "A quadrant or rounding error shows only in particular directions, and at 360 degrees.", "anchors": ["welleng/clearance.py", "IscwsaClearance._get_delta_nev_vectors"]}
{"id": "C177", "title": "The toolface bearing points to the offset well", "statement": "Without a kick-off point, IscwsaClearance.toolface_bearing_deg is in [0, 360) and is, to half a unit of the sixth decimal of a radian, the angle clockwise from the high side, looking down the hole, at which the closest point of the offset well lies.", "quantifier": "all inclinations, azimuths, azimuth references and positions", "why_tests_cant": "Needs all orientations of the well and all directions of the offset.", "anchors": ["welleng/clearance.py", "IscwsaClearance._get_delta_hla_vectors", "welleng/utils.py NEV_to_HLA"]}
{"id": "C178", "title": "The travelling cylinder azimuth is toolface plus azimuth", "statement": "Without a kick-off point, IscwsaClearance.trav_cyl_azi_deg is in [0, 360), equals the toolface bearing plus the grid azimuth up to whole turns, and in a vertical hole, whatever azimuth is recorded there, is the horizontal direction to the closest point.", "quantifier": "all wells, azimuth references and positions", "why_tests_cant": "Depends on the azimuth recorded at vertical stations, which tests leave at zero.", "anchors": ["welleng/clearance.py", "IscwsaClearance._traveling_cylinder"]}
{"id": "C179", "title": "A kick-off depth does not change the bearings", "statement": "Giving a kick-off depth does not change the toolface bearing and the travelling cylinder azimuth of the stations below it; in a vertical hole the latter still points to the offset well.", "quantifier": "all azimuth references, convergences, recorded azimuths and kick-off indices", "why_tests_cant": "Needs a kick-off point together with a true or magnetic reference, or with a vertical station with a non-zero azimuth.", "anchors": ["welleng/clearance.py", "Clearance._get_ref", "IscwsaClearance._traveling_cylinder", "welleng/survey.py Survey.get_vertical_section"]}
{"id": "C180", "title": "A projection to a target is planned with the design severity", "statement": "The curves of the path returned by project_to_target for a target that can be reached with the design severity dls_design have that severity.", "quantifier": "all surveys, targets and design severities", "why_tests_cant": "The returned path is valid and reaches the target whatever severity was used.", "anchors": ["welleng/survey.py project_to_target", "welleng/connector.py Connector.__init__"]}
{"id": "C181", "title": "The path to the target starts from the projected bit", "statement": "With a distance to the bit, the path returned by project_to_target passes through the point, depth and direction that project_to_bit reports for the same severity and toolface.", "quantifier": "all surveys, distances to the bit, severities, toolfaces and design severities", "why_tests_cant": "Depth and direction always agree; only the position differs, by little, and only for some severities.", "anchors": ["welleng/survey.py project_to_target", "welleng/survey.py Survey.project_to_bit", "welleng/connector.py Connector._min_curve"]}
{"id": "C182", "title": "A projected survey has the directions of the projected path", "statement": "Every station of the survey returned by project_to_target has the direction of the planned path at that depth; in particular its first station has the direction of the last station of the survey.", "quantifier": "all azimuth references, convergences and directions", "why_tests_cant": "Needs a header with a true or magnetic reference and a non-zero convergence.", "anchors": ["welleng/survey.py project_to_target", "welleng/survey.py from_connections", "Survey._process_azi_ref"]}
{"id": "C183", "title": "Resampling a survey keeps its path", "statement": "interpolate_survey(survey, step) of a survey in metres whose depths increase, whose intervals are straight or turn by less than half a circle (a turn that does not round to half a circle at five decimals, at least as sharp as the dls parameter and not within 1e-10 of zero), and whose stations are more than 1e-4 from every other station and multiple of the step they do not equal, returns a survey whose depths are exactly the depths of the stations and the multiples of step between the first and the last; every station of it lies on the circular arc between the two stations around it, with the direction of the arc, and every original station keeps depth, direction and position in both position tables, whatever the azimuth reference.", "quantifier": "all such surveys, steps, headers and start positions", "why_tests_cant": "The result is a sequence of recomputed minimum-curvature steps over every subdivision of every arc.", "anchors": ["welleng/survey.py interpolate_survey", "welleng/survey.py from_connections", "_remove_duplicates", "welleng/connector.py interpolate_curve", "interpolate_hold", "Connector._min_curve"]}
{"id": "C184", "title": "Resampling a survey keeps its stations", "statement": "Every station of a survey with increasing depths is a station of interpolate_survey(survey, step), for every step.", "quantifier": "all surveys with increasing depths and all steps", "why_tests_cant": "Only a station within 1e-4 of a multiple of the step (or of another station) is affected.", "anchors": ["welleng/survey.py interpolate_survey", "welleng/survey.py from_connections", "_remove_duplicates"]}
{"id": "C185", "title": "Surveys in feet can be resampled", "statement": "interpolate_survey returns a survey for every survey of at least two stations that it can resample in metres, also if its header is in feet.", "quantifier": "all surveys and units", "why_tests_cant": "The tests resample surveys in metres only.", "anchors": ["welleng/survey.py interpolate_survey", "welleng/survey.py from_connections", "_remove_duplicates", "welleng/survey.py Survey.__init__"]}
{"id": "C186", "title": "Radii and covariances of a resampled survey", "statement": "If every station of a survey is a station of the resampled survey, each resampled station has the radius of the last original station at or above it and, with an error model, a covariance that lies entry by entry on the straight line between the covariances of the two stations around it, equals the original one at the original stations, and is symmetric and non-negative definite if those are.", "quantifier": "all surveys, radii, covariances and steps", "why_tests_cant": "The index into the original survey is advanced by a running count over all rows.", "anchors": ["welleng/survey.py interpolate_survey"]}
{"id": "C187", "title": "A resampled station has the radius of its section", "statement": "Each station of interpolate_survey(survey, step) has the radius of the last station of the survey at or above it.", "quantifier": "all surveys with increasing depths and all steps", "why_tests_cant": "The running index is wrong only below a station that was dropped as a duplicate.", "anchors": ["welleng/survey.py interpolate_survey", "_remove_duplicates"]}
{"id": "C188", "title": "Queries leave the header of a survey alone", "statement": "After any sequence of interpolations, maximum-curvature calculations and vertical-section queries on a survey or on surveys derived from it, the header of the survey is what it was.", "quantifier": "all surveys, headers and histories of calls", "why_tests_cant": "The header object is shared by all derived surveys; an effect of one call shows only in a later, unrelated one.", "anchors": ["welleng/survey.py _interpolate_survey", "Survey.maximum_curvature", "Survey.interpolate_md", "Survey.get_vertical_section"]}
{"id": "C189", "title": "The vertical section does not depend on earlier calls", "statement": "get_vertical_section(azimuth) of a survey returns the same values whatever was called on the survey, or on surveys derived from it, before.", "quantifier": "all surveys, headers, azimuths and histories of calls", "why_tests_cant": "Quantifies over all histories of calls on objects that share state.", "anchors": ["welleng/survey.py Survey.get_vertical_section", "Survey.set_vertical_section", "_interpolate_survey"]}
{"id": "C190", "title": "Derived surveys use the section azimuth that was set", "statement": "After set_vertical_section(azimuth), with the azimuth in degrees or radians, a survey constructed with the same header has its vertical section along that azimuth.", "quantifier": "all surveys, azimuths and units", "why_tests_cant": "All reals; the tests do not derive a survey after setting the azimuth.", "anchors": ["welleng/survey.py Survey.set_vertical_section", "Survey._get_vertical_section"]}
{"id": "C191", "title": "Resampling by vertical depth reports every level of a descending well", "statement": "interpolate_survey_tvd(survey, step) of a survey that never climbs returns the first station and then, for each interval, exactly the levels first tvd + k * step strictly between its ends, in order and flagged as interpolated, followed by the station itself, flagged as original; it comes to an end. (No level within the tolerance of np.isclose of a station it does not equal, no two neighbouring stations within that tolerance.)", "quantifier": "all such surveys and all positive steps", "why_tests_cant": "A loop with carried state over every station and level.", "anchors": ["welleng/survey.py interpolate_survey_tvd", "welleng/survey.py get_node_tvd"]}
{"id": "C192", "title": "Resampling by vertical depth reports every level passed", "statement": "The same for every survey, whether an interval goes down or up.", "quantifier": "all surveys and positive steps", "why_tests_cant": "The state of the loop depends on all stations before; it fails only for special coincidences.", "anchors": ["welleng/survey.py interpolate_survey_tvd", "welleng/survey.py get_node_tvd"]}
{"id": "C193", "title": "Resampling by vertical depth keeps the stations", "statement": "Every station of the survey is a station of interpolate_survey_tvd(survey, ...), in order and flagged as original.", "quantifier": "all surveys, starts and steps", "why_tests_cant": "Fails only if a level is a few centimetres from a station.", "anchors": ["welleng/survey.py interpolate_survey_tvd", "welleng/survey.py get_node_tvd"]}
{"id": "C194", "title": "The starting level is respected", "statement": "With the argument start, the levels reported are start + k * step for k = 0, 1, 2, ... .", "quantifier": "all surveys, starts and steps", "why_tests_cant": "All reals; the tests use the default.", "anchors": ["welleng/survey.py interpolate_survey_tvd", "welleng/survey.py get_node_tvd"]}
{"id": "C195", "title": "Resampling by vertical depth keeps positions", "statement": "The stations of interpolate_survey_tvd(survey, ...) have the positions the survey has at their depths, whatever its start position and unit.", "quantifier": "all surveys, start positions and units", "why_tests_cant": "The tests resample a survey that starts at the origin, in metres.", "anchors": ["welleng/survey.py interpolate_survey_tvd", "welleng/survey.py get_node_tvd", "welleng/survey.py Survey.__init__"]}
{"id": "C196", "title": "The covariance at the closest point is interpolated between the stations around it", "statement": "If the offset well has a covariance for each station, the point reported as closest to a reference station has a covariance, each entry of which lies on the straight line, in depth, between the entries of the two stations around the point; it is symmetric and non-negative definite if those are.", "quantifier": "all wells with increasing depths, all points and every search that stays within its bounds", "why_tests_cant": "All positions, and every result of the optimiser.", "anchors": ["welleng/clearance.py IscwsaClearance._get_closest_points", "_interpolate_covs"]}
{"id": "C197", "title": "A drop-off is an arc and a straight", "statement": "The nodes returned by drop_off(target_inc, dls, delta_md, node) are the end of an arc of the design severity that starts at the node (by default at the surface, downwards, at depth zero), in the vertical plane of its direction, and possibly the end of a straight that follows; their measured depths are those of that path, and with a length delta_md the path uses it up to within the tolerance and never exceeds it.", "quantifier": "all nodes with an inclination strictly between 0 and 180 degrees, severities, lengths, and all values the optimiser may return within its bounds", "why_tests_cant": "All reals, and whatever the optimiser returns.", "anchors": ["welleng/connector.py drop_off", "welleng/utils.py get_arc"]}
{"id": "C198", "title": "A drop-off reaches the inclination if the length allows", "statement": "If the optimiser finds a minimum within its bounds, drop_off ends with the target inclination if the length suffices for the turn, and otherwise misses it by exactly the angle that could not be turned.", "quantifier": "all start inclinations strictly between 0 and 180 degrees, targets from 0 to 180 degrees, severities and lengths", "why_tests_cant": "All reals; tests check a few targets.", "anchors": ["welleng/connector.py drop_off", "welleng/utils.py get_arc"]}
{"id": "C199", "title": "Building to a higher inclination keeps the azimuth", "statement": "drop_off with a target inclination above the start's builds inclination on the high side, keeping the azimuth.", "quantifier": "all start inclinations, targets and severities", "why_tests_cant": "The documentation says drop off (or build); tests only drop.", "anchors": ["welleng/connector.py drop_off", "welleng/utils.py get_arc"]}
{"id": "C200", "title": "Extending to a vertical depth without a target inclination", "statement": "If the straight continuation of the hole reaches the target depth, extend_to_tvd(target_tvd, node) returns one connection: the straight from the node along its direction to that depth, with matching measured depths (for a length that minimises the miss).", "quantifier": "all nodes, target depths and severities", "why_tests_cant": "All reals.", "anchors": ["welleng/connector.py extend_to_tvd", "welleng/connector.py drop_off", "welleng/connector.py Connector._min_curve"]}
{"id": "C201", "title": "A depth that cannot be reached is reported", "statement": "If no continuation of the hole reaches the target depth, extend_to_tvd raises an error.", "quantifier": "all nodes and target depths", "why_tests_cant": "Tests use reachable depths.", "anchors": ["welleng/connector.py extend_to_tvd", "welleng/connector.py drop_off", "welleng/connector.py Connector._min_curve"]}
{"id": "C202", "title": "delta_md limits the length of the extension", "statement": "The path returned by extend_to_tvd(target_tvd, node, delta_md) is at most delta_md long.", "quantifier": "all nodes, depths and limits", "why_tests_cant": "The documentation calls it the maximum section length; tests do not use it.", "anchors": ["welleng/connector.py extend_to_tvd", "welleng/connector.py drop_off", "welleng/connector.py Connector._min_curve"]}
{"id": "C203", "title": "extend_to_tvd starts at the surface by default", "statement": "Without a start node extend_to_tvd starts at the surface, pointing down.", "quantifier": "all target depths, inclinations and severities", "why_tests_cant": "No test calls it without a node.", "anchors": ["welleng/connector.py extend_to_tvd", "welleng/connector.py drop_off", "welleng/connector.py Connector._min_curve", "welleng/node.py Node"]}
{"id": "C204", "title": "Extending to a vertical depth with a target inclination", "statement": "The connections returned by extend_to_tvd(target_tvd, node, target_inc=...) end at the nodes computed by drop_off, each starting where the one before ended, so that if the miss is zero the last one ends at the target depth.", "quantifier": "all nodes with an inclination strictly between 0 and 180 degrees, severities, and all turns and lengths the optimisers may return", "why_tests_cant": "All reals, and whatever the optimisers return.", "anchors": ["welleng/connector.py extend_to_tvd", "welleng/connector.py drop_off", "welleng/connector.py Connector._min_curve"]}
{"id": "C205", "title": "connect_points connects the points in order", "statement": "connect_points(points, vec_start, dls_design=[...], md_start) returns one connection per gap: the first starts at the first point in the start direction at md_start, each of the others exactly where the one before ended, in position, direction and depth; each ends at its point; measured depths never decrease; a gap whose end can be reached with the severity given for that point is crossed by a curve of exactly that severity and a straight.", "quantifier": "all lists of points, unit start directions and positive severities", "why_tests_cant": "Induction over the list of points.", "anchors": ["welleng/connector.py connect_points", "welleng/connector.py Connector"]}
{"id": "C206", "title": "A single severity applies to every gap", "statement": "connect_points(points, dls_design=x) with a number x uses x for every gap.", "quantifier": "all points and numbers, of whatever numeric type", "why_tests_cant": "The tests use floats and lists.", "anchors": ["welleng/connector.py connect_points", "welleng/connector.py Connector"]}
{"id": "C207", "title": "connect_points respects the start direction", "statement": "The first connection of connect_points starts in the direction vec_start, whatever the numeric type of the points.", "quantifier": "all points and unit directions", "why_tests_cant": "The tests use floats.", "anchors": ["welleng/connector.py connect_points", "welleng/connector.py Connector"]}
{"id": "C208", "title": "survey_to_plan returns a plan", "statement": "survey_to_plan(survey, tolerance, dls_design) with a positive severity returns a list of connections.", "quantifier": "all surveys and severities", "why_tests_cant": "Not tested at all.", "anchors": ["welleng/connector.py survey_to_plan", "welleng/connector.py _get_section"]}
{"id": "C209", "title": "Resampling a gentle interval with a severity of one's own", "statement": "interpolate_survey(survey, step, dls) crosses an interval that turns more gently than dls by a curve of exactly dls that starts at the interval's first station and ends in the direction of its second, followed by a straight in that direction: every returned station before the end of the curve has the direction of the curve, every later one the direction of the interval's end; the depths run from the interval's start to its end in steps of at most step and include the end of the curve.", "quantifier": "all intervals turning by less than half a circle whose curve at dls is shorter than the interval, all positive steps and severities", "why_tests_cant": "All reals; the tests count the returned stations at the default severity.", "anchors": ["welleng/survey.py interpolate_survey", "welleng/connector.py Connector._min_curve", "welleng/connector.py interpolate_curve", "welleng/connector.py interpolate_hold"]}
{"id": "C210", "title": "Vertical stations are the limit of nearly vertical ones", "statement": "For the sources XYM3, XYM4, ABXY_TI2, ABIXY_TI2 and CNA (true azimuth), whose formulas divide by the sine of the inclination: if the vertical stations of a survey are inclined less and less in their recorded azimuths, the covariance computed with the formulas tends, at every station that is not a vertical last one, to the covariance reported for the survey with vertical stations (for models before rev4, and for ABIXY_TI2, with a first station below the surface that is not vertical).", "quantifier": "all surveys of at least three stations each of which is vertical or above the vertical limit, all magnitudes and propagation modes", "why_tests_cant": "A limit; tests compare single numbers.", "anchors": ["welleng/errors/tool_errors.py XYM3", "welleng/errors/tool_errors.py XYM4", "welleng/errors/tool_errors.py ABXY_TI2", "welleng/errors/tool_errors.py ABIXY_TI2", "welleng/errors/tool_errors.py CNA"]}
{"id": "C211", "title": "Vertical stations are the limit of nearly vertical ones: remaining sources", "statement": "The same for XYM3E, XYM4E, XYM3L, XYM4L and for CNA with a grid azimuth reference.", "quantifier": "all surveys of at least three stations each of which is vertical or above the vertical limit, all magnitudes and propagation modes", "why_tests_cant": "A limit; tests compare single numbers.", "anchors": ["welleng/errors/tool_errors.py XYM3E", "welleng/errors/tool_errors.py XYM4E", "welleng/errors/tool_errors.py XYM3L", "welleng/errors/tool_errors.py XYM4L", "welleng/errors/tool_errors.py CNA"]}
{"id": "C212", "title": "Exported plans reload with the same numbers", "statement": "If a list of well plans is exported to a .wbp file and the file is loaded, the same plans come back in order, each with the same number and kind of steps in order, and every depth, angle, rate, coordinate, bias and covariance is the original to half a unit of the last decimal printed (two decimals for depths, coordinates, biases and a toolface below -99; one for covariances; three otherwise).  Assumed: northings up to 99999999 and elevations up to 999999 in magnitude, known type and method codes, header names and numbers within their columns, one-word methods, no tie-on point after the first step, targets with a location and a colour between -99 and 999.", "quantifier": "all lists of well plans with any number of turn points and survey points, all comments, and any state left by earlier loads", "why_tests_cant": "Every number, name length and number of plans; a fixed-width file is read by splitting at blanks, so correctness depends on what is next to what.", "anchors": ["welleng/exchange/wbp.py export", "welleng/exchange/wbp.py load", "welleng/exchange/wbp.py add_turn_point", "welleng/exchange/wbp.py add_survey_point", "welleng/exchange/wbp.py add_location"]}
{"id": "C213", "title": "Exported plans reload with the same names", "statement": "The method and target of every turn point and the tool of every survey point are the same after export and load.", "quantifier": "all lists of well plans with any number of turn points and survey points, all comments, and any state left by earlier loads", "why_tests_cant": "Depends on every possible name.", "anchors": ["welleng/exchange/wbp.py add_turn_point", "welleng/exchange/wbp.py add_survey_point", "welleng/exchange/wbp.py WellPlan._add_turn_point", "welleng/exchange/wbp.py WellPlan._add_extended_survey_point"]}
{"id": "C214", "title": "Exported plans reload with the same tie-on points", "statement": "After export and load a step is a tie-on point if and only if it was one before, and keeps its method.", "quantifier": "all lists of well plans with any number of turn points and survey points, all comments, and any state left by earlier loads", "why_tests_cant": "Every plan; the reader decides by position, not by content.", "anchors": ["welleng/exchange/wbp.py add_turn_point", "welleng/exchange/wbp.py WellPlan._process_wbp_data", "welleng/exchange/wbp.py WellPlan._add_turn_point", "welleng/survey.py get_sections"]}
{"id": "C215", "title": "Exported covariances reload as covariances", "statement": "The covariance of a survey point read back from an exported plan is a covariance matrix (non-negative variance in every direction) if the one exported was.", "quantifier": "all lists of well plans with any number of turn points and survey points, all comments, and any state left by earlier loads", "why_tests_cant": "Every covariance matrix; rounding of single entries can destroy definiteness.", "anchors": ["welleng/exchange/wbp.py add_survey_point", "welleng/exchange/wbp.py WellPlan._add_extended_survey_point"]}
{"id": "C216", "title": "Each target keeps its colour", "statement": "After export and load every target of the first plan has the colour it had before.", "quantifier": "all lists of well plans with any number of turn points and survey points, all comments, and any state left by earlier loads", "why_tests_cant": "Depends on all targets and on shared state between them.", "anchors": ["welleng/exchange/wbp.py Target", "welleng/exchange/wbp.py add_targets", "welleng/exchange/wbp.py WellPlan._add_target_color"]}
{"id": "C217", "title": "Each plan keeps its targets", "statement": "After export and load every plan has the targets (name and location) it had before.", "quantifier": "all lists of well plans with any number of turn points and survey points, all comments, and any state left by earlier loads", "why_tests_cant": "Any number of plans and targets.", "anchors": ["welleng/exchange/wbp.py export", "welleng/exchange/wbp.py load", "welleng/exchange/wbp.py add_targets"]}
{"id": "C218", "title": "Each plan keeps its units", "statement": "After export and load every plan has the surface and depth unit it had before.", "quantifier": "all lists of well plans with any number of turn points and survey points, all comments, and any state left by earlier loads", "why_tests_cant": "Any number of plans in any mixture of units.", "anchors": ["welleng/exchange/wbp.py export", "welleng/exchange/wbp.py add_header", "welleng/exchange/wbp.py WellPlan._get_units", "welleng/exchange/wbp.py load"]}
{"id": "C219", "title": "Local coordinates are relative to the surface location", "statement": "The local coordinates of a plan made from a survey are the easting and northing of each control point relative to the first station of the survey.", "quantifier": "all surveys of at least two stations, at any location", "why_tests_cant": "Every survey and location; tests start at the origin.", "anchors": ["welleng/exchange/wbp.py WellPlan._get_local_coordinates", "welleng/exchange/wbp.py WellPlan._get_surface_location"]}
{"id": "C220", "title": "Comments do not change what a file means", "statement": "Whatever one-line comments are written into an exported file, loading it gives the same plans.", "quantifier": "all lists of well plans with any number of turn points and survey points, all comments, and any state left by earlier loads", "why_tests_cant": "Every text of every comment, also one that looks like a data line.", "anchors": ["welleng/exchange/wbp.py add_comments", "welleng/exchange/wbp.py WellPlan._process_wbp_data"]}
{"id": "C221", "title": "Printed angles are read back", "statement": "For whole non-negative degrees and minutes and seconds printed without exponent, dms_from_string applied to the text of pprint_dms returns the same degrees, minutes, seconds and direction, when the text is printed with words, or with symbols and a (one-word) direction.", "quantifier": "all texts of degrees, minutes, seconds and direction, printed with symbols or with words", "why_tests_cant": "Every number and direction; the reader is a backtracking regular expression.", "anchors": ["welleng/utils.py pprint_dms", "welleng/utils.py dms_from_string"]}
{"id": "C222", "title": "An angle without direction is read back as three numbers", "statement": "A (degrees, minutes, seconds) tuple printed by pprint_dms is read by dms_from_string as the same tuple of three.", "quantifier": "all texts of degrees, minutes, seconds and direction, printed with symbols or with words", "why_tests_cant": "Every number; a test that compares only the first three elements does not see the fourth.", "anchors": ["welleng/utils.py pprint_dms", "welleng/utils.py dms_from_string"]}
{"id": "C223", "title": "Converting an angle to text and back keeps it", "statement": "Decimal degrees converted by decimal2dms, printed by pprint_dms, read by dms_from_string and converted by dms2decimal are the original decimal degrees.", "quantifier": "all angles, positive and negative, with a direction letter", "why_tests_cant": "Every angle, of both signs.", "anchors": ["welleng/utils.py decimal2dms", "welleng/utils.py pprint_dms", "welleng/utils.py dms_from_string", "welleng/utils.py dms2decimal"]}
{"id": "C224", "title": "The rows of decimal2dms can be printed and read", "statement": "The row that decimal2dms returns for an angle, with or without direction, printed by pprint_dms, is read by dms_from_string as the same row.", "quantifier": "all angles, with and without direction, and all numbers of digits", "why_tests_cant": "Depends on the type of the array the row is in, for every angle.", "anchors": ["welleng/utils.py decimal2dms", "welleng/utils.py pprint_dms", "welleng/utils.py dms_from_string"]}
{"id": "C225", "title": "Seconds are read as they were printed", "statement": "The seconds read by dms_from_string from a text of pprint_dms are the seconds printed, however small.", "quantifier": "all texts of degrees, minutes, seconds and direction, printed with symbols or with words", "why_tests_cant": "Only very small seconds, as rounding errors leave them, are printed with an exponent.", "anchors": ["welleng/utils.py pprint_dms", "welleng/utils.py dms_from_string"]}
{"id": "C226", "title": "A case has the records it refers to", "statement": "In the case returned by make_case the attributes wellbore, fluid, scenario, well, datum, hole_sect_group, hole_sect, assembly and survey_header are exactly the rows of the table of that name with the id given in the case, or None if there are none.", "quantifier": "all EDM documents (tables of rows of attributes) and all case ids", "why_tests_cant": "Every document; the attributes are set one after the other from the attributes set before.", "anchors": ["welleng/exchange/edm.py Well.make_case", "welleng/exchange/edm.py Well._set_attribute", "welleng/exchange/edm.py Well.get_data"]}
{"id": "C227", "title": "An unknown case is not an error", "statement": "make_case returns None for a case id that the document does not have, and a case for one that it has, also if its wellbore has no surveys.", "quantifier": "all EDM documents (tables of rows of attributes) and all case ids", "why_tests_cant": "Every document and id.", "anchors": ["welleng/exchange/edm.py Well.make_case", "welleng/exchange/edm.py Well._get_surveys"]}
{"id": "C228", "title": "The name of a case is the name of the case", "statement": "The name that get_case_name_from_id returns for a case id is the case_name of the case that make_case returns for it.", "quantifier": "all EDM documents (tables of rows of attributes) and all case ids", "why_tests_cant": "Every document, also with several cases of the same id.", "anchors": ["welleng/exchange/edm.py EDM.get_case_name_from_id", "welleng/exchange/edm.py Well.make_case"]}
{"id": "C229", "title": "Pressure and temperature tables are grouped and sorted", "statement": "The pressure and temperature tables of a case have, for every group, the rows of that group, every one once, in order of true vertical depth.", "quantifier": "all tables of rows of attributes", "why_tests_cant": "Every table and order of attributes.", "anchors": ["welleng/exchange/edm.py Well._get_ppfpt", "welleng/exchange/edm.py Well._sort_ppfpt_data"]}
{"id": "C230", "title": "A formula means what it says", "statement": "A formula written in the workbooks' notation (Sin, Cos, Sqr, Max, ^, signs, parentheses, blanks), over the names in the bindings, evaluates to its mathematical value at every station; operations of the same level are done from left to right.", "quantifier": "all formulas of the grammar, of any size and spacing, and all bindings that do not rebind function names", "why_tests_cant": "Every formula text; the rewriting is textual, and the reading is that of another language.", "anchors": ["welleng/errors/interpreter.py _rewrite_excel_to_python", "welleng/errors/interpreter.py evaluate_formula"]}
{"id": "C231", "title": "Every term of a shipped JSON tool model is evaluated", "statement": "The formulas of every term in the shipped JSON tool models evaluate without an exception on every survey, so the term contributes its values.", "quantifier": "all terms of the 100 shipped models and all surveys", "why_tests_cant": "Every shipped term on every survey; a failure is only a warning and gives zero.", "anchors": ["welleng/errors/tool_errors.py ToolError._call_interpreter", "welleng/errors/iscwsa_json (all files)"]}
{"id": "C232", "title": "JSON and hand-written error sources agree", "statement": "A term of a shipped JSON tool model gives the same error as the hand-written function of the same weight function with the same magnitude, on every survey without near-vertical stations on which both are defined.", "quantifier": "all shipped formulas with a hand-written counterpart, all surveys, magnitudes and units", "why_tests_cant": "Every survey; a comparison at a few stations cannot show equality of two formulas.", "anchors": ["welleng/errors/tool_errors.py ToolError._call_interpreter", "welleng/errors/tool_errors.py ToolError.call_func", "welleng/errors/iscwsa_json (all files)", "welleng/errors/conformance.py"]}
{"id": "C233", "title": "The two covariances of a survey agree", "statement": "The covariance of a survey along the borehole is its covariance in north, east and down, seen along the high side, the right side and the direction of the hole at each station.", "quantifier": "all surveys, with or without given covariances, error model and start covariance", "why_tests_cant": "Every combination of arguments, inclinations, azimuths and matrices.", "anchors": ["welleng/survey.py Survey.__init__", "welleng/survey.py Survey._get_errors"]}
{"id": "C234", "title": "The start covariance is added at every station", "statement": "With a start covariance, the covariance of a survey is the one without it plus the start covariance, at every station.", "quantifier": "all surveys, error models, given covariances and start covariances", "why_tests_cant": "Every combination of arguments and matrices.", "anchors": ["welleng/survey.py Survey.__init__", "welleng/survey.py Survey._get_errors"]}
{"id": "C235", "title": "The parts add up to the survey's covariance", "statement": "The random, systematic, global and within-pad covariances of a survey with an error model add up to its covariance, at every station.", "quantifier": "all surveys, error models and start covariances", "why_tests_cant": "Every error model and matrix.", "anchors": ["welleng/survey.py Survey.__init__", "welleng/survey.py Survey._get_errors"]}
{"id": "C236", "title": "Constructing a survey leaves its arguments unchanged", "statement": "Constructing a survey, successfully or not, does not change the arrays given as its covariances, so that two surveys can be made from the same array.", "quantifier": "all arguments, and objects in memory", "why_tests_cant": "A change in place shows only when the array is used again; every combination of arguments.", "anchors": ["welleng/survey.py Survey.__init__", "welleng/survey.py Survey._get_errors"]}
{"id": "C237", "title": "get_error does not depend on earlier calls", "statement": "After any series of calls of get_error of which the last succeeds, the covariances of the survey are those of a survey constructed with the last error model, and no existing array has changed.", "quantifier": "all surveys, all series of calls, some of which may fail", "why_tests_cant": "Every history of calls.", "anchors": ["welleng/survey.py Survey.get_error", "welleng/survey.py Survey._get_errors"]}
{"id": "C238", "title": "A failed get_error leaves the survey unchanged", "statement": "If get_error raises an exception, the survey is as it was before.", "quantifier": "all surveys and error models", "why_tests_cant": "Every cause of failure; tests look at the exception, not at the survey afterwards.", "anchors": ["welleng/survey.py Survey.get_error", "welleng/survey.py Survey._get_errors"]}
{"id": "C239", "title": "A given covariance is kept", "statement": "A covariance given to the constructor is the covariance of the survey; an error model is used only if none was given.", "quantifier": "all arguments of the constructor", "why_tests_cant": "Every combination of arguments and matrices.", "anchors": ["welleng/survey.py Survey.__init__", "welleng/survey.py Survey._get_errors"]}
{"id": "C240", "title": "A mesh clearance has a result for each reference interval", "statement": "There is one result for each interval of the reference well, in order; its reference point is the point of the well at the measured depth reported, which is in that interval, and it is the point of the interval closest to where the meshes are closest, up to the tolerance of the search.", "quantifier": "all pairs of wells with increasing depths and no half turns, all answers of the collision library, all optimiser results within its tolerance", "why_tests_cant": "Every pair of wells and every contact.", "anchors": ["welleng/clearance.py MeshClearance._process_well", "welleng/clearance.py MeshClearance._get_closest_nev"]}
{"id": "C241", "title": "The offset point of a mesh clearance is on the offset well", "statement": "The offset point of a result is the point of the offset well at the measured depth reported, in an interval that ends at the station reported, which is the nearest one to the point of contact; up to the tolerance of the search no station and no point of the intervals that end at that station is nearer to it.", "quantifier": "all pairs of wells with increasing depths and no half turns, all answers of the collision library and nearest-neighbour queries", "why_tests_cant": "Every pair of wells and every contact, including the first and the last station.", "anchors": ["welleng/clearance.py MeshClearance._process_well", "welleng/clearance.py MeshClearance._get_closest_nev"]}
{"id": "C242", "title": "Distance, bearing and hole size of a mesh clearance", "statement": "The distance of a result is the distance between its two points; its bearing is in [0, 360) and points from the reference point to the offset point; its hole size is the sum of the two radii.", "quantifier": "all pairs of wells and contacts", "why_tests_cant": "Every position of the two points in all quadrants.", "anchors": ["welleng/clearance.py MeshClearance._process_well", "welleng/clearance.py MeshClearance._get_closest_nev"]}
{"id": "C243", "title": "The project-ahead uncertainty is in the meshes", "statement": "The edge of a mesh is sigma standard deviations plus the hole radius, the surface margin (for the offset well) and half of the project-ahead uncertainty given, away from the hole.", "quantifier": "all settings, standard deviations and radii", "why_tests_cant": "Every value of every setting; a default elsewhere can make an argument ineffective.", "anchors": ["welleng/clearance.py MeshClearance._get_mesh", "welleng/mesh.py WellMesh.__init__", "welleng/mesh.py WellMesh._get_vertices"]}
{"id": "C244", "title": "The reported uncertainties are those of the meshes", "statement": "Where the meshes are closest at their edges, the uncertainties reported for the two wells are the standard deviations from which the edges were made.", "quantifier": "all pairs of wells, contacts and settings", "why_tests_cant": "Every setting and every contact.", "anchors": ["welleng/clearance.py MeshClearance._process_well", "welleng/clearance.py MeshClearance._get_closest_nev", "welleng/mesh.py WellMesh._get_vertices"]}
{"id": "C245", "title": "Sliced meshes cover the survey piece by piece", "statement": "With a mesh method of WellMesh, a step of at least one and at least two stations between start and stop, sliced_mesh ends and returns one mesh for each of consecutive pieces of the survey: every interval between the bounds is in exactly one piece, in order, every piece has at most step intervals and all but the last have exactly that many.", "quantifier": "all surveys, bounds and steps", "why_tests_cant": "Every number of stations and every remainder modulo the step; the loop has a branch for a last piece that is too short.", "anchors": ["welleng/mesh.py sliced_mesh", "welleng/survey.py slice_survey"]}
{"id": "C246", "title": "Sliced meshes can be made with the default arguments", "statement": "sliced_mesh(survey) returns a mesh for each interval of the survey.", "quantifier": "all surveys with at least two stations", "why_tests_cant": "A statement about every survey and every other argument.", "anchors": ["welleng/mesh.py sliced_mesh", "welleng/mesh.py WellMesh.__init__"]}
{"id": "C247", "title": "Making sliced meshes ends", "statement": "sliced_mesh returns or raises for every step.", "quantifier": "all surveys, bounds and steps that are not negative", "why_tests_cant": "Non-termination cannot be observed by a test.", "anchors": ["welleng/mesh.py sliced_mesh"]}
{"id": "C248", "title": "A transformed scene is similar to the given one", "statement": "transform_trimesh_scene with an origin as a list, or none, keeps the meshes, their names and triangles; the origin becomes zero, every distance is divided by the scale, and orientation is kept.", "quantifier": "all scenes, origins and positive scales", "why_tests_cant": "Every position of the vertices; a wrong axis change mirrors the scene.", "anchors": ["welleng/mesh.py transform_trimesh_scene"]}
{"id": "C249", "title": "The origin of a transformed scene may be any array", "statement": "transform_trimesh_scene accepts an origin that is a list or a numpy array of three numbers.", "quantifier": "all scenes and origins", "why_tests_cant": "Every form of the argument.", "anchors": ["welleng/mesh.py transform_trimesh_scene"]}
{"id": "C250", "title": "A transformed scene has fewer triangles", "statement": "transform_trimesh_scene reduces each mesh to the given ratio of its triangles.", "quantifier": "all scenes, ratios and decimations", "why_tests_cant": "Every mesh and ratio.", "anchors": ["welleng/mesh.py transform_trimesh_scene"]}
{"id": "C251", "title": "Repairing a mesh removes exactly the bad triangles", "statement": "The mesh returned by fix_mesh is made from every triangle with three different corners of the given mesh exactly once, and from no other.", "quantifier": "all lists of triangles", "why_tests_cant": "Every combination of repeated and degenerate triangles.", "anchors": ["welleng/mesh.py fix_mesh"]}
{"id": "C252", "title": "A density profile has a density for every depth", "statement": "get_density_profile returns one density for every depth, in order, each for that depth and the thermal gradient that reaches the given temperature there; temperatures may be a number, a list or an array.", "quantifier": "all depths, temperatures and results of the solver", "why_tests_cant": "Every combination of shapes of the arguments.", "anchors": ["welleng/fluid.py Fluid.get_density_profile"]}
{"id": "C253", "title": "The density at the surface is the reference density", "statement": "At depth zero the density profile gives the reference density of the fluid up to the tolerance of the solver, whatever temperature and pressure are given, if it is within the bounds.", "quantifier": "all fluids, temperatures, pressures and solvers", "why_tests_cant": "Every temperature, also where the gradient is infinite.", "anchors": ["welleng/fluid.py Fluid.get_density_profile", "welleng/fluid.py Fluid._func"]}
{"id": "C254", "title": "The tags of an EDM file", "statement": "get_tags returns the tags that occur in the document, each once, in increasing order.", "quantifier": "all documents", "why_tests_cant": "Every document.", "anchors": ["welleng/exchange/edm.py EDM.get_tags"]}
{"id": "C255", "title": "The wellbore graph joins each wellbore with its parent", "statement": "get_wellbore_graph has every wellbore as a node, and two nodes are joined exactly if one wellbore is the parent of the other.", "quantifier": "all documents", "why_tests_cant": "Every set of wellbores, also with equal names.", "anchors": ["welleng/exchange/edm.py EDM.get_wellbore_graph", "welleng/exchange/edm.py EDM.get_wellbore_ids"]}
{"id": "C256", "title": "A wellbore is found by its identifier and by its name", "statement": "get_wellbore by identifier and by name return the same wellbore.", "quantifier": "all documents and wellbores", "why_tests_cant": "Every set of wellbores, also with equal names.", "anchors": ["welleng/exchange/edm.py EDM.get_wellbore", "welleng/exchange/edm.py EDM._wellbore_id_to_name"]}
{"id": "C257", "title": "The toolface column of a data frame", "statement": "Every entry of the toolface column of survey_to_df is in [0, 360) and points in the direction of the toolface of the survey.", "quantifier": "all surveys and stations", "why_tests_cant": "Every toolface in all quadrants.", "anchors": ["welleng/survey.py survey_to_df"]}
{"id": "C258", "title": "The columns of a data frame are in the units of their labels", "statement": "The columns of survey_to_df that are labelled in metres hold metres.", "quantifier": "all surveys in metres or feet", "why_tests_cant": "Every survey and unit.", "anchors": ["welleng/survey.py survey_to_df"]}
{"id": "C259", "title": "Converted tool models have the terms of the workbook", "statement": "convert_sheet makes one term for each row with a number and a code, in the order of the rows; its name, weighting function, magnitude, unit, propagation mode, factors, formulas and singularities are those of the row, and it succeeds whenever the factor cells hold numbers or nothing.", "quantifier": "all sheets, as cells", "why_tests_cant": "Every sheet and every kind of cell in every column.", "anchors": ["welleng/errors/tools/owsg_to_json.py convert_sheet", "welleng/errors/tools/owsg_to_json.py _formula_str", "welleng/errors/tools/owsg_to_json.py _singularity_or_none"]}
{"id": "C260", "title": "Terms that do not fit the schema are reported", "statement": "convert_sheet warns about every term whose unit or propagation mode is foreign to the schema or whose magnitude is not a number.", "quantifier": "all sheets, as cells", "why_tests_cant": "Every combination of cells.", "anchors": ["welleng/errors/tools/owsg_to_json.py convert_sheet"]}
{"id": "C261", "title": "The file of a converted model carries its warnings", "statement": "All warnings of a conversion are among the tags of the JSON model.", "quantifier": "all sheets, as cells", "why_tests_cant": "Every number of warnings.", "anchors": ["welleng/errors/tools/owsg_to_json.py convert_sheet"]}
{"id": "C262", "title": "The inclination range of a tool model is kept", "statement": "The inclination limits of the JSON model are those of the sheet.", "quantifier": "all limits, as numbers or text", "why_tests_cant": "Every number and every way to write it.", "anchors": ["welleng/errors/tools/owsg_to_json.py _parse_inc_range", "welleng/errors/tools/owsg_to_json.py convert_sheet"]}
{"id": "C263", "title": "Identifiers of converted models and terms are distinct", "statement": "Two terms, or two models, of a converted set have different UUIDs.", "quantifier": "all sheets, as cells", "why_tests_cant": "Every pair of sheets and of terms.", "anchors": ["welleng/errors/tools/owsg_to_json.py _det_uuid", "welleng/errors/tools/owsg_to_json.py convert_sheet"]}
{"id": "C264", "title": "Every sheet of a workbook is in its own file", "statement": "After convert_workbook the model of each sheet is in a file of its own.", "quantifier": "all names of sheets", "why_tests_cant": "Every set of sheet names.", "anchors": ["welleng/errors/tools/owsg_to_json.py convert_workbook", "welleng/errors/tools/owsg_to_json.py _safe_filename"]}
{"id": "C265", "title": "The revision number of a tool model is kept", "statement": "The revision number of the JSON model is that of the sheet.", "quantifier": "all revision numbers", "why_tests_cant": "Every number.", "anchors": ["welleng/errors/tools/owsg_to_json.py convert_sheet"]}
{"id": "C266", "title": "Every converted model has an identifier", "statement": "The model_id of a converted sheet is its prefix, or failing that a name of the sheet, and never empty.", "quantifier": "all sheets, as cells", "why_tests_cant": "Every combination of missing labels and empty cells.", "anchors": ["welleng/errors/tools/owsg_to_json.py convert_sheet"]}
{"id": "C267", "title": "The error model uses the dip of the looked-up field", "statement": "When the dip is not given, the weights of the axial accelerometer and magnetometer terms are the sensitivities of the survey in the magnetic field that the header looks up for its location.", "quantifier": "all headers, fields, inclinations and azimuths", "why_tests_cant": "A sign error of the dip changes weights only away from special directions.", "anchors": ["welleng/survey.py SurveyHeader._get_mag_data", "welleng/survey.py SurveyHeader"]}
{"id": "C268", "title": "Factors of a map location agree with the header", "statement": "A header in degrees filled with the values of get_factors_from_x_y is the header that looks up the magnetic values of that location itself, whether the look-up works or not; longitude and latitude are those of the map projection.", "quantifier": "all locations, projections, dates and look-ups that answer with inclination positive down", "why_tests_cant": "Every location and every outcome of the look-up.", "anchors": ["welleng/survey.py SurveyParameters.get_factors_from_x_y", "welleng/survey.py SurveyHeader._get_mag_data"]}
{"id": "C269", "title": "Exported control points end where the survey ends", "statement": "The control points written by export_csv with a tolerance describe a path that ends within that tolerance of the end of the survey.", "quantifier": "all surveys, tolerances and answers of the optimiser", "why_tests_cant": "Every survey and every answer of the optimiser.", "anchors": ["welleng/survey.py export_csv", "welleng/survey.py func"]}
{"id": "C270", "title": "Workbook depths are converted to metres", "statement": "The survey that the validation builds from a workbook has the depths of its well path sheet in metres, for every unit the sheet may name.", "quantifier": "all sheets and all ways to write a metre or a foot", "why_tests_cant": "Every sheet and every spelling of the unit.", "anchors": ["welleng/errors/iscwsa_ingest.py parse_wellpath_sheet", "welleng/errors/iscwsa_validate.py _build_survey"]}
{"id": "C271", "title": "Stations of a workbook are the rows of its table", "statement": "The stations of a well path sheet are its rows from the third on with a number in column E, in their order, each with the inclination, azimuth, vertical depth and toolface of its row; an empty angle is NaN, not zero.", "quantifier": "all sheets, as cells", "why_tests_cant": "Every arrangement of rows and empty cells.", "anchors": ["welleng/errors/iscwsa_ingest.py parse_wellpath_sheet"]}
{"id": "C272", "title": "Reference values are found by their names", "statement": "Latitude, gravity, total field, dip and declination of a workbook are the numbers beside their names in the first twelve rows, in any order and however the names are written; a value that is not there is NaN.", "quantifier": "all sheets, as cells", "why_tests_cant": "Every order of the rows and every spelling.", "anchors": ["welleng/errors/iscwsa_ingest.py parse_wellpath_sheet"]}
{"id": "C273", "title": "Error terms of a workbook are the rows of its model sheet", "statement": "The error terms of a model sheet are the rows with a number in column D and a code in column E, in their order, each with the code, weight function, magnitude, unit and propagation of its row.", "quantifier": "all sheets, as cells", "why_tests_cant": "Every arrangement of rows and cells.", "anchors": ["welleng/errors/iscwsa_ingest.py parse_model_sheet"]}
{"id": "C274", "title": "Source tabs are aligned with the well path", "statement": "load_iscwsa_example keeps as sources exactly the sheets named as an error term, and each has one value per station of the well path, the first of its sheet.", "quantifier": "all workbooks", "why_tests_cant": "Every number of rows in every sheet.", "anchors": ["welleng/errors/iscwsa_ingest.py load_iscwsa_example"]}
{"id": "C275", "title": "Totals are compared at the same depth", "statement": "validate_workbook compares each row of the totals sheet with the covariance at the station of the same depth.", "quantifier": "all totals sheets and surveys", "why_tests_cant": "Every selection of stations in the sheet.", "anchors": ["welleng/errors/iscwsa_validate.py validate_workbook"]}
{"id": "C276", "title": "Misalignment tilts the hole equally in every direction", "statement": "The four misalignment terms XYM1 to XYM4 with one magnitude together give a tilt of the hole whose variance is the same in every direction across the hole, at every station that is not vertical.", "quantifier": "all inclinations, azimuths, magnitudes and directions across the hole", "why_tests_cant": "The statement is about all directions at once.", "anchors": ["welleng/errors/tool_errors.py XYM1", "welleng/errors/tool_errors.py XYM2", "welleng/errors/tool_errors.py XYM3", "welleng/errors/tool_errors.py XYM4"]}
{"id": "C277", "title": "Each pair of misalignment terms is isotropic", "statement": "The misalignment pair XYM3E and XYM4E, and the pair XYM3L and XYM4L, each with one magnitude, tilt the hole with the same variance in every direction across it, for every azimuth, at every station that is not vertical.", "quantifier": "all inclinations, azimuths, intervals and magnitudes", "why_tests_cant": "A wrong quadrant only shows in some azimuths.", "anchors": ["welleng/errors/tool_errors.py XYM3E", "welleng/errors/tool_errors.py XYM4E", "welleng/errors/tool_errors.py XYM3L", "welleng/errors/tool_errors.py XYM4L"]}
{"id": "C278", "title": "Wells of the standard set are the rows of their sheets", "statement": "The columns that get_well_data returns are those of the rows from the 17th on that have a number for the depth, in their order, and the entries at one place of the nine columns are of one row.", "quantifier": "all sheets, as cells", "why_tests_cant": "Every arrangement of rows and empty cells.", "anchors": ["welleng/io.py get_well_data"]}
{"id": "C279", "title": "A survey of the standard set starts at its own well", "statement": "make_survey gives, for each well of the imported standard set, the survey of that well, starting where that well starts.", "quantifier": "all workbooks and wells", "why_tests_cant": "Every workbook.", "anchors": ["welleng/io.py make_survey", "welleng/io.py get_standard_data"]}
{"id": "C280", "title": "A reported match is a match", "statement": "A term is reported as MATCH exactly when both implementations evaluated it and agree within 1e-10 in every component at every station; as NEAR_MATCH exactly when they agree within 1e-6 only, as DIFFER exactly when some component differs by more.", "quantifier": "all arrays and numbers of stations", "why_tests_cant": "Every pair of arrays.", "anchors": ["welleng/errors/conformance.py compare_model", "welleng/errors/conformance.py _classify"]}
{"id": "C281", "title": "Every hand-written weight function is compared", "statement": "A term that has a hand-written weight function is compared with it on every survey, with the values that the error model would use.", "quantifier": "all weight functions and surveys", "why_tests_cant": "Every function on every survey.", "anchors": ["welleng/errors/conformance.py _legacy_eval_term", "welleng/errors/conformance.py _ShimError"]}
{"id": "C282", "title": "Markers show each station once", "statement": "The markers of the plot of a survey show each station exactly once with its own coordinates, interpolated stations in one trace and measured ones in the other, each in the order of the survey.", "quantifier": "all surveys and patterns of interpolated stations", "why_tests_cant": "Every pattern of flags.", "anchors": ["welleng/visual.py _scatter3d"]}
{"id": "C283", "title": "Lines between wells are the reported distances", "statement": "get_lines gives one line for each station of the reference, from that station to a point of the offset well, as long as the reported distance and, up to the tolerance of the search, not longer than the distance to any station of the offset well.", "quantifier": "all surveys, with any optimiser that finds the minimum of an interval", "why_tests_cant": "Every pair of wells.", "anchors": ["welleng/clearance.py get_lines"]}
{"id": "C284", "title": "Diagnostics formulas use the values of their station", "statement": "The validation against diagnostics evaluates each formula with the depth, inclination, azimuths and vertical depth of each station.", "quantifier": "all formulas and stations", "why_tests_cant": "Every formula and every survey.", "anchors": ["welleng/errors/copsegrove_validate.py _bindings_for_station", "welleng/errors/copsegrove_validate.py validate_random_terms"]}
{"id": "C285", "title": "A plotted well mesh shows the whole mesh", "statement": "The figure of a well mesh draws every triangle of the mesh between points that it draws, and the edges of the triangles on request.", "quantifier": "all meshes, with any number of rings and vertices", "why_tests_cant": "A missing point shows only in the rendering.", "anchors": ["welleng/mesh.py WellMesh.figure", "welleng/visual.py _mesh3d"]}
{"id": "C286", "title": "A well mesh is closed on its own vertices", "statement": "Every triangle of a stored well mesh refers to vertices of that mesh; neighbouring rings are joined by triangles all round, and the ends are closed by triangles around the first and the last position of the well.", "quantifier": "all wells, numbers of stations and vertices per ring", "why_tests_cant": "Every number of stations and vertices.", "anchors": ["welleng/mesh.py WellMesh._make_trimesh", "welleng/mesh.py WellMesh._get_faces"]}
{"id": "C287", "title": "Formulas for vertical stations are used", "statement": "At stations where the hole is vertical, a term of a JSON tool model contributes what its formulas for vertical stations (north_singularity, east_singularity, vertical_singularity) say.", "quantifier": "all surveys and JSON terms with such formulas", "why_tests_cant": "Every vertical survey and every term.", "anchors": ["welleng/errors/tool_errors.py ToolError._call_interpreter", "welleng/errors/tool_errors.py _json_to_em_adapter"]}
{"id": "C288", "title": "The summary of a validation is its rows", "statement": "The summary of a validation report has one line for each source, in order of the code, marked PASS exactly when all its rows are within tolerance, with the depth and the errors of the row with the largest absolute error; the line of the totals counts the stations that pass and names the worst.", "quantifier": "all reports", "why_tests_cant": "Every set of rows.", "anchors": ["welleng/errors/iscwsa_validate.py ValidationReport.summary"]}
{"id": "C289", "title": "The coverage matrix counts every term", "statement": "In the conformance coverage matrix each cell is the number of terms of the model with that verdict, each row total the number of terms of the model, and the last row the sum of the rows.", "quantifier": "all models and verdicts", "why_tests_cant": "Every list of verdicts.", "anchors": ["welleng/errors/conformance.py main", "welleng/errors/conformance.py _print_one_model"]}
{"id": "C290", "title": "Hook loads for every friction factor and depth", "statement": "A hook load calculation gives, for each friction factor of its range and each load case, one value for each depth of its range: the tension at the top of the string lowered to that depth, with that friction factor in every section of the wellbore.", "quantifier": "all surveys, wellbores, strings, depths and friction factors", "why_tests_cant": "Every range and every string.", "anchors": ["welleng/torque_drag.py HookLoad"]}
{"id": "C291", "title": "Hole sections are listed once each", "statement": "get_hole_sections lists every hole section group that occurs in the data of a well exactly once, and get_hole_section_data has an entry for each group listed or asked for, with a row of a table exactly when a row of that table belongs to the group.", "quantifier": "all wells", "why_tests_cant": "Every document.", "anchors": ["welleng/exchange/edm.py Well.get_hole_sections", "welleng/exchange/edm.py Well.get_hole_section_data"]}
{"id": "C292", "title": "Pressure and temperature tables are complete", "statement": "get_ppfpt_data returns, for each of the pore pressure, fracture gradient and temperature tables of a well, all rows that have a group, a depth and a value, in order of depth; None only if the well has no such table.", "quantifier": "all wells", "why_tests_cant": "Every document.", "anchors": ["welleng/exchange/edm.py Well.get_ppfpt_data", "welleng/exchange/edm.py Well._get_ppfpt_data"]}
{"id": "C293", "title": "A straight well has no tortuosity", "statement": "The tortuosity index and the modified tortuosity index of a straight well are zero at every station, whatever the tolerances.", "quantifier": "all straight wells, numbers of stations and tolerances", "why_tests_cant": "Every direction, spacing and tolerance.", "anchors": ["welleng/survey.py tortuosity_index", "welleng/survey.py modified_tortuosity_index", "welleng/survey.py _get_ti_data"]}
{"id": "C294", "title": "One arc is one section", "statement": "A well that follows one circular arc is one section for every tolerance, and its tortuosity index at a station is half of kappa over the drilled length times the ratio of arc to chord less one.", "quantifier": "all circular arcs below a full circle, all stations along them", "why_tests_cant": "Every arc, in space, and every spacing of stations.", "anchors": ["welleng/survey.py tortuosity_index", "welleng/survey.py _get_ti_data"]}
{"id": "C295", "title": "A change of the bending direction starts a new section", "statement": "The tortuosity indices start a new section at every station where the direction in which the well bends changes by more than the tolerance.", "quantifier": "all surveys and tolerances", "why_tests_cant": "Every pair of normals.", "anchors": ["welleng/survey.py modified_tortuosity_index", "welleng/survey.py _get_ti_data"]}
{"id": "C296", "title": "A change of severity starts a new section", "statement": "With dls_tol given, the tortuosity indices start a new section at every station where the dogleg severity changes by more than that relative tolerance.", "quantifier": "all surveys and tolerances", "why_tests_cant": "Every pair of severities.", "anchors": ["welleng/survey.py modified_tortuosity_index", "welleng/survey.py _get_ti_data"]}
{"id": "C297", "title": "Method and function of the tortuosity index agree", "statement": "Survey.tortuosity_index cuts a survey into the same sections as the function tortuosity_index for the same arguments.", "quantifier": "all surveys and arguments", "why_tests_cant": "Every survey and tolerance.", "anchors": ["welleng/survey.py Survey.tortuosity_index", "welleng/survey.py tortuosity_index"]}
{"id": "C298", "title": "Sections do not depend on the compass direction", "statement": "Turning a whole well about the vertical does not change the sections of its tortuosity index.", "quantifier": "all surveys, tolerances and angles", "why_tests_cant": "Every angle and survey.", "anchors": ["welleng/survey.py _get_ti_data"]}
{"id": "C299", "title": "Maximum curvature has the requested severity", "statement": "In a survey returned by maximum_curvature, the dogleg severity at each inserted station is the severity of the interval plus the noise, and the station lies half-way along the interval, provided that severity is positive and turns the well by at most half a turn before the middle.", "quantifier": "all surveys in metres, intervals and noise values", "why_tests_cant": "Every direction, toolface and noise.", "anchors": ["welleng/survey.py Survey.maximum_curvature"]}
{"id": "C300", "title": "Maximum curvature bends the way the well bends", "statement": "maximum_curvature bends each interval in the direction in which the survey bends there: the toolface at an original station is unchanged.", "quantifier": "all surveys, intervals and noise values", "why_tests_cant": "Every direction, vertical stations included.", "anchors": ["welleng/survey.py Survey.maximum_curvature"]}
{"id": "C301", "title": "Maximum curvature works in either depth unit", "statement": "maximum_curvature returns a survey for surveys in metres and in feet.", "quantifier": "all surveys and noise values", "why_tests_cant": "Every header.", "anchors": ["welleng/survey.py Survey.maximum_curvature"]}
{"id": "C302", "title": "Maximum curvature keeps the survey stations", "statement": "The survey returned by maximum_curvature has the original stations at every second place, with depth, inclination, azimuth and interpolation flag, and one station marked as interpolated between any two of them.", "quantifier": "all surveys and noise values", "why_tests_cant": "Every number of stations.", "anchors": ["welleng/survey.py Survey.maximum_curvature"]}
{"id": "C303", "title": "The extraction scripts agree with the workbook reader", "statement": "From any model sheet that the workbook reader accepts, the extraction scripts make the table of error sources that the reader makes.", "quantifier": "all model sheets", "why_tests_cant": "Every arrangement of rows.", "anchors": ["welleng/errors/extract_owsg_codes_generic.py extract_codes", "welleng/errors/extract_owsg_codes_generic.py make_error_dict", "welleng/errors/extract_iscwsa_codes.py extract_codes", "welleng/errors/iscwsa_ingest.py to_legacy_codes_dict"]}
{"id": "C304", "title": "Gyro settings are grouped under their heading", "statement": "The extracted header of a model sheet holds the indented settings below each gyro heading as a group under that heading, angles in radians, and every other labelled row by its label.", "quantifier": "all sheets", "why_tests_cant": "Every number of groups, settings and blank rows.", "anchors": ["welleng/errors/extract_owsg_codes_generic.py extract_header"]}
{"id": "C305", "title": "Every tool of the index is found by its short name", "statement": "For every tool of the index sheet, get_index with the short name of the tool returns the key under which make_index stored that tool.", "quantifier": "all index sheets", "why_tests_cant": "Every number of tools and choice of prefixes.", "anchors": ["welleng/errors/extract_owsg_codes_generic.py make_index", "welleng/errors/extract_owsg_codes_generic.py get_index"]}
{"id": "C306", "title": "Computed positions are close to the true well", "statement": "If the stations of a survey are at most h apart along the hole and record the directions of a well whose curvature is nowhere more than \u03ba (with \u03bah < 2), then the position computed at every station is within \u03ba\u00b7h\u00b7(depth below the first station) of where the well is.", "quantifier": "all wells of bounded curvature and all surveys of them", "why_tests_cant": "Every shape of the hole between stations and every number of stations.", "anchors": ["welleng/utils.py MinCurve"]}
{"id": "C307", "title": "Feet and metres describe the same trajectory", "statement": "A survey given in feet has the trajectory of the same survey in metres: each position is the position in metres divided by 0.3048, doglegs are equal and the dogleg severity per 100 ft is 1.016 times that per 30 m.", "quantifier": "all surveys and start positions", "why_tests_cant": "Every number of stations.", "anchors": ["welleng/utils.py MinCurve"]}
{"id": "C308", "title": "A well that never points upwards never rises", "statement": "If no station of a survey is inclined by more than 90 degrees, no station and no point of the minimum curvature path lies above an earlier one.", "quantifier": "all surveys with non-decreasing depths", "why_tests_cant": "Every point between stations, every number of stations.", "anchors": ["welleng/utils.py MinCurve"]}
{"id": "C309", "title": "Leaving out stations never adds turn", "statement": "The sum of the doglegs of a survey is at least that of any survey made of some of its stations, and at least the angle between the directions of any two stations.", "quantifier": "all surveys and selections of their stations", "why_tests_cant": "Every selection.", "anchors": ["welleng/utils.py MinCurve", "welleng/utils.py get_dogleg"]}
{"id": "C310", "title": "Positions do not depend on the end one starts from", "statement": "Surveying the well from the last station up, with the directions reversed and starting from the last computed position, gives the same positions in reverse order.", "quantifier": "all surveys", "why_tests_cant": "Every number of stations.", "anchors": ["welleng/utils.py MinCurve"]}
{"id": "C311", "title": "Wells come no closer than reported", "statement": "Next to every point of the reference well there is a reference station whose reported centre-to-centre distance is at most the distance from that point to any point of the offset well, plus half the largest station spacing of either well and the tolerance of the optimiser.", "quantifier": "all pairs of wells with increasing depths, all points of both minimum curvature paths, all optimisers that find minima within a tolerance", "why_tests_cant": "Every pair of points of both paths, not only stations.", "anchors": ["welleng/clearance.py IscwsaClearance._get_closest_points", "welleng/clearance.py IscwsaClearance._fun"]}
{"id": "C312", "title": "Uncertainty does not depend on the depth unit", "statement": "A survey given in feet has the uncertainty of the same survey in metres: every covariance is that in square metres divided by 0.3048 squared.", "quantifier": "all surveys, tool models and stations", "why_tests_cant": "Every source of error and number of stations.", "anchors": ["welleng/error.py ErrorModel", "welleng/errors/tool_errors.py ToolError", "welleng/errors/tool_errors.py DREF", "welleng/errors/tool_errors.py XYM3E"]}
{"id": "C313", "title": "Every vertical depth the well passes is found", "statement": "For any survey and any vertical depth that lies between the vertical depths of two neighbouring stations, interpolating at that vertical depth returns a point of the well.", "quantifier": "all surveys, including wells that rise, all vertical depths passed between two neighbouring stations", "why_tests_cant": "The station list is searched by bisection as if it were sorted; which interval is looked at on a well that rises depends on the whole list.", "anchors": ["welleng/survey.py:interpolate_tvd"]}
{"id": "C314", "title": "Levels of a resampled survey lie on the well", "statement": "Each station that resampling a survey at regular vertical depths inserts between two stations is a point of the well between them: it is at its level's vertical depth, at the first measured depth of the interval where the well has that vertical depth, and has the direction of the well there.", "quantifier": "all surveys with positions by minimum curvature and turns of less than half a circle, all steps, any number of levels per interval", "why_tests_cant": "Each level is searched on an arc from the last inserted station to the lower station, but with the angles of the whole interval; errors would add up over the levels of an interval, for any number of them.", "anchors": ["welleng/survey.py:interpolate_survey_tvd", "welleng/survey.py:get_node_tvd", "welleng/survey.py:interpolate_tvd"]}
{"id": "C315", "title": "Small errors of a survey move its positions by a bounded amount", "statement": "Two surveys with the same measured depths whose directions differ by at most a given amount at every station have positions that differ by at most that amount times the measured depth from the first station, times the ratio factor of the largest turn of an interval. If the directions agree and the length of each interval differs by at most a given fraction, the positions differ by at most that fraction of the measured depth. A survey taken of a real well is therefore off by at most the discretisation error plus this bound.", "quantifier": "all pairs of surveys of any number of stations with depths that do not decrease and turns of at most D < pi, all sizes of the errors; all smooth wells of bounded curvature", "why_tests_cant": "The error of a position is the sum over all intervals above it, and each interval depends on the errors at both ends through the dogleg and the ratio factor; a test sees one perturbation of one survey.", "anchors": ["welleng/utils.py:MinCurve", "welleng/utils.py:get_rf", "welleng/utils.py:min_curve_step"]}
{"id": "C316", "title": "Further or larger error sources never make a well look safer", "statement": "Leaving sources out of a tool error model, or making some of them smaller, never makes the calculation fail and never increases the position uncertainty at any station in any direction, in total or for any one kind of propagation. So adding a source to the model of either of two wells, or enlarging one, never raises the separation factor between them while the bores with their margin do not overlap.", "quantifier": "all tool models (any number of sources, any magnitudes of either sign), all surveys, all stations, all directions; all station pairs of two wells, each with its own model", "why_tests_cant": "It must hold for every subset of the sources and every survey; negative weights, forced propagation modes and the replacement of singular rows could each break it for a particular source at a particular station.", "anchors": ["welleng/errors/tool_errors.py:ToolError", "welleng/error.py:ErrorModel", "welleng/clearance.py:IscwsaClearance"]}
{"id": "C317", "title": "Reported distances bound the distance of the wells as drilled", "statement": "Take two wells as they were drilled, with bounded curvature, and surveys of them whose directions and start are not exact. For every point of one well there is a station of its survey at which the reported closest distance to the other well is at most the true distance from that point to any point of the other well, plus half a station spacing of each survey, the tolerance of the search and the position errors of the two surveys (start error plus the curvature-times-spacing and direction-error terms times the length surveyed). So the wells are nowhere closer than the smallest reported distance less these amounts.", "quantifier": "all pairs of smooth wells of bounded curvature, all surveys of them of any length and spacing with turns of less than half a circle, all sizes of measurement and start errors, every point of either well", "why_tests_cant": "It joins the survey calculation, its errors between and at stations, and the search for the closest point; no test knows the true well, and no finite set of wells covers the quantifiers.", "anchors": ["welleng/utils.py:MinCurve", "welleng/survey.py:Survey", "welleng/clearance.py:IscwsaClearance"]}
{"id": "C318", "title": "More friction never makes pulling or turning easier", "statement": "Raising any of the friction factors along the string never lowers the pickup (or overpull) tension or any torque, never raises the slackoff (or sliding) tension, and leaves the rotating and drilling tension as they were, at every node of the string, whatever weight on bit, torque on bit and overpull are given. It holds as long as friction factors and pipe radii are not negative and on each element the friction factor times the turn (in radians) is at most one.", "quantifier": "all strings of any number of elements, all pairs of friction factors of which the second is nowhere smaller, all loads at the bit", "why_tests_cant": "The loads are carried from element to element through a square root, so a higher friction could pay off further up; only an induction over the elements rules that out for every string.", "anchors": ["welleng/torque_drag.py:TorqueDrag", "welleng/torque_drag.py:force_normal", "welleng/torque_drag.py:force_tension_delta", "welleng/torque_drag.py:HookLoad"]}
{"id": "C319", "title": "Loads are proportional to the weights", "statement": "If every buoyed weight, the weight on bit, the torque on bit and the overpull are multiplied by the same positive number, every tension and torque profile is multiplied by it.", "quantifier": "all strings of any number of elements, all positive factors, all loads at the bit given or left out", "why_tests_cant": "It is what makes the results independent of the unit of force; it has to hold along the whole recursion, for every string and factor.", "anchors": ["welleng/torque_drag.py:TorqueDrag", "welleng/torque_drag.py:force_normal", "welleng/torque_drag.py:force_tension_delta"]}
{"id": "C320", "title": "A connection with a target direction joins the given positions", "statement": "A Connector built from a start position and direction to a target position and direction starts at the given start position and ends at the given target position.", "quantifier": "all start and target positions and directions, design severities and tolerances, all random numbers drawn", "why_tests_cant": "The search may shift a point it aims at by a random offset; whether this ever reaches the user's own positions depends on every step and retry of the search.", "anchors": ["welleng/connector.py:Connector._target_pos_and_vec_defined", "welleng/connector.py:minimize_target_pos_and_vec_defined", "welleng/connector.py:Connector._get_distances", "welleng/connector.py:Connector._mod_pos"]}
{"id": "C321", "title": "The search for a path with two curves ends and is well defined", "statement": "The search makes at most max_iterations x (max_iterations + 3) steps. A step never fails and never produces an undefined number: in each half the radius is at most the one asked for and at most the largest one that still reaches the point aimed at, and lengths and angles are not negative. The search as a whole succeeds if a positive shortest hold is asked for, neither end lies straight ahead of the other, and the ends are at least four times the smaller design radius apart.", "quantifier": "all start and target positions and directions, radii, tolerances from 0 up to (not including) 1, all iteration limits", "why_tests_cant": "The search repeats a step up to a million times with default settings, with retries that depend on the outcome; tests see only a few paths through it.", "anchors": ["welleng/connector.py:Connector._target_pos_and_vec_defined", "welleng/connector.py:minimize_target_pos_and_vec_defined"]}
{"id": "C322", "title": "The search starts from a point that can be reached", "statement": "If the middle between the two ends lies inside a turning circle, the search starts from a point outside the turning circle of the start, if possible also outside that of the target, and its first step draws a curve and a hold from the start to that point.", "quantifier": "all start directions, target positions, radii and tolerances", "why_tests_cant": "The fallback point is said to be in the reachable region for every geometry; only a general argument covers all directions.", "anchors": ["welleng/connector.py:minimize_target_pos_and_vec_defined", "welleng/connector.py:min_dist_to_target"]}
{"id": "C323", "title": "Moving the origin moves the connection", "statement": "If the start and the target of a Connector to a position are moved by the same vector, the connection is moved by that vector and is otherwise the same.", "quantifier": "all start poses, target positions, radii, tolerances and shifts of the origin", "why_tests_cant": "Comparisons with a relative tolerance depend on the size of coordinates; tests use coordinates near zero.", "anchors": ["welleng/connector.py:Connector._get_distances", "welleng/connector.py:Connector._use_method"]}
{"id": "C324", "title": "A connection is not shorter than the distance", "statement": "The measured depth a Connector adds between its start and a target position is at least the straight distance between them.", "quantifier": "all start poses, target positions, radii and tolerances", "why_tests_cant": "It must hold for every geometry and every size of coordinates, including map coordinates of thousands of kilometres.", "anchors": ["welleng/connector.py:Connector._get_distances", "welleng/connector.py:Connector._min_curve_to_target", "welleng/connector.py:Connector._min_dist_to_target"]}
{"id": "C325", "title": "The severities reported after a search cover its curves", "statement": "After a search for a path with two curves, dls and dls2 (angles in radians over 30 m) are, up to a share of 100 times min_error, at least the severities of the two curves of the last step, and dls at least that of the first curve delivered: a curve of length L that turns by an angle T has 30 T (1 - 100 min_error) <= dls L. Each is the larger of the design severity and that of the smallest radius the search had to use, and the design severity itself if the search never had to use a smaller one.", "quantifier": "all start and target positions and directions, positive design radii, tolerances from 0 up to (not including) 1, positive iteration limits", "why_tests_cant": "The reported value is a running minimum over all steps and retries; whether it covers the last curve depends on every update in the search.", "anchors": ["welleng/connector.py:Connector._target_pos_and_vec_defined", "welleng/connector.py:minimize_target_pos_and_vec_defined"]}
{"id": "C326", "title": "A plan with a parent takes its surface location from the parent file", "statement": "A WellPlan made from a survey and the lines of a parent file has as its surface location the first location of the parent file, to half a hundredth of a unit.", "quantifier": "all parent files with a location line, whatever precedes and follows it", "why_tests_cant": "The location is found by searching text lines for two characters that may also occur in a name, and the conversion depends on an alias that recent numpy versions no longer have.", "anchors": ["welleng/exchange/wbp.py:WellPlan._get_surface_location", "welleng/exchange/wbp.py:get_parent_survey", "welleng/exchange/wbp.py:export", "welleng/exchange/wbp.py:load"]}
{"id": "C327", "title": "A plan exported with a parent file brings back the parent's plans and its own", "statement": "If a plan has a parent file that itself was written by the exporter, the file written for the new plans loads as the plans of the parent, in order, followed by the new plans; every step is reproduced to the precision written.", "quantifier": "all lists of plans of the parent and all lists of new plans, all targets", "why_tests_cant": "The parent's lines are spliced into the new file by a search for a word; the result depends on every line of the parent.", "anchors": ["welleng/exchange/wbp.py:WellPlan._get_surface_location", "welleng/exchange/wbp.py:get_parent_survey", "welleng/exchange/wbp.py:export", "welleng/exchange/wbp.py:load"]}
{"id": "C328", "title": "Parent plans keep their units", "statement": "Plans of a parent file in units other than those of the new plans are loaded with their own units.", "quantifier": "all lists of plans of the parent and all lists of new plans, all pairs of units", "why_tests_cant": "The units of a file are written once; only mixed files show whether the parent's are kept.", "anchors": ["welleng/exchange/wbp.py:WellPlan._get_surface_location", "welleng/exchange/wbp.py:get_parent_survey", "welleng/exchange/wbp.py:export", "welleng/exchange/wbp.py:load"]}
{"id": "C329", "title": "A mirrored well has the mirrored uncertainty", "statement": "If every azimuth of a survey (true, grid and magnetic) changes sign, every covariance a tool model gives is mirrored in the vertical plane through north: variances and the north-vertical covariance are unchanged, the covariances with east change sign; in total and for each kind of propagation. If the tool model fails it fails with the same exception. For the two extended misalignment sources this holds if stations below the vertical inclination limit are exactly vertical.", "quantifier": "all tool models, surveys, magnitudes and propagation modes", "why_tests_cant": "Each of some sixty weighting functions has its own signs, special rows for vertical stations and absolute values; a wrong sign shows only in one half of the compass.", "anchors": ["welleng/errors/tool_errors.py:ToolError", "welleng/error.py:ErrorModel._generate_error", "welleng/error.py:ErrorModel._drdp"]}
{"id": "C330", "title": "JSON tool models use the values of the survey header", "statement": "The formulas of a JSON tool model are evaluated with gravity, dip, field strength, latitude and earth rate of the survey's header.", "quantifier": "all headers, surveys, formulas, magnitudes and units", "why_tests_cant": "The default header agrees with the built-in constants to six digits, so only headers with values of their own show which are read.", "anchors": ["welleng/errors/tool_errors.py:ToolError._call_interpreter", "welleng/errors/conformance.py:_bindings_from_survey", "welleng/survey.py:SurveyHeader"]}
{"id": "C331", "title": "Clearances do not depend on origin, north or handedness", "statement": "If both wells (positions, azimuths and covariances) are shifted by the same vector, turned by the same angle about the vertical or mirrored in the same vertical plane, the closest point found at each reference station is the moved one, at the same distance, and every reported number (distance, uncertainty towards the other well, boundary, separations, allowed distance, separation factor) is the same; with mirrored wells also if the covariances are computed by tool models.", "quantifier": "all pairs of wells without turns of 180 degrees, all shifts, angles and planes, all covariances, radii and settings, any optimiser", "why_tests_cant": "The search runs on interpolated arcs whose directions are reduced to compass angles; symmetry must hold for all wells and motions.", "anchors": ["welleng/clearance.py:IscwsaClearance", "welleng/survey.py:_interpolate_pos_nev"]}
{"id": "C332", "title": "A connection to a position turns with the coordinates", "statement": "Turning start, start direction and target of a position-only connection by any angle about the vertical turns the path and leaves its lengths, radius and severity as they were.", "quantifier": "all starts, directions, targets, design radii and angles", "why_tests_cant": "The closeness test between start and target is relative per axis; it only matters far from the origin.", "anchors": ["welleng/connector.py:Connector._get_distances", "welleng/connector.py:Connector._mod_pos", "welleng/connector.py:get_vec_target"]}
{"id": "C333", "title": "Turning the coordinates by a quarter turn turns the connection", "statement": "If start, directions and target are turned by 90 degrees about the vertical, the connection to a position is the turned one; the search for a path with two curves succeeds or fails alike, after as many iterations, with the same depths, radii and severities and the turned points and directions (target off the line of the start, start not straight behind the target); and the finished path with its rescues is the turned one.", "quantifier": "all starts, directions, targets, radii, tolerances and iteration counts", "why_tests_cant": "The search is a loop that picks candidate directions by comparison; invariance has to hold at each of its steps.", "anchors": ["welleng/connector.py:Connector"]}
{"id": "C334", "title": "The connection to a mirrored position is the mirrored connection", "statement": "If start, start direction and target are mirrored in the north-vertical plane, the connection to a position is the mirrored one, with the same lengths, radius and severity; so is the finish of a path with two curves, given mirrored results of its searches.", "quantifier": "all starts, directions, targets, radii and search results", "why_tests_cant": "Mirrored pairs of inputs are not compared in tests; the branches are chosen by tests on single coordinates.", "anchors": ["welleng/connector.py:Connector"]}
{"id": "C335", "title": "Clearance does not depend on which well is the reference", "statement": "With reference and offset well exchanged, a clearance run reports the same smallest distance.", "quantifier": "all pairs of wells, all optimisers", "why_tests_cant": "The run takes the stations of one well and interpolates the other; whether the choice matters depends on the geometry.", "anchors": ["welleng/clearance.py:IscwsaClearance", "welleng/clearance.py:Clearance"]}
{"id": "C336", "title": "Torque and drag of a mirrored well are the same", "statement": "Mirroring a well in the vertical plane through north does not change any tension or torque.", "quantifier": "all surveys, strings, friction factors and load cases", "why_tests_cant": "Holds for every survey only if azimuth differences are taken the short way round; most test wells do not touch north.", "anchors": ["welleng/torque_drag.py:TorqueDrag.get_azi_delta", "welleng/torque_drag.py:force_normal"]}
{"id": "C337", "title": "A mirrored well is as tortuous and as difficult", "statement": "A well mirrored in the vertical plane through north is cut into the same sections and has the same tortuosity index, modified tortuosity index and directional difficulty index.", "quantifier": "all surveys, tolerances, coefficients and scales", "why_tests_cant": "The sections are found by comparing axes of turn coordinate by coordinate; symmetry must hold for every survey.", "anchors": ["welleng/survey.py:_get_ti_data", "welleng/survey.py:tortuosity_index", "welleng/survey.py:modified_tortuosity_index", "welleng/survey.py:directional_difficulty_index"]}
{"id": "C338", "title": "A mirrored well has the mirrored control points", "statement": "If a well is mirrored in the vertical plane through north, and no two of its stations have opposite azimuths, get_sections returns control points at the same stations with mirrored azimuth and easting, the same build rate and dogleg severity, and the turn rate and toolface with the other sign (the toolface keeps its sign where the azimuth does not change).", "quantifier": "all surveys with azimuths below 360 degrees, all tolerances and units", "why_tests_cant": "The sign of a turn is found by comparing azimuths with half a turn; every pair of azimuths, on both sides of north, has to be right.", "anchors": ["welleng/survey.py:get_sections"]}
{"id": "C339", "title": "Resampling without a step changes nothing", "statement": "interpolate_survey(step=None) on a survey in metres returns a survey with the same measured depths and, at each, the same direction.", "quantifier": "all surveys of at least two stations more than 0.1 mm apart, each interval straight or turning by less than half a circle at no less than the dls parameter", "why_tests_cant": "Each interval is rebuilt by a connector and the ends of neighbouring intervals are merged; every length of survey and every turn must come out.", "anchors": ["welleng/survey.py:interpolate_survey", "welleng/connector.py:interpolate_curve", "welleng/connector.py:interpolate_hold"]}
{"id": "C340", "title": "The scale of the tortuosity indices can be set", "statement": "tortuosity_index and modified_tortuosity_index are proportional to the keyword argument kappa.", "quantifier": "all surveys, tolerances and scales", "why_tests_cant": "An unknown keyword is accepted silently, so only a comparison of two scales shows it.", "anchors": ["welleng/survey.py:tortuosity_index", "welleng/survey.py:modified_tortuosity_index", "welleng/survey.py:Survey.modified_tortuosity_index"]}
{"id": "C341", "title": "A further station on a straight interval keeps the systematic uncertainty", "statement": "If a survey gets a further station between two stations of the same direction, the systematic, global and within-pad parts of the covariance at all other stations stay as they are.", "quantifier": "all surveys, all straight intervals below the first one at or above the vertical inclination limit, all depths of the further station, all tool models whose sources weighted by the distance between stations are random", "why_tests_cant": "The further station changes the weight of its two neighbours and every later sum; that the changes cancel for every source, survey and position is not visible in examples.", "anchors": ["welleng/error.py:_e_NEV", "welleng/error.py:_e_NEV_star", "welleng/error.py:_sigma_e_NEV_systematic", "welleng/errors/tool_errors.py:ToolError"]}
{"id": "C342", "title": "A further station on a straight interval never raises the uncertainty", "statement": "If a survey gets a further station between two stations of the same direction, at no other station and in no direction is the total uncertainty larger than before.", "quantifier": "all surveys with depths in order, all straight intervals below the second one (below the first one for rev4 models) at or above the vertical inclination limit, all tool models without sources weighted by the distance between stations", "why_tests_cant": "An inequality between sums over all stations, for every direction; random sources really do change.", "anchors": ["welleng/error.py:_generate_error", "welleng/error.py:_drdp", "welleng/errors/tool_errors.py:ToolError"]}
{"id": "C343", "title": "Positions and directions change no faster than the depth", "statement": "The positions interpolated at two measured depths of a survey are no further apart than the two depths, and the directions there differ by at most the largest dogleg severity of the survey times the difference of the depths.", "quantifier": "all surveys with increasing depths and doglegs below 180 degrees, all pairs of depths within the survey, also in different intervals", "why_tests_cant": "Two depths anywhere in a survey of any number of stations; the jump a wrong interpolation makes at some station is only seen at depths close to it.", "anchors": ["welleng/survey.py:Survey.interpolate_md", "welleng/survey.py:interpolate_md", "welleng/survey.py:_interpolate_survey", "welleng/utils.py:MinCurve"]}
{"id": "C344", "title": "A survey continued with the covariance reached has the uncertainty of the survey in one piece", "statement": "If a survey is continued from its last station in a second survey that starts with the covariance of that station, the second survey reports the covariances that one survey through all stations would report.", "quantifier": "all surveys, all stations at which they are cut, all sources of a tool model, all stations below the cut", "why_tests_cant": "What the station of the cut contributes to the interval below it is missing from every later station; whether and in which direction this matters depends on source, propagation and position.", "anchors": ["welleng/survey.py:Survey._get_errors", "welleng/survey.py:project_to_target", "welleng/error.py:_e_NEV", "welleng/error.py:_generate_error"]}
{"id": "C345", "title": "Uncertainty never decreases down the well", "statement": "The position uncertainty that a tool model gives a station is, in no direction, smaller than the one it gives the station above.", "quantifier": "all surveys, all sources of a tool model, all neighbouring stations, all directions", "why_tests_cant": "Depth errors count along the tangent, which turns with the well; whether a component shrinks depends on the source, its propagation and the shape of the whole well.", "anchors": ["welleng/error.py:_e_NEV", "welleng/error.py:_e_NEV_star", "welleng/error.py:_generate_error", "welleng/errors/tool_errors.py:ToolError"]}
{"id": "C346", "title": "Resampling at a step that all stations already follow returns the survey", "statement": "If a survey has a station at every multiple of the step that lies within its depths, interpolating the survey with that step returns the same stations: none added, none removed, none moved.", "quantifier": "all surveys, all steps, all well shapes without a reversal of direction", "why_tests_cant": "Adding a point twice, or dropping the station at the end of an interval, depends on the residue of each depth by the step.", "anchors": ["welleng/survey.py:interpolate_survey", "welleng/connector.py:interpolate_curve", "welleng/connector.py:interpolate_hold"]}
{"id": "C347", "title": "A further station on a straight interval does not change the loads", "statement": "Adding a station to an interval on which inclination and azimuth do not change, with its weight divided between the two parts, changes none of the tension and torque profiles at the other stations: off bottom, drilling or with an overpull.", "quantifier": "all strings of one diameter, all wells, all positions of the station, all bit loads, torques and overpulls", "why_tests_cant": "The profiles are accumulated from the bit upwards through a normal force that is not linear in the tension; the effect of splitting one step would have to vanish at every station above.", "anchors": ["welleng/torque_drag.py:TorqueDrag.get_forces_and_torsion", "welleng/torque_drag.py:force_normal", "welleng/torque_drag.py:force_tension_delta", "welleng/torque_drag.py:torsion_delta"]}
{"id": "C348", "title": "Resampling twice is resampling once", "statement": "Interpolating a survey with a step and interpolating the result again with the same step gives the same survey: the same depths and the same directions.", "quantifier": "all surveys, all steps, all well shapes without a reversal of direction", "why_tests_cant": "The second pass sees shorter intervals, which may be taken as straight, rejected as too sharp or yield duplicate points; this depends on where every depth falls between the multiples of the step.", "anchors": ["welleng/survey.py:interpolate_survey", "welleng/connector.py:interpolate_curve", "welleng/connector.py:interpolate_hold"]}
{"id": "C349", "title": "A finer step refines a coarser one", "statement": "Interpolating a survey with a multiple of a step first and with the step afterwards gives the same depths and directions as interpolating it with the step at once, and every station of the coarse survey is a station of the fine one.", "quantifier": "all surveys, all steps and their multiples, all well shapes without a reversal of direction", "why_tests_cant": "Two routes through different sets of intervals would have to be compared for every residue of the depths by both steps.", "anchors": ["welleng/survey.py:interpolate_survey", "welleng/connector.py:interpolate_curve", "welleng/connector.py:interpolate_hold"]}
{"id": "C350", "title": "A string does not depend on the end it is built from", "statement": "Sections that together fill a string can be added from the top down or from the bottom up: both succeed, both report the string complete, hold the same sections with the same tops and bottoms, and give the same section at every depth.", "quantifier": "all lists of sections with positive lengths that add up to the length of the string, all properties of the sections, all depths asked for", "why_tests_cant": "The two methods place, check and number sections by different code; agreement is needed for every number of sections and all lengths.", "anchors": ["welleng/architecture.py:String.add_section_top_down", "welleng/architecture.py:String.add_section_bottom_up", "welleng/architecture.py:String.depth"]}
{"id": "C351", "title": "Interpolating a resampled survey gives the nodes of the survey", "statement": "At every depth between the first and the last station, interpolate_md of a survey resampled with a step gives the same position and direction as interpolate_md of the survey itself, whatever reference the header gives the azimuths.", "quantifier": "all surveys that can be resampled exactly, all steps, all depths, all headers and start positions", "why_tests_cant": "The two interpolations work in different intervals with different end directions; agreement is a property of every depth and every shape of well.", "anchors": ["welleng/survey.py:interpolate_survey", "welleng/survey.py:interpolate_md", "welleng/survey.py:_interpolate_survey"]}
{"id": "C352", "title": "Resampling keeps turn and dogleg severity", "statement": "The doglegs reported for a resampled survey add up to the total of the survey, and every interval of the resampled survey is reported with the dogleg severity of the interval of the survey it is a part of.", "quantifier": "all surveys that can be resampled exactly, all steps, all headers", "why_tests_cant": "Angles between interpolated directions would have to add up along every arc; rounding points to one interval or the other changes single values only.", "anchors": ["welleng/survey.py:interpolate_survey", "welleng/utils.py:MinCurve"]}
{"id": "C353", "title": "The order of the sources of a tool model does not matter", "statement": "The covariances computed for a survey, in total and for each propagation mode, are the same for every order in which the tool model lists its error sources, and the computation fails for one order exactly when it fails for every other.", "quantifier": "all tool models, all orders of their sources, all surveys", "why_tests_cant": "A tool model of n sources has n! orders and the totals are built up by mode; a test compares a few orders at best.", "anchors": ["welleng/errors/tool_errors.py:ToolError", "welleng/error.py:ErrorModel"]}
{"id": "C354", "title": "Splicing surveys in steps is splicing them at once", "statement": "splice_surveys of the first surveys, followed by splice_surveys of the result and the remaining surveys, gives the same header, depths, inclinations, azimuths in the reference of the header, covariances and radii as splice_surveys of all of them at once.", "quantifier": "all non-empty lists of surveys with covariances, all ways to cut the list, non-magnetic azimuth reference, depths in metres", "why_tests_cant": "The result of the first call goes through the constructor again, which rewrites azimuths; equality has to hold for every number of surveys and every cut.", "anchors": ["welleng/survey.py:splice_surveys", "welleng/survey.py:SurveyData"]}
{"id": "C355", "title": "Positions do not depend on the depth datum", "statement": "Adding the same amount to every measured depth of a survey leaves the positions, doglegs, dogleg severities and station intervals unchanged, and interpolate_md at a depth counted from the new datum gives the same node, or fails as before.", "quantifier": "all surveys, all shifts of the datum, all depths, all start positions", "why_tests_cant": "Interpolation searches the depths and works with differences; that no absolute depth enters has to hold for every survey and every shift.", "anchors": ["welleng/utils.py:MinCurve", "welleng/survey.py:Survey", "welleng/survey.py:interpolate_md"]}
{"id": "C356", "title": "A survey made from connections runs along them", "statement": "from_connections(connections, step) of solved connections that start one where the other ends returns a survey whose depths increase from the start of the first connection to the end of the last, with a station at every end and joint of a connection; every station lies on the path of arcs and straights of the connections, in the direction of the path there. For an arc, a straight and an arc the survey passes through both joints and ends at the end point of the second arc in its end direction.", "quantifier": "all lists of connections whose arcs turn by less than half a circle and not within 1e-10 of zero and whose straights have positive length, all positive steps or none, wanted depths equal or more than 1e-4 apart, metres, default header and start", "why_tests_cant": "Every connection is subdivided at multiples of the step, duplicates are dropped and all positions are computed again by minimum curvature; that they fall on the planned path has to hold for every list and step.", "anchors": ["welleng/survey.py:from_connections", "welleng/connector.py:interpolate_well", "welleng/connector.py:interpolate_curve", "welleng/connector.py:interpolate_hold"]}
{"id": "C357", "title": "A survey made from connect_points passes through the points", "statement": "The survey that from_connections(connect_points(points), step) returns starts at the first point, has for every further point a station at the depth where its connection ends whose position is that point, and ends at the last point.", "quantifier": "all lists of points and severities where each next point is straight ahead, or off the direction of the hole and reached by a curve (of the design severity, or sharper within the turning circle) that turns by less than half a circle and not within 1e-10 of zero, all positive steps or none, wanted depths equal or more than 1e-4 apart", "why_tests_cant": "The points are met only if the solver, the subdivision and minimum curvature agree for every connection in the chain; each connection starts from the computed end of the one before.", "anchors": ["welleng/connector.py:connect_points", "welleng/survey.py:from_connections", "welleng/connector.py:interpolate_well"]}
{"id": "C358", "title": "from_connections compares depths at the given number of decimals", "statement": "from_connections(connections, decimals=d) drops a station as a duplicate only if its depth equals the depth before it when both are rounded to d decimals (six by default).", "quantifier": "all lists of connections, all numbers of decimals", "why_tests_cant": "Only depths closer than the rounding of another number of decimals show the difference.", "anchors": ["welleng/survey.py:from_connections", "welleng/survey.py:_remove_duplicates"]}
{"id": "C359", "title": "The density sought at a depth is unique, and hotter mud is not denser", "statement": "The density that balances the column down to a depth, which get_density_profile searches for, is unique among densities that are not negative; with the same mud, top temperature and applied pressure, a steeper temperature gradient does not give a larger density.", "quantifier": "all positive depths, top densities, temperatures, gradients and applied pressures, all volume fractions that are not negative and leave some solids, oil and water densities positive at top and bottom temperature under the applied pressure", "why_tests_cant": "The balance is an integral equation in the density sought; tests can only compare a few numerical solutions.", "anchors": ["welleng/fluid.py:Fluid.get_density_profile", "welleng/fluid.py:Fluid._func"]}
{"id": "C360", "title": "Applied pressure does not make the mud lighter", "statement": "With the same mud and temperatures, a larger applied pressure does not give a smaller density at any depth.", "quantifier": "all positive depths, top densities, temperatures and gradients, all pairs of applied pressures, all volume fractions that are not negative and leave some solids", "why_tests_cant": "The effect is small, and its sign depends on whether the liquids get denser or lighter down the column.", "anchors": ["welleng/fluid.py:Fluid.get_density_profile", "welleng/fluid.py:Fluid._func"]}
{"id": "C361", "title": "Only the depth scale and stretch sources know the datum of the depths", "statement": "A tool model without depth scale (DSF) and stretch (DST) sources gives the same covariances, or fails in the same way, when all measured depths are counted from another datum and vertical depths from any other.", "quantifier": "all surveys with their magnetic data, all shifts of measured depth and all vertical depths, all lists of sources other than those two, with any magnitudes and propagation modes, both revisions", "why_tests_cant": "Every source has its own weighting function, with special cases at vertical stations that read depths by position; each must use differences of depths only.", "anchors": ["welleng/errors/tool_errors.py:ToolError", "welleng/error.py:ErrorModel", "welleng/errors/tool_errors.py:DSF", "welleng/errors/tool_errors.py:DST"]}
{"id": "C362", "title": "Two sources of the same kind add in squares", "statement": "Two sources of a tool model with the same weighting function and propagation mode, anywhere in the model, give the same totals as one source with the root of the sum of the squares of their magnitudes.", "quantifier": "all surveys, tool models and magnitudes, all weighting functions and propagation modes, every station", "why_tests_cant": "The sum runs over per-station matrices of about fifty weighting functions, some with special rows at vertical stations; tests compare a few models.", "anchors": ["welleng/errors/tool_errors.py:ToolError", "welleng/error.py:ErrorModel._generate_error"]}
{"id": "C363", "title": "The uncertainty of a magnetic survey turns with the declination", "statement": "With the same azimuths from magnetic north, a declination larger by an angle turns the covariance of position at every station by that angle about the vertical.", "quantifier": "all surveys, all angles, all tool models", "why_tests_cant": "Weights use azimuths from magnetic north, propagation those from true north; every source has to keep them apart, at vertical stations also.", "anchors": ["welleng/errors/tool_errors.py:ToolError", "welleng/error.py:ErrorModel.drdp", "welleng/survey.py:Survey"]}
{"id": "C364", "title": "A scene contains every well mesh once", "statement": "make_trimesh_scene of a list of well meshes returns a scene that contains each of them once, and of a dictionary of well meshes one that contains each of them under its name.", "quantifier": "all lists and dictionaries of well meshes", "why_tests_cant": "The documented form of the argument is a list; the loop has to treat every list and dictionary.", "anchors": ["welleng/mesh.py:make_trimesh_scene", "welleng/mesh.py:to_trimesh"]}
{"id": "C365", "title": "Without friction all load cases agree", "statement": "Where the friction factor is zero, the pick-up, slack-off and rotating tensions are the same at every station and there is no torque; an overpull and the torque on bit are felt unchanged at every station.", "quantifier": "all surveys, strings and weights, all weights on bit, torques on bit and overpulls", "why_tests_cant": "The three cases are carried side by side through a loop over the elements; that they agree has to hold at every station of every string.", "anchors": ["welleng/torque_drag.py:TorqueDrag.get_forces_and_torsion", "welleng/torque_drag.py:force_tension_delta", "welleng/torque_drag.py:torsion_delta"]}
{"id": "C366", "title": "The hanging weight of a uniform string is its weight over the vertical depth it spans", "statement": "The rotating tension of a string of constant weight per unit of length is that weight times the vertical depth from the station to the end of the string.", "quantifier": "all surveys, unit weights and stations", "why_tests_cant": "Loads are added up with the mean inclination of each interval, vertical depths follow the arc; they can only be compared for all curves at once.", "anchors": ["welleng/torque_drag.py:TorqueDrag.get_inc_average", "welleng/torque_drag.py:TorqueDrag.get_forces_and_torsion", "welleng/torque_drag.py:force_tension_delta", "welleng/utils.py:MinCurve"]}
{"id": "C367", "title": "Tortuosity and difficulty do not depend on the origin", "statement": "Adding a constant to all measured depths and moving the coordinates changes neither the sections nor the tortuosity index, the modified index and the directional difficulty index of a well.", "quantifier": "all surveys, datums, origins and tolerances", "why_tests_cant": "Every shift of every survey; test wells start at depth zero and at the origin.", "anchors": ["welleng/survey.py:tortuosity_index", "welleng/survey.py:modified_tortuosity_index", "welleng/survey.py:directional_difficulty_index", "welleng/survey.py:_get_ti_data"]}
{"id": "C368", "title": "Vertical sections at all azimuths follow from two", "statement": "The vertical section at an azimuth is that along north times the cosine of the azimuth plus that along east times the sine; in particular the section at the opposite azimuth is the negative.", "quantifier": "all surveys, azimuth references and section azimuths", "why_tests_cant": "All real azimuths; the section azimuth also replaces the azimuth of vertical stations, so it enters twice.", "anchors": ["welleng/survey.py:Survey.get_vertical_section", "welleng/survey.py:Survey._get_vertical_section"]}
{"id": "C369", "title": "A covariance taken apart is put together again", "statement": "make_long_cov gives back a symmetric covariance from the six elements listed by errors_from_cov or by get_sigmas with long=True; make_cov of three standard deviations is a covariance with these deviations.", "quantifier": "all symmetric matrices and all standard deviations", "why_tests_cant": "All real matrices; an order that differs between two functions is not seen on matrices with equal elements.", "anchors": ["welleng/utils.py:make_long_cov", "welleng/utils.py:errors_from_cov", "welleng/utils.py:get_sigmas", "welleng/utils.py:make_cov"]}
{"id": "C370", "title": "Every labelled column of a source sheet is read under its label", "statement": "In the blocks read from a source sheet of a diagnostic workbook, every column with a label is found under that label with the values of its own rows, and no other names occur.", "quantifier": "all sheets, blocks, labels and values", "why_tests_cant": "All arrangements of labels; workbooks in tests have a few fixed ones.", "anchors": ["welleng/errors/iscwsa_ingest.py:parse_error_source_sheet"]}
{"id": "C371", "title": "With a kick-off depth the well is examined from that depth on", "statement": "With a kick-off depth, the reference well that is examined for clearance starts at that depth and contains all stations below it; a kick-off depth below the last station is refused, and without one the whole well is examined.", "quantifier": "all surveys with increasing depths and all kick-off depths, also between stations", "why_tests_cant": "All depths between any two stations; tests kick off at stations.", "anchors": ["welleng/clearance.py:Clearance._get_kop_index", "welleng/clearance.py:Clearance._get_ref"]}
{"id": "C372", "title": "A full turn more or less in an azimuth makes no difference", "statement": "Adding full turns to the azimuths of a survey, at each station a number of its own, changes neither positions, doglegs and severities nor the covariances of a tool model in either frame nor the vertical section.", "quantifier": "all surveys, tool models and numbers of turns at each station", "why_tests_cant": "All azimuths and all numbers of turns; surveys in tests have azimuths from 0 to 360 degrees.", "anchors": ["welleng/utils.py:MinCurve", "welleng/errors/tool_errors.py:ToolError", "welleng/survey.py:Survey.get_vertical_section"]}
{"id": "C373", "title": "A tool added to the index is used for its name and leaves the others alone", "statement": "Adding a tool to the index of tool models keeps the entries of the other tools, stores the named fields of the header of its workbook, and makes the tool the one that is used for its short name; a header without one of the fields is refused.", "quantifier": "all indices, codes and headers", "why_tests_cant": "All indices; the script is run on three workbooks.", "anchors": ["welleng/errors/extract_iscwsa_codes.py:make_index", "welleng/errors/extract_iscwsa_codes.py:extract_header", "welleng/error.py:ErrorModel"]}
{"id": "C374", "title": "The survey for comparing tool models is the one of its file", "statement": "The survey on which hand-written and formula-based error sources are compared has the stations, the field, the gravity and the angles of its data file.", "quantifier": "all data files and geomagnetic calculators", "why_tests_cant": "All files; the one that is shipped has zero convergence.", "anchors": ["welleng/errors/conformance.py:standard_test_survey"]}
{"id": "C375", "title": "Recording a station twice does not change the uncertainty", "statement": "Recording a station of a survey twice leaves the covariances at all stations as they were, and the copies have those of the station.", "quantifier": "all surveys, stations, tool models and error sources other than the four that divide by the length of an interval", "why_tests_cant": "All surveys and all stations; surveys in tests have stations at different depths.", "anchors": ["welleng/errors/tool_errors.py:ToolError", "welleng/error.py:ErrorModel._generate_error"]}
{"id": "C376", "title": "More cautious settings never withdraw an alarm", "statement": "With larger hole sizes, confidence factor, project-ahead uncertainty or surface margin, a separation factor below 1 stays below 1, the distance that must be kept does not become smaller and the separation of the ellipses does not become larger; while the holes do not overlap the separation factor does not become larger.", "quantifier": "all pairs of points with their covariances, all settings", "why_tests_cant": "Every combination of settings and geometries has to be compared; tests use the default settings.", "anchors": ["welleng/clearance.py:IscwsaClearance"]}
{"id": "C377", "title": "Recording a station twice does not change the loads", "statement": "Recording a station of a survey twice changes none of the tension and torque profiles: at both copies they are those of the station, and elsewhere what they were; off bottom, drilling or with an overpull.", "quantifier": "all strings of one diameter, all wells, all stations, all bit loads, torques and overpulls", "why_tests_cant": "The profiles are accumulated from the bit upwards through every part of the string; a part of no length would have to contribute nothing in every state.", "anchors": ["welleng/torque_drag.py:TorqueDrag.get_forces_and_torsion", "welleng/torque_drag.py:force_normal", "welleng/torque_drag.py:force_tension_delta", "welleng/torque_drag.py:torsion_delta"]}
{"id": "C378", "title": "Of a parent file the plans are read and nothing else", "statement": "A parent file is refused exactly if its name does not end in .wbp. Of its lines those below the heading WELLPLANS are read, in order and without trailing blanks, other than lines with that word; of a file without the heading nothing is read.", "quantifier": "all file names and contents", "why_tests_cant": "All contents of files; tests have no parent file.", "anchors": ["welleng/exchange/wbp.py:get_parent_survey"]}
{"id": "C379", "title": "A string can be run to a depth in stages", "statement": "Running a string to a depth and the result to a shallower depth gives the same string as running it to the shallower depth at once: sections, properties, depths and completeness.", "quantifier": "all complete strings built from the bottom up from section lengths, all pairs of depths", "why_tests_cant": "All strings and pairs of depths; tests run a string to one depth.", "anchors": ["welleng/architecture.py:String.depth", "welleng/architecture.py:String.add_section_bottom_up"]}
{"id": "C380", "title": "A slice of a survey lies where the survey lies", "statement": "A slice can be taken exactly if there are at least two stations in its range; it has the stations, positions and, below its first station, severities of the survey in that range; a slice of a slice is the slice with the indices added up.", "quantifier": "all surveys with grid azimuths and all ranges with indices that are not negative", "why_tests_cant": "The positions of a slice are computed again from its first station; that they are the same must hold for every survey and range.", "anchors": ["welleng/survey.py:slice_survey", "welleng/survey.py:Survey._min_curve"]}
{"id": "C381", "title": "Separation factors do not depend on the unit of length", "statement": "For wells in feet the separation factors are those of the same wells in metres, and distances, boundaries and allowed distances are the same lengths.", "quantifier": "all pairs of points with covariances and hole sizes, all settings, all units", "why_tests_cant": "All geometries and settings; tests have wells in metres.", "anchors": ["welleng/clearance.py:IscwsaClearance"]}
{"id": "C382", "title": "A connection does not depend on the unit of length", "statement": "The connection from a position and direction to a position, with start, target and radius converted to another unit of length, is the same connection: the method is the same, directions and doglegs are equal, and positions and lengths are converted.", "quantifier": "all starts, directions, targets, radii and units", "why_tests_cant": "All geometries and units; tests have one unit.", "anchors": ["welleng/connector.py:Connector._use_method", "welleng/connector.py:Connector._mod_pos", "welleng/connector.py:min_dist_to_target", "welleng/connector.py:min_curve_to_target"]}
{"id": "C383", "title": "A mesh for a higher confidence contains the one for a lower", "statement": "With a higher confidence, a larger hole or larger margins, each cross-section of a well mesh made with the ellipse method contains the cross-section made with the lower values.", "quantifier": "all covariances, confidences, hole sizes, margins, stations and numbers of vertices", "why_tests_cant": "All reals and ring sizes; tests make single meshes.", "anchors": ["welleng/mesh.py:WellMesh._get_vertices"]}
{"id": "C384", "title": "The pedal-curve mesh covers the uncertainty in the direction of each vertex", "statement": "Each vertex of a ring made with the pedal-curve method is at least sigma standard deviations, in the direction of the vertex, away from the well.", "quantifier": "all covariances, confidences and angles", "why_tests_cant": "All covariances; tests do not look at the vertices.", "anchors": ["welleng/mesh.py:WellMesh._get_vertices"]}
{"id": "C385", "title": "The diameter of a string scales its torque and nothing else", "statement": "With all diameters of the string, and the torque on bit, multiplied by one factor, every torque is multiplied by it and every tension is unchanged.", "quantifier": "all strings, wells, load cases and factors", "why_tests_cant": "All strings and factors; tests have one string.", "anchors": ["welleng/torque_drag.py:TorqueDrag.get_forces_and_torsion", "welleng/torque_drag.py:torsion_delta"]}
{"id": "C386", "title": "A denser mud contains more weighting material", "statement": "Of two muds made with the same base liquids and weighting material, the one of higher density has more weighting material and no more oil or water, and, if the material is denser than the base, is the denser mixture; in both, oil and water are in the requested ratio.", "quantifier": "all densities at or above that of the base liquid, temperatures, pressures, ratios and materials", "why_tests_cant": "All reals; tests have single muds.", "anchors": ["welleng/fluid.py:Fluid"]}
{"id": "C387", "title": "Points can be connected in stages", "statement": "Connecting some points, and then connecting further points from where the first call ended, gives the connections of one call for all points; further points do not change the connections between the earlier ones.", "quantifier": "all lists of points in floating point, unit start directions and positive severities", "why_tests_cant": "Unbounded lists; tests make single calls.", "anchors": ["welleng/connector.py:connect_points"]}
{"id": "C388", "title": "A term of a tool model depends only on the quantities its formulas mention", "statement": "Two surveys that agree in the quantities mentioned by the formulas of a JSON term get the same values of the term, whatever their other quantities are, also when a formula fails or is refused.", "quantifier": "all formulas, surveys and header values", "why_tests_cant": "All expressions; tests evaluate a few formulas.", "anchors": ["welleng/errors/interpreter.py:evaluate_formula", "welleng/errors/tool_errors.py:ToolError._call_interpreter"]}
{"id": "C389", "title": "Further records in an EDM file do not change what the others say", "statement": "A query is not changed by a further record, anywhere in the file, that it is not about; the records found in two documents one after the other are those of the first and then those of the second; the survey of a header is not changed by stations that belong to none of the headers.", "quantifier": "all documents, queries, headers and stations", "why_tests_cant": "Unbounded documents; tests have one file.", "anchors": ["welleng/exchange/edm.py:EDM.get_attributes", "welleng/exchange/edm.py:Well._get_surveys"]}
{"id": "C390", "title": "A JSON term acts station by station", "statement": "The values of a JSON term at a station depend only on the survey at that station: for two surveys that agree there, whatever they are at other stations, both evaluations fail alike or give the same three numbers there.", "quantifier": "all formulas, header values, stations and pairs of surveys", "why_tests_cant": "All expressions and surveys; tests evaluate a few formulas.", "anchors": ["welleng/errors/interpreter.py:evaluate_formula", "welleng/errors/tool_errors.py:ToolError._call_interpreter"]}
{"id": "C391", "title": "An arc can be drilled in two runs", "statement": "Stop an arc after any part of it, read the toolface from there towards the end of the whole arc, and build the remaining dogleg with that toolface: the second arc ends at the end of the whole one, in the same direction, and the two lengths add up to its length.", "quantifier": "all unit directions (vertical too), positions, toolfaces, radii and first doglegs, and remaining doglegs below a full turn", "why_tests_cant": "All reals; tests build single arcs.", "anchors": ["welleng/utils.py:get_arc", "welleng/utils.py:get_toolface"]}
{"id": "C392", "title": "An arc can be built back from its end", "statement": "Read the toolface at the end of an arc, looking back, towards its start, and build an arc of the same dogleg and radius from there with target=True: it ends at the start of the first arc, with the direction that arc had there, and has the same length.", "quantifier": "all unit directions (vertical too), positions, toolfaces, radii and doglegs below a full turn", "why_tests_cant": "All reals; tests build single arcs.", "anchors": ["welleng/utils.py:get_arc", "welleng/utils.py:get_toolface"]}
{"id": "C393", "title": "Conversion to degrees, minutes and seconds keeps the order of angles", "statement": "Of two angles that are not negative the larger one never gets the smaller degrees, minutes and seconds, whether the seconds are rounded or not, and reading the two back gives numbers in the same order.", "quantifier": "all pairs of angles that are not negative, and all numbers of digits", "why_tests_cant": "All reals and digits; tests convert single angles.", "anchors": ["welleng/utils.py:decimal2dms", "welleng/utils.py:dms2decimal"]}
{"id": "C394", "title": "A curve-hold-curve path can be followed from its other end", "statement": "From the end of the path in the opposite direction, with the toolfaces read towards the start of each curve, the same doglegs and straight in reverse order pass through the same points in opposite directions and end at the start; the lengths of the two curves are exchanged.", "quantifier": "all unit start directions, positions, toolfaces, lengths, radii and doglegs below a full turn", "why_tests_cant": "All reals; tests make single paths.", "anchors": ["welleng/utils.py:make_clc_path", "welleng/utils.py:get_toolface"]}
{"id": "C395", "title": "Tortuosity at a station depends only on the well down to it", "statement": "If two surveys agree down to a station, the tortuosity indices (plain and modified) of the one that ends there are the first entries of those of the other: drilling on never changes the indices of the stations already drilled.", "quantifier": "all surveys with increasing depths, continuations of them, scales and tolerances", "why_tests_cant": "Unbounded surveys; tests evaluate single wells.", "anchors": ["welleng/survey.py:tortuosity_index", "welleng/survey.py:modified_tortuosity_index"]}
{"id": "C396", "title": "Drilling on leaves the control points above the end of the well alone", "statement": "If two surveys agree down to a station, the list of control points of the one that ends there, without its last point, is the beginning of the list of the other.", "quantifier": "all surveys, continuations of them, tolerances and units", "why_tests_cant": "Unbounded surveys; tests evaluate single wells.", "anchors": ["welleng/survey.py:get_sections"]}
{"id": "C397", "title": "Drilling on does not change the resampled stations above", "statement": "When a survey and a continuation of it are both resampled with the same step and severity, the stations of the first result are the beginning of the second; where the first cannot be connected, the second cannot either.", "quantifier": "all surveys, continuations, steps and severities", "why_tests_cant": "Unbounded surveys; tests resample single wells.", "anchors": ["welleng/survey.py:interpolate_survey"]}
{"id": "C398", "title": "Drilling on does not change what is interpolated above", "statement": "Whatever node (depth, direction, position, flag and covariance) a survey gives at a measured depth, a continuation of that survey gives the same node there; between the first and the last station of the shorter survey both give one.", "quantifier": "all surveys, continuations, depths and start positions", "why_tests_cant": "Unbounded surveys and real depths; tests interpolate single wells.", "anchors": ["welleng/survey.py:Survey.interpolate_md", "welleng/survey.py:interpolate_md"]}
{"id": "C399", "title": "Drilling on deeper does not change the node found at a vertical depth", "statement": "In a well whose stations get deeper and deeper, the node found, or the failure met, at a vertical depth from the first to above the last station is that found in every continuation which also gets deeper and deeper.", "quantifier": "all such surveys and continuations, all vertical depths from the first station to above the last one", "why_tests_cant": "Unbounded surveys and real depths; tests interpolate single wells.", "anchors": ["welleng/survey.py:interpolate_tvd"]}
{"id": "C400", "title": "The maximum-curvature survey can be made in two pieces", "statement": "For a well cut at a station, the maximum-curvature stations are those of the upper piece without the last, followed by those of the lower piece; so drilling on changes none of those above.", "quantifier": "all surveys and cuts", "why_tests_cant": "Unbounded surveys; tests evaluate single wells.", "anchors": ["welleng/survey.py:Survey.maximum_curvature"]}
{"id": "C401", "title": "A density profile can be computed in pieces", "statement": "For two non-empty lists of depths, with one temperature or one per depth, the profile of both together exists exactly when both profiles exist, and is one followed by the other.", "quantifier": "all lists of depths and temperatures and every answer of the optimiser", "why_tests_cant": "Unbounded lists; tests evaluate single profiles.", "anchors": ["welleng/fluid.py:Fluid.get_density_profile"]}
{"id": "C402", "title": "Drilling on leaves the mesh above alone", "statement": "When a well is drilled on, all triangles of its mesh except those that close its lower end are triangles of the new mesh, with the same corner points and in the same order; the new mesh adds two triangles per vertex for every new ring and closes the new end.", "quantifier": "all rings with the same number of vertices, all continuations", "why_tests_cant": "Unbounded numbers of rings and vertices; tests build single meshes.", "anchors": ["welleng/mesh.py:WellMesh", "welleng/mesh.py:get_faces", "welleng/mesh.py:get_ends"]}
{"id": "C403", "title": "Drilling on does not change the node found at a vertical depth, in any well", "statement": "The node found at a vertical depth between the first and the last station is the one found after the well is drilled on.", "quantifier": "all surveys and continuations, also those that turn upwards", "why_tests_cant": "Unbounded surveys and real depths; tests interpolate single wells.", "anchors": ["welleng/survey.py:interpolate_tvd"]}
{"id": "C404", "title": "Drilling the offset well on away from a point leaves the closest point alone", "statement": "When an offset well is drilled on and the new stations are not nearer to a reference point than its nearest station was, the distance reported does not grow; if the nearest station was not its last one, the closest point, its interval, depth and distance are the same.", "quantifier": "all offset wells, continuations, reference points and optimisers", "why_tests_cant": "Unbounded surveys and every optimiser; tests compare single well pairs.", "anchors": ["welleng/clearance.py:IscwsaClearance._get_closest_points"]}
{"id": "C405", "title": "Drilling the offset well on never makes it look farther away", "statement": "The distance reported between a reference point and an offset well does not grow when the offset well is drilled on.", "quantifier": "all offset wells, continuations and reference points", "why_tests_cant": "Unbounded surveys; tests compare single well pairs.", "anchors": ["welleng/clearance.py:IscwsaClearance._get_closest_points"]}
{"id": "C406", "title": "Drilling the reference well on does not change the mesh clearances above", "statement": "When the mesh clearances of a reference well and of a continuation of it both exist, those of the first are the beginning of those of the second, given that the collision library finds the same for the same intervals.", "quantifier": "all wells, continuations, settings, optimisers and findings of the collision library", "why_tests_cant": "Unbounded surveys; tests compare single well pairs.", "anchors": ["welleng/clearance.py:MeshClearance._process_well"]}
{"id": "C407", "title": "Drilling on does not change the nodes above when resampling by vertical depth", "statement": "When a survey and a continuation of it are both resampled by vertical depth with the same start and step, the nodes of the first, with their flags, are the beginning of those of the second.", "quantifier": "all surveys with at least one station, continuations, starts, steps and tolerances", "why_tests_cant": "Unbounded surveys; tests resample single wells.", "anchors": ["welleng/survey.py:interpolate_survey_tvd"]}
{"id": "C408", "title": "Further connections do not change the survey of those before", "statement": "The stations of a survey made from connections are the beginning of the stations made from these and further connections, with the same positions; it fails only if a further connection cannot be interpolated.", "quantifier": "all lists of connections, steps and roundings", "why_tests_cant": "Unbounded lists of connections; tests convert single plans.", "anchors": ["welleng/survey.py:from_connections", "welleng/connector.py:interpolate_well"]}
{"id": "C409", "title": "Well plans can be appended to a file", "statement": "If a .wbp file loads and its last plan has a header and is not in its section of targets, the file with further plans appended, beginning with a header line, loads exactly when the appended lines do with the units then in force, and the plans before are the same as without them.", "quantifier": "all files and all lines appended", "why_tests_cant": "Unbounded files; tests load single files.", "anchors": ["welleng/exchange/wbp.py:load", "welleng/exchange/wbp.py:WellPlan._process_wbp_data"]}
{"id": "C410", "title": "A tighter curve gives a shorter path to a position", "statement": "For a target off the start direction that both radii reach (outside both turning circles and not exactly one diameter to the side, see C73), the curve-and-hold solution with the smaller radius is strictly shorter, turns through a strictly smaller dogleg and has the longer straight. In the connector the curve-and-hold solution is also strictly shorter than the single curve that is drawn when the design radius is too large.", "quantifier": "all starts, unit directions, targets and pairs of radii", "why_tests_cant": "A strict inequality between transcendental functions of four real parameters; tests compare a few radii.", "anchors": ["welleng/connector.py:solve_curve_hold_batch", "welleng/connector.py:min_dist_to_target", "welleng/connector.py:min_curve_to_target", "welleng/connector.py:Connector._use_method"]}
{"id": "C411", "title": "The curve-and-hold solution is the shortest of its radius", "statement": "For a target off the start direction, outside the turning circle and not exactly one diameter to the side (see C73), the returned curve-and-hold path is not longer than any path that leaves the start along its direction, follows any circle of the given radius (turning any way, for any length) and then goes straight to the target. It is the only such path of its length.", "quantifier": "all starts, unit directions, targets, radii and all competing paths", "why_tests_cant": "Quantifies over all competing paths; tests compare a solution with stored numbers.", "anchors": ["welleng/connector.py:solve_curve_hold_batch", "welleng/connector.py:min_dist_to_target"]}
{"id": "C412", "title": "Points along the straight are reached by the same curve", "statement": "If a curve-and-hold solution reaches its target with a turn of at most half a circle, the solution for any point on its straight, or on the straight prolonged, has the same curve and the straight shorter or longer by the distance between the points. (A point exactly one diameter to the side is excluded, see C73.)", "quantifier": "all starts, unit directions, targets, radii and all points on the straight and beyond", "why_tests_cant": "Infinitely many targets per solution; tests check single targets.", "anchors": ["welleng/connector.py:solve_curve_hold_batch", "welleng/connector.py:min_dist_to_target", "welleng/connector.py:get_vec_target"]}
{"id": "C413", "title": "A curve-and-hold path is close to the straight distance", "statement": "A curve-and-hold solution that reaches its target (see C73) is at least as long as the straight distance and longer by at most radius times (dogleg minus sine of the dogleg), hence by less than one full circle. With radii tending to zero its length tends to the straight distance, for every target off the start direction.", "quantifier": "all starts, unit directions, targets and radii", "why_tests_cant": "An inequality over the reals and a limit; tests compare stored numbers.", "anchors": ["welleng/connector.py:solve_curve_hold_batch", "welleng/connector.py:min_dist_to_target"]}
{"id": "C414", "title": "Leaving out stations never raises the largest dogleg severity", "statement": "If the stations of a survey are in order of depth and none of its dogleg severities exceeds a bound, none of the severities of the survey made from any of its stations exceeds the bound either. (A sparse survey can hide severity but never add to it.)", "quantifier": "all surveys, all selections of stations, all bounds", "why_tests_cant": "All subsets of all surveys; rests on the triangle inequality for doglegs.", "anchors": ["welleng/utils.py:MinCurve"]}
{"id": "C415", "title": "Inclination bounds the depth gained", "statement": "If the stations of a survey are in order of depth and their directions are all within some angle, at most a right angle, of a given direction, then from any station to any deeper one the well advances in that direction by at least the cosine of the angle times the length drilled. In particular, if no inclination exceeds a value up to 90 degrees, the vertical depth gained is at least the cosine of that value times the length drilled.", "quantifier": "all surveys, directions, angles and pairs of stations", "why_tests_cant": "Unbounded surveys and all directions; tests use a few wells.", "anchors": ["welleng/utils.py:MinCurve", "welleng/utils.py:min_curve_step"]}
{"id": "C416", "title": "In a vertical hole friction has no effect", "statement": "If every station of the survey is vertical, then for all friction factors, radii and azimuths the pick-up, slack-off and rotating tensions off bottom are the same profile and no torque is reported anywhere; while drilling the sliding and rotating tensions agree and the torque is the torque on bit at every station.", "quantifier": "all vertical surveys, strings, friction factors, azimuths and bit loads", "why_tests_cant": "Unbounded strings and arbitrary friction factors; tests use one string.", "anchors": ["welleng/torque_drag.py:TorqueDrag.get_forces_and_torsion", "welleng/torque_drag.py:force_normal", "welleng/torque_drag.py:force_tension_delta", "welleng/torque_drag.py:torsion_delta"]}
{"id": "C417", "title": "Loads and critical angle in a straight inclined hole", "statement": "Off bottom in a straight hole of inclination i with one friction factor mu and one radius r, at every station the pick-up, slack-off and rotating tensions and the rotating torque are the weight hanging below that station times cos i + mu sin i, cos i - mu sin i, cos i and mu r sin i. A string that weighs something is nowhere in compression while slacking off exactly when mu sin i <= cos i.", "quantifier": "all inclinations from 0 to 180 degrees, azimuths, strings of elements with weights that are not negative, friction factors and radii", "why_tests_cant": "Strings of any length and all angles; the critical angle is an equivalence no sample of runs can establish.", "anchors": ["welleng/torque_drag.py:TorqueDrag.get_forces_and_torsion", "welleng/torque_drag.py:TorqueDrag.get_inc_average", "welleng/torque_drag.py:force_normal", "welleng/torque_drag.py:force_tension_delta", "welleng/torque_drag.py:torsion_delta"]}
{"id": "C418", "title": "Drilling in a straight inclined hole", "statement": "While drilling in a straight hole of inclination i with one friction factor mu and one radius r, at every station below which the weight w hangs the rotating tension is w cos i less the weight on bit, the sliding tension is w (cos i - mu sin i) less the weight on bit and the torque is the torque on bit plus w mu r sin i. The surface end of the sliding string is not in compression exactly when the weight on bit is at most the string weight times cos i - mu sin i.", "quantifier": "all inclinations from 0 to 180 degrees, azimuths, strings of elements with weights that are not negative, friction factors, radii and non-zero weights and torques on bit, with or without overpull", "why_tests_cant": "Strings of any length and all bit loads; the available weight on bit is an equivalence no sample of runs can establish.", "anchors": ["welleng/torque_drag.py:TorqueDrag.get_forces_and_torsion", "welleng/torque_drag.py:force_normal", "welleng/torque_drag.py:force_tension_delta", "welleng/torque_drag.py:torsion_delta"]}
{"id": "C419", "title": "Which way is up in a transformed scene", "statement": "transform_trimesh_scene with an origin as a list, or none, shows a vertex that is a along the first axis, b along the second and d deeper than the origin at a along the first axis, height -d on the second and b along the third, all divided by the scale; with a positive scale the deeper of two vertices is shown lower.", "quantifier": "all scenes, origins, scales and ratios (positive scales for the order of heights)", "why_tests_cant": "Every position of the vertices; a scene turned on its side is still similar to the given one, so comparing distances and volumes does not find it.", "anchors": ["welleng/mesh.py transform_trimesh_scene"]}
{"id": "C420", "title": "Vertical depths on either side of a station", "statement": "On a survey whose stations get strictly deeper, interpolating at a vertical depth above that of a station gives a node that is not beyond that station, and at a vertical depth below it a node that is not before it; so of two vertical depths with a station between them the deeper one is found at the larger or the same measured depth.", "quantifier": "all surveys with increasing measured and vertical depths and doglegs under half a turn, all stations and all vertical depths from the first to the last station", "why_tests_cant": "Every curved survey and every pair of depths; holds also where the returned node misses the requested vertical depth (C113).", "anchors": ["welleng/survey.py interpolate_tvd"]}
