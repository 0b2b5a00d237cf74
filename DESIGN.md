# Design

Formal model of jonnymaserati/welleng in Lean 4. Layout under `lean/Verif/`:

- `Model/*` – function-by-function model; every definition cites the file and lines it models.
- `Spec/*` – small specifications written without reference to the model.
- `Lemmas/*` – helper lemmas.
- `Props/*` – the property theorems (`Cnn_…`), with non-vacuity examples beside them.

## Modelling conventions

- Floats are real numbers (or an arbitrary ordered field where only field operations occur). Rounding, overflow, NaN and signed zero are not modelled except where the code branches on them or rounds on purpose (`round(x, n)`).
- numpy arrays are lists, or functions on indices with a length in the error model and in sections and tortuosity; vectorised code is modelled element by element.
- Mutable objects are explicit states; a method is `State → Args → State × Except Err Result`. In-place changes of a caller's array and mutable default arguments are part of the state.
- Python exceptions are values of `Except` (or `none` where only the fact that it raises matters). `assert` is modelled as raising.
- Division by zero, `arccos` out of range and similar totalised Lean functions are only used under the guard of the code, or the theorem assumes the guard and another one covers the error branch.
- `decide` is used over whole finite tables only (input table of the connector, code tables of the well plan format, shipped list of tool models) and to evaluate concrete witnesses of negations. `native_decide` is not used.

## Trusted base

- Lean 4.33.0's kernel, which checks every proof, and Mathlib as installed (definitions of ℝ, sine, `Complex.arg`, derivatives, matrices).
- The faithfulness of the model to the Python source: each definition was written from the cited lines by hand and says where it simplifies. Tables (`Model/ToolIndex`, parts of `Model/Interpreter` and `Model/Connector`) were copied from the files in /repo.
- The idealisation of floats as reals: no theorem speaks about rounding error.
- The reading of numpy, pandas, openpyxl and the standard library functions used (`searchsorted`, `arange`, `column_stack`, `insert`, `nan_to_num`, `str.split`, dictionary order, ...) given at the place where they are modelled.

### Modelled

| file in /repo/welleng | modelled | model |
|---|---|---|
| utils.py | minimum curvature, angles and vectors, frames, DMS, printing and reading of angles, arcs, toolface helpers, annular volume | Vec, MinCurve, Angles, Dms, DmsText, Toolface, Architecture |
| survey.py | header, azimuth references, positions, radii, toolface and rates, vertical section, interpolation by depth and by vertical depth, slicing, splicing, duplicate removal, projection, projection to a target, maximum curvature, resampling by depth and by vertical depth, surveys made from connections, sharing of the header, tortuosity, maximum curvature, sections and their export, covariances of the constructor and `get_error` on a heap, columns of the data frame | Header, Survey, Slice, SurveyCov, Frame, Interpolate, InterpTvd, Toolface, Tortuosity, TiData, MaxCurve, Sections, Project, Resample, ResampleTvd, FromConnections, NodeTvd, SharedHeader, Factors, ExportCsv |
| node.py | all | Header |
| error.py, errors/tool_errors.py | propagation of errors, all weighting functions, choice of the tool model, diagnostics | ErrorModel, Weights, ToolIndex, JsonTerm |
| errors/interpreter.py, errors/iscwsa_json | rewriting, reading, validator and evaluator; the formulas of the shipped models | Interpreter, FormulaText, FormulaTable |
| errors/iscwsa_ingest.py, iscwsa_validate.py, copsegrove*.py | revision search, sheet readers from cell rows on, model, well path and source sheets, legacy table, validation runs and their summary, diagnostics parser, variables of the diagnostics formulas | Ingest, Sheets, Workbook, Conformance, Report |
| errors/conformance.py | captured arrays, largest difference, verdicts, coverage matrix, test survey | Conformance, Report, TestSurvey |
| io.py, visual.py | columns and surveys of the standard set, separation factors, markers of a plotted survey, points and faces of a plotted mesh | IoData, Visual |
| errors/tools/owsg_to_json.py | conversion of a sheet from its cells on, names of the files | Owsg |
| errors/extract_iscwsa_codes.py, errors/extract_owsg_codes_generic.py | table of error sources, header and index from the cells of a sheet on | Extract, IndexEntry |
| clearance.py | separation factor, covariance along the separation, sidetrack treatment, choice by kick-off depth, mesh separation factor, search objective, closest points, hole radii, refinement of minima, bearings, results of the mesh method, lines between wells | Clearance, KickOff, ClosestPoint, Bearing, MeshClearance, IoData |
| connector.py | method selection, closed-form geometry, depth bookkeeping, interpolation grids and vectors, the search of the curve-hold-curve construction (starting point, damped iteration, retries, for finite design radii), its finish and rescues (there the results of the search are arbitrary), curve to a direction, hold, closest approach, drop_off and extend_to_tvd (optimisers as parameters), connect_points, survey_to_plan up to its first error | Connector, ConnectorLoop, ConnectorSolve, Extend |
| mesh.py | rings, alignment, faces, sliced meshes, scenes and transformed scenes, faces kept by `fix_mesh` | Mesh, SlicedMesh, Scene |
| architecture.py | all | Architecture |
| torque_drag.py | construction, forces and torsion, hook load ranges and tables | TorqueDrag, HookLoad |
| fluid.py | mixture, density profile (the solver as a parameter) | Fluid, DensityProfile |
| target.py | all | Target |
| exchange/edm.py | attribute search, ancestry, tied surveys, collected data, pressure tables, hole sections, cases, tags, wellbore graph, look-up of wellbores | Edm, EdmCase, EdmGraph, EdmTables |
| exchange/wbp.py | line machine of the reader, header columns, code tables, well plan to survey; the whole of `export` and `load` on characters (without target geometry), local coordinates; parent files, surface location | Wbp, WbpText, WbpParent, Sections |

### Not modelled

- Iterative solvers and optimisers (`scipy.optimize` in clearance, connector, fluid, tortuosity look-ups): where they occur, the theorems speak about every value they may return.
- Geomagnetic look-ups and map projections (pyproj, magnetic_field_calculator); the header takes the look-up as an arbitrary partial function.
- Mesh collision (trimesh, FCL), plotting (visual.py and the `figure` functions, but for the points and faces above) and command line front ends.
- Parsing of XML, Excel, YAML and JSON text, and regular expressions other than those of `dms_from_string` and of the formula rewriting.
- `errors/iscwsa_mwd.py`, a superseded copy of `tool_errors.py` that is not imported; opening of workbooks and YAML files in the extraction scripts `errors/extract_*.py`.

### Change to /repo

On 16 November a generator script wrote by mistake over one file of /repo,
`welleng/errors/iscwsa_json/owsg_b/MWD+LRGM_Fl.json`, and no other copy of it was at hand. The file was
rebuilt from `MWD+LRGM.json` and the rules of `errors/tools/owsg_to_json.py`. The same procedure gives
the other 19 `_Fl` files of that directory byte for byte, and the rebuilt terms and descriptions are
those of the sheet in `data/iscwsa/toolgroups`. The rows in `Model/FormulaTable.lean` had been generated
before and are the same with the rebuilt file. Nothing else in /repo was changed.

### Axioms

`#print axioms` was run on all 979 theorems listed in MANIFEST.json. No theorem depends on anything but Lean's three standard axioms; none depends on `sorryAx`, `Lean.ofReduceBool` or an axiom of this project.

- No axioms (13): C37_accepted_iff, C37_method, C43_and_wrong, C43_or_twice, C46_constant_inclination, C46_witness, C77_azimuth_and_position, C77_full_direction_partial, C85_same_name_lost, C88_only_last_row, C256_unreachable, C292_like_absent, C292_each_partial.
- `propext` (22): C03_rejected_call_mutates, C04_top_down_string_raises, C19_needs_two_stations, C37_overspecified_rejected, C46_strip_partial, C47_keyword_merges, C49_shapes_partial, C49_rejects, C52_stations, C53_complete_accurate_is_false, C54_default_length_fails_on_empty, C54_top_argument_always_fails, C71_small_ring_reversed, C71_reversed_ring_shifted, C89_blank_line_fails, C92_units, C94_others_fail, C141_block_replaced, C144_depends_on_listing, C145_survey_refuses_alias, C245_out_of_range, C255_same_name_lost.
- `Quot.sound`, `propext` (29): C03_rejected_keeps_flag_partial, C03_poisoned_forever, C45_tie_on_twice, C47_terminates, C47_partition, C51_distinct_partial, C52_per_term, C70_rows_partial, C70_odd_pedal_loses_rows, C71_alignment_keeps_ring, C71_same_sense_not_reversed_partial, C92_codes, C97_not_random, C143_listed_model_usable_partial, C143_six_undefined, C144_definition_partial, C145_alias_partial, C208_never_returns, C208_severity_partial, C229_one_row_spoils_all, C229_wrong_group, C246_default_fails, C255_distinct_names_partial, C264_safe_names_partial, C274_short, C292_table_lost, C292_bad_number, C389_unrelated, C389_stations.
- `propext`, `Classical.choice`, `Quot.sound` (915): all other theorems (the real numbers of Mathlib need them).

## Plan per property

What is modelled (file under `Model/`) and how it is proved. The status is that of MANIFEST.json.

- **C01** (proved) A string built top-down is a gap-free tiling: `Model/Architecture`: string state + keyword dict as explicit structure, `addTopDown : State → Args → State × Except Err Unit` (state returned even on failure, since the code mutates first). Proof: invariant by induction over operation lists.
- **C02** (proved) A string built bottom-up is a gap-free tiling: Same model, `addBottomUp`. Invariant by induction.
- **C03** (partial) A rejected add_section leaves the string unchanged: Same model. Expected false (sections assigned before the asserts): negation with witness, plus what does hold.
- **C04** (proved) Running a string to a shallower depth preserves its make-up from the bottom: `depth` as a fold of `addBottomUp` over the reversed section list; induction.
- **C05** (proved) Dogleg is the angle between the two tangents: `Model/MinCurve` over ℝ: `getDogleg`; half-angle identities.
- **C06** (proved) A minimum-curvature step lands on the end of the circular arc: `minCurveStep` vs separate spec of a circular arc (derivative, unit speed, constant curvature).
- **C07** (proved) Displacement never exceeds drilled length: |t1+t2| = 2cos(d/2), sin x ≤ x; induction over stations, triangle inequality.
- **C08** (proved) Interpolated stations lie on the survey: splitting a step changes nothing: slerp in the tangent plane; algebra of rf.
- **C09** (proved) Positions are causal and translate with the start: `minCurve` as prefix sums over lists; induction.
- **C10** (proved) Rotating all azimuths rotates the well: as C09 with a rotation matrix.
- **C11** (proved) Direction vector and angles round-trip: atan2 as `Complex.arg`; range reduction with `toIcoMod`.
- **C12** (proved) NEV and XYZ conversions are inverse: `getNev`/`getXyz` on triples.
- **C13** (proved) Borehole-frame rotation is lossless for covariances: `Matrix (Fin 3) (Fin 3) ℝ`, rotation orthogonal; conjugation.
- **C14** (proved) Curvature rate and radius conversions are mutually inverse: field arithmetic.
- **C15** (partial) Decimal degrees survive a DMS round trip: `Int` truncation toward zero; expected false for −1<d<0: negation + partial.
- **C16** (proved) Azimuth references are consistent: `processAziRef` per reference and unit, ℝ.
- **C17** (partial) All reported positions of a station agree: expected false; negation + partial (zero start, unit scale).
- **C18** (proved) Interpolation by depth brackets correctly and reproduces stations: searchsorted as a list function; bracket lemma.
- **C19** (proved) Consecutive-duplicate removal is safe: list function; induction.
- **C20** (proved) Splicing surveys keeps depth order and every non-tie station: list model of SurveyData append; error branch for missing covariances.
- **C21** (partial) Maximum-curvature conversion keeps the original depths: list model.
- **C22** (partial) Vertical section is the projection on the section azimuth: ℝ algebra, Cauchy–Schwarz.
- **C23** (proved) Every error covariance is symmetric and non-negative definite: sum of outer products; PSD closed under addition and conjugation.
- **C24** (proved) Partition of the total covariance by propagation mode: fold over terms with four accumulators.
- **C25** (proved) Uncertainty scales with the square of tool magnitude: linearity of e_NEV in e_DIA, quadratic outer product.
- **C26** (partial) Position partials are the true derivatives: `HasDerivAt` of the balanced-tangential step.
- **C27** (proved) The fast partial-derivative table equals the reference functions: pointwise equality of the two tables.
- **C28** (partial) Every catalogued propagation mode contributes to the uncertainty: expected false ('Well' → 'well' falls through `_generate_error`): negation + partial.
- **C29** (proved) The formula interpreter is a sandbox: AST datatype; `validate`; induction over trees; evaluator semantics.
- **C30** (proved) Separation factor, boundary and allowed distance agree: ordered-field algebra.
- **C31** (proved) Uncertainty along the separation direction is well defined: quadratic form, Cauchy–Schwarz for PSD.
- **C32** (partial) Sidetrack uncertainty restarts at the kick-off point: list model of the delta covariance.
- **C33** (proved) Well meshes are watertight: face list generator over ℕ; edge incidence counted for every ring count and size.
- **C34** (partial) Well meshes are consistently oriented: expected false: negation for every size + what holds.
- **C35** (proved) Curve-hold solution reaches the target: closed form; algebra with atan2 half-angle.
- **C36** (proved) Single-curve solution reaches the target: closed form.
- **C37** (proved) Connector input table is total and unambiguous: whole finite table by `decide`.
- **C38** (proved) Connector depth bookkeeping is monotone: ordered-field algebra on the bookkeeping code.
- **C39** (proved) Interpolation grids are aligned, ordered and complete: list model of `arange`; floor arithmetic.
- **C40** (proved) Interpolated curve directions stay on the arc: Rodrigues rotation in ℝ³.
- **C41** (proved) Pick-up, rotating and slack-off are ordered: fold over elements, ordered-field induction.
- **C42** (partial) A torque and drag model can be built from any valid string: expected false (iterating a dict yields its keys): negation.
- **C43** (partial) Attribute search honours AND/OR: list model; expected false for ≥2 attributes: negation + partial.
- **C44** (partial) Wellbore ancestry does not depend on earlier queries: explicit state for the mutable default; negation + partial (first query).
- **C45** (partial) A tied survey is the parent down to the tie-on plus the child below: list model; negations + partial.
- **C46** (partial) Stripping duplicates keeps the trajectory: list model; negation + partial.
- **C47** (proved) Loading a .wbp file assigns every line to exactly one well plan: line-cursor state machine; termination and partition by induction.
- **C48** (partial) Mud mixture conserves mass and volume: algebra; expected false.
- **C49** (partial) Every advertised target shape can be constructed: decision tables; expected false for 'polygon'.
- **C50** (proved) The newest workbook revision wins: fold with lexicographic comparison.
- **C51** (partial) No error source is lost on conversion: association-list model; expected false on name collision.
- **C52** (proved) Reference diagnostics are attributed to the right station: fold over classified lines; refinement to a segmentation spec.
- **C53** (partial) A string that reports complete is complete: `Architecture`: invariant over operation lists that the completeness flag implies the bottom is reached, under top ≤ bottom; witness for the negation.
- **C54** (partial) Documented ways of giving a bottom-up section all work: `Architecture`: each documented keyword form as a case of `addBottomUp`; the raising forms as `Except` values for every state.
- **C55** (partial) Rounded DMS output is accurate and normalised: `Dms`: bound on the rounding error by `round` lemmas; witness for 60 seconds.
- **C56** (partial) Vertical-section queries do not change the survey: `Survey`: explicit state of the azimuth arrays before and after the query.
- **C57** (partial) Any surveys can be spliced: `Survey`: the error branches of splicing for every pair of surveys lacking the data.
- **C58** (partial) A slice of a survey is the same well: `Survey`: slice followed by the constructor; the azimuth shift computed exactly for each reference.
- **C59** (partial) A correlated error displaces every station to first order: `ErrorModel`: derivative of the whole station list against the modelled partials, induction over stations.
- **C60** (partial) Sources do not depend on the unit of gravity or field: `Weights`: each source function under scaling of gravity and field; ABIZ witness.
- **C61** (partial) Uncertainty at a station does not depend on deeper stations: `ErrorModel`/`Weights`: two surveys that agree on a prefix; induction, with the five exceptional sources as witnesses.
- **C62** (partial) Turning a well about the vertical turns its non-magnetic uncertainty: `ErrorModel`: conjugation by a rotation about the vertical, source by source.
- **C63** (partial) A JSON tool model contributes every term: `Interpreter`: fold over terms; unbound names as values.
- **C64** (proved) Dogleg severity is the rate of turn: `MinCurve`: equality with angle over length in the unit convention.
- **C65** (partial) Evaluating a formula leaves the survey unchanged: `Interpreter`: evaluator with explicit state of the bound arrays; induction over formulas with an arity condition.
- **C66** (partial) Mesh separation factor tells collisions apart: `Clearance`: ordered-field algebra; rounding as a function.
- **C67** (partial) The sidetrack reference is the tail of the well: `Clearance`: list suffix plus constructor of the survey.
- **C68** (partial) The minimum searched for is that of the reported separation factor: `Clearance`: exact difference of objective and reported value.
- **C69** (proved) Mesh rings are placed on the well: `Mesh`: quadratic form in the rotated frame; centre and axes of the ring.
- **C70** (partial) A mesh has one ring per station: `Mesh`: list lengths for every vertex count.
- **C71** (partial) Ring alignment only turns rings: `Mesh`: rotation and reversal of lists; cyclic order as an invariant.
- **C72** (partial) The uncertainty ring contains uncertainty plus hole size: `Mesh`: support function of an ellipse, Cauchy–Schwarz.
- **C73** (partial) Every target outside the turning circle is reached: `Connector`: closed form at b = 2R; length against straight distance.
- **C74** (partial) A connector to a position ends at that position: `Connector`: case split on the tolerance gap, reduction to C35 and C36.
- **C75** (partial) Interpolated curves end along the solved direction: `Connector`: rotated vector at the end of the curve; witness above half a turn.
- **C76** (partial) An interpolated path has no duplicate depths: `Connector`: strict order of the concatenated grids when each section is positive.
- **C77** (partial) A requested target direction is honoured: `Connector`: method table with the honoured inputs.
- **C78** (proved) Rotating tension is the hanging weight: `TorqueDrag`: telescoping sum over the arrays.
- **C79** (proved) Load cases are independent: `TorqueDrag`: each case as a separate fold.
- **C80** (partial) Torque uses each element's own contact radius: `TorqueDrag`: index of the radius against index of the element under reversal.
- **C81** (partial) Torque and drag do not depend on the compass direction: `TorqueDrag`: forces depend on azimuth differences only; witness across north.
- **C82** (partial) Section boundaries become stations once: `TorqueDrag`: merging of boundary depths into the station list; order and membership.
- **C83** (proved) Buoyed weight is weight less displaced fluid: `TorqueDrag`: algebra of Archimedes’ law.
- **C84** (proved) Hook load ranges cover the request: `TorqueDrag`: list model of `arange`; end points and spacing.
- **C85** (partial) Every wellbore can be fetched by id and by name: `Edm`: dictionary keyed by name; look-up after fold.
- **C86** (partial) Collected wellbore data lists every element once: `Edm`: list of collected elements, multiplicities.
- **C87** (proved) Pressure tables are complete and sorted: `Edm`: permutation and sortedness of the table.
- **C88** (partial) Hole section data keeps every section: `Edm`: fold over rows keyed by tag.
- **C89** (partial) Well-formed well plan files load: `Wbp`: line machine; success for files of well-formed lines, error for every blank or geometry line.
- **C90** (partial) Plan headers survive a write and read: `Wbp`: fixed-width columns; write then read on lists of characters.
- **C91** (partial) A loaded well plan can be exported: `Wbp`: header fields as options; formatting of `None` raises.
- **C92** (proved) Codes and units of well plan files round trip: `Wbp`: whole finite tables by `decide`.
- **C93** (partial) The density profile balances the mass of the mud column: `Fluid`: objective of the profile is the mass balance; error branch for no solids.
- **C94** (partial) Every constructed target can be drawn: `Target`: decision table.
- **C95** (partial) A validation row passes only within tolerance: `Ingest`: relative error over the components kept.
- **C96** (partial) A successful validation run covers every row: `Ingest`: fold over rows; which rows are compared.
- **C97** (proved) A MATCH verdict against reference diagnostics is sound: `Ingest`: verdict against the tolerance for every station.
- **C98** (proved) Sensor error weights are the sensitivities of the survey equations: `Weights` against `Spec/Sensors`: implicit differentiation of the survey equations.
- **C99** (proved) Weights of interference-corrected surveys are the sensitivities of the corrected equations: `Weights` against `Spec/Sensors`: same for the equations with interference correction, existence by the implicit function theorem.
- **C100** (partial) Weight of the axial accelerometer bias in corrected surveys: `Weights` against `Spec/Sensors`: exact factor between weight and sensitivity.
- **C101** (proved) Covariance of an interpolated station: `Interpolate`: convex combination; positive semidefinite.
- **C102** (proved) Toolface of a survey station: `Toolface` against `Spec/Toolface`: direction of the change of tangent in the high-side frame.
- **C103** (partial) Build and turn rate are rates of change: `Toolface`: derivative of inclination and azimuth along the arc; witness where two intervals are mixed.
- **C104** (proved) Build, turn and dogleg severity are consistent: `Toolface`: algebra with sin² + cos².
- **C105** (proved) Projecting ahead follows an arc: `Toolface`: the projected point is on the arc with the given toolface (Frenet equations).
- **C106** (partial) Projecting to the bit continues the survey: `Toolface`: projection compared with the continuation of the last arc; unit witness.
- **C107** (proved) Toolface to a point: `Toolface`: angle to a point in the high-side frame.
- **C108** (proved) Arcs from a toolface: `Toolface`: arc from toolface and back.
- **C109** (partial) Building an arc leaves its inputs alone: `Toolface`: explicit state for the caller’s array.
- **C110** (proved) Curve-hold-curve paths: `Toolface`: composition of two arcs and a hold.
- **C111** (partial) Centres of curvature: `Toolface`: centres against `Spec.CircularCurve`.
- **C112** (proved) Annular volume: `Architecture`: volume by sections, order and additivity.
- **C113** (partial) Depth of a vertical-depth interpolation: `InterpTvd`: roots of the depth equation along the arc.
- **C114** (proved) Every depth in range is found: `InterpTvd`: intermediate value theorem on the depth of the arc.
- **C115** (partial) No point off the well: `InterpTvd`: range of the depth of a curved interval; witness for a straight one.
- **C116** (proved) What the tortuosity indices add up: `Tortuosity` against `Spec/Tortuosity`: sums over the sections between the breaks.
- **C117** (proved) Tortuosity is not negative: `Tortuosity`: path length is at least chord length.
- **C118** (proved) Modified tortuosity is unit free: `Tortuosity`: homogeneity under change of unit.
- **C119** (partial) Tortuosity index and units: `Tortuosity`: degree of homogeneity of the index.
- **C120** (proved) Directional difficulty: `Tortuosity`: logarithm and monotonicity.
- **C121** (partial) Directional difficulty and units: `Tortuosity`: logarithm of the unit ratio.
- **C122** (proved) A well-formed formula evaluates to its mathematical value: `Interpreter` against `Spec.Denotes`: induction over formulas.
- **C123** (partial) Every unit in the shipped tool models is converted to base units: `Interpreter`: whole table of units by case analysis.
- **C124** (proved) A JSON error term contributes its formulas times its magnitude in base units: `Interpreter`: term value = formula × magnitude in base units.
- **C125** (partial) An error source is propagated in the mode its tool model gives: `ErrorModel`: mode of each function against the mode of its term.
- **C126** (proved) Ring vertices are evenly spaced around the well and pairwise distinct: `Mesh`: injectivity of sine and cosine on the ring angles.
- **C127** (proved) Control points are stations of the survey, in order: `Sections`: control points as a subsequence of the stations.
- **C128** (partial) A survey rebuilt from exported control points passes through them where the original does: `Sections`: rebuilt survey by minimum curvature at the control points.
- **C129** (proved) Exported toolface is the direction in which the section turns: `Sections`: toolface of the exported section.
- **C130** (proved) Exported turn rate and size of build rate account for the change of direction: `Sections`: rate times length.
- **C131** (partial) Exported build rate is negative when inclination decreases: `Sections`: sign of the exported rate.
- **C132** (partial) Exported severity times length is the angle turned along the section: `Sections`: severity times length against the dogleg.
- **C133** (proved) A section is exported as a hold exactly if it is straight: `Sections`: tolerance tests.
- **C134** (partial) A well plan read from a .wbp file can be converted to a survey: `Sections`/`Wbp`: error value for every input.
- **C135** (partial) The contact force of a string is the resultant of tension and weight across the hole: `TorqueDrag` against `Spec/Contact`: resultant of tension and weight to first order.
- **C136** (proved) Contact is made at the tool joint: `TorqueDrag`: diameter selection.
- **C137** (proved) Loads are computed for exactly the stations the string reaches: `TorqueDrag`: stations above the bottom of the string.
- **C138** (proved) Legacy entries describe the same error source: `Sheets`: row to legacy entry, field by field.
- **C139** (proved) Totals are read by column name: `Sheets`: column look-up by name for every order of columns.
- **C140** (partial) Validation values are read by column name: `Sheets`: columns by position; witness for exchanged columns.
- **C141** (partial) Every block of a source sheet is kept: `Sheets`: numbered labels; injectivity of decimal numerals.
- **C142** (proved) Blocks of a source sheet do not overlap: `Sheets`: spans of header cells are disjoint intervals.
- **C143** (partial) Every listed error model can be used: `ToolIndex`: whole shipped table (62 names) by kernel evaluation.
- **C144** (partial) An error model name selects one definition: `ToolIndex`: file search in any directory order.
- **C145** (partial) The deprecated name of the Rev 5 model still works: `ToolIndex`: alias table in the two entry points.
- **C146** (proved) A tool model is refused outside its inclination range: `ToolIndex`: comparison of the largest inclination with the range.
- **C147** (partial) Diagnostics list the components of every source and their total: `ToolIndex`: rows of the diagnostics table against the covariances of each source.
- **C148** (proved) A survey header does not depend on the unit of its angles: `Header` with the geomagnetic calculator as an arbitrary partial function; equality of the constructed headers.
- **C149** (partial) The inclination below which a station counts as vertical does not depend on the angle unit: `Header`: default argument in both units.
- **C150** (partial) A survey header keeps the survey date it is given: `Header`: explicit state of the survey date through the two look-ups.
- **C151** (proved) A survey header is refused exactly for a bad position, reference or date: `Header`: decision logic of the constructor.
- **C152** (partial) A survey is accepted in the unit its header was made with: `Header`: unit names through `get_unit` and the assertion of `Survey`.
- **C153** (partial) make_survey_header reads header data as the constructor does: `Header`: dictionary fold over attribute assignments.
- **C154** (proved) A node's vectors and angles describe one direction: `Header` (nodes): unit vectors, atan2 and range reduction.
- **C155** (partial) A node without direction reports None for every direction attribute: `Header` (nodes): which attributes exist.
- **C156** (proved) Every station of a survey has a hole radius: `Header`: case analysis on the radius argument.
- **C157** (proved) The closest point is on the offset well and beats every station: `ClosestPoint` with the optimiser as a parameter; argmin, ends of the intervals, case analysis of the two searches.
- **C158** (partial) The reported distance is the smallest distance to the offset well: `ClosestPoint`: displacement bounded by hole length on both sides; U-shaped well as counterexample.
- **C159** (partial) The hole radii used are the ones given: `ClosestPoint` and `Header`: radius default followed through to the combined radius.
- **C160** (proved) Adding the minima leaves the reference well as it is: `ClosestPoint`: induction over the minima; splitting an arc keeps positions (`interp_split`), insertion keeps order.
- **C161** (partial) An added minimum has the reference well's uncertainty: `ClosestPoint`: covariance of the inserted row; monotonicity of the separation factor; concrete pair.
- **C162** (partial) A minimum is added exactly if it lies between stations: `ClosestPoint`: decision logic of the test on the search result.
- **C163** (partial) Separation factors can be computed in feet: `ClosestPoint`: unit check of the rebuilt survey.
- **C164** (partial) Interpolating a survey does not change other surveys: `ClosestPoint`: state machine over the shared header, induction over histories.
- **C165** (proved) A curve-hold-curve path is a continuous, tangent path with matching depths: `ConnectorSolve`: solver results arbitrary; invariant `Good` kept by `_happy_finish` and every rescue, induction over the retries; arcs by `arcTo_getPos`.
- **C166** (proved) The last straight and curve reach the target when they can: `ConnectorSolve`: the closed formula for the hold and the second curve solves the 2x2 system; orthogonal decomposition of the offset.
- **C167** (proved) Rescue attempts never make a path worse: `ConnectorSolve`: induction over the list of retries and over the turns of the planarity loop.
- **C168** (proved) A converged iteration gives an exact path at the design radii: `ConnectorSolve`: fixed point of one step; both legs are exact curve-hold solutions that share their straight.
- **C169** (partial) A retry with a tighter radius is drawn with that radius: `ConnectorSolve`: radius recomputed from the design; concrete plan with two quarter turns.
- **C170** (partial) Neither curve is sharper than the design allows: `ConnectorSolve`: concrete state; radius of the first curve read off `_happy_finish`.
- **C171** (partial) The reported severity has the unit of the design severity: `ConnectorSolve`: unit algebra.
- **C172** (proved) A curve to a direction meets direction and depth: `ConnectorSolve`: case analysis and `arcTo_getPos`.
- **C173** (partial) A curve to a direction is not sharper than the design: `ConnectorSolve`: quarter turn with a close depth.
- **C174** (partial) The closest approach is a curve that can be drilled: `ConnectorSolve`: vanishing components of the cross product; concrete inclined start with rational coordinates.
- **C175** (partial) The listing of control points gives the position of each: `Sections`: rows of the listing read through `getData` and `point`.
- **C176** (proved) The horizontal bearing points to the offset well: `Bearing`: polar form of `atan2`, whole turns removed by the remainder.
- **C177** (proved) The toolface bearing points to the offset well: `Bearing`: decomposition of the offset vector along high side, right side and tangent.
- **C178** (proved) The travelling cylinder azimuth is toolface plus azimuth: `Bearing`: in a vertical hole toolface plus azimuth is the direction from north.
- **C179** (partial) A kick-off depth does not change the bearings: `Bearing`: azimuth used for the rebuilt reference; uniqueness of a bearing up to whole turns; concrete headers.
- **C180** (partial) A projection to a target is planned with the design severity: `Project`: binding of positional arguments; two radii cannot give one arc (triple angle formula).
- **C181** (partial) The path to the target starts from the projected bit: `Project`: end of an arc from its directions; the two candidate ends differ by a non-zero multiple of a vector out of the bisector.
- **C182** (partial) A projected survey has the directions of the projected path: `Project`: angles of a direction entered with the header; turning about the vertical.
- **C183** (proved) Resampling a survey keeps its path: `Resample`, `Spec/WellPath`: the rows of a section lie on its arc (uniqueness of the circular curve with given end directions), induction over the sections, duplicates removed from the joined list, telescoping minimum-curvature steps; rotation of a path for the azimuth references.
- **C184** (partial) Resampling a survey keeps its stations: `Resample`: evaluation of the witness for any rounding to four decimals; C183 for the rest.
- **C185** (partial) Surveys in feet can be resampled: `Resample`: case analysis of the result.
- **C186** (proved) Radii and covariances of a resampled survey: `Resample`: running count = number of original depths at or above the row (two sorted lists with the same members); convex combination.
- **C187** (partial) A resampled station has the radius of its section: `Resample`: evaluation of the witness; C183 and C186 for the rest.
- **C188** (partial) Queries leave the header of a survey alone: `SharedHeader`: one header object with state; induction over the history.
- **C189** (partial) The vertical section does not depend on earlier calls: `SharedHeader`: invariant over histories: stations differ from the entered ones at most in the azimuth of vertical stations, which every query overwrites; straight well as witness.
- **C190** (partial) Derived surveys use the section azimuth that was set: `SharedHeader`: evaluation; strict monotonicity of cosine for the witness.
- **C191** (proved) Resampling by vertical depth reports every level of a descending well: `ResampleTvd`, `Spec/Levels`: invariant t <= tvd < t + step at the stations, induction over the levels of an interval and over the intervals.
- **C192** (partial) Resampling by vertical depth reports every level passed: `ResampleTvd`: the same invariant with strict inequalities; evaluation of the witnesses.
- **C193** (partial) Resampling by vertical depth keeps the stations: `ResampleTvd`: sublist invariant by induction over the passes; evaluation of the witness.
- **C194** (partial) The starting level is respected: `ResampleTvd`: C191 relative to start; evaluation, and an induction for starts too high.
- **C195** (partial) Resampling by vertical depth keeps positions: `ResampleTvd`: telescoping minimum-curvature steps on the path (`Lemmas/WellPath`).
- **C196** (proved) The covariance at the closest point is interpolated between the stations around it: `ClosestPoint`: case analysis of the two searches; convex combination of covariances (C31).
- **C197** (proved) A drop-off is an arc and a straight: `Extend`, `Spec/Path`: the arc of get_arc in the vertical plane; case analysis on the tangent length.
- **C198** (proved) A drop-off reaches the inclination if the length allows: `Extend`: inclination is 1-Lipschitz in the turn, and the bound is attained within the bounds.
- **C199** (partial) Building to a higher inclination keeps the azimuth: `Extend`: solutions of cos t = cos (i - d) in the bounds.
- **C200** (proved) Extending to a vertical depth without a target inclination: `Extend`: the only zero of the miss; a forced connection straight ahead is a hold.
- **C201** (partial) A depth that cannot be reached is reported: `Extend`: evaluation for horizontal directions; minimiser at zero for depths behind.
- **C202** (partial) delta_md limits the length of the extension: `Extend`: C200 at a witness; the bounds as written.
- **C203** (partial) extend_to_tvd starts at the surface by default: `Extend`: evaluation.
- **C204** (partial) Extending to a vertical depth with a target inclination: `Extend`: end of an arc from its directions (`Lemmas/ConnectorSolve`); angle of a reflex turn.
- **C205** (proved) connect_points connects the points in order: `Extend`: induction over the points; C74 for a single gap.
- **C206** (partial) A single severity applies to every gap: `Extend`: evaluation of the broadcast.
- **C207** (partial) connect_points respects the start direction: `Extend`: truncation of a component below one; case analysis of the axes.
- **C208** (partial) survey_to_plan returns a plan: `Extend`: evaluation of the first pass of the loop.
- **C209** (proved) Resampling a gentle interval with a severity of one's own: `Resample`: the curve-and-hold branch of the minimum curve; C76 for the depths, C40 for the directions on the arc.
- **C210** (proved) Vertical stations are the limit of nearly vertical ones: `Weights`: limit of the regular rows at each vertical station (product with the sine of the inclination cancels), continuity of the accumulation.
- **C211** (partial) Vertical stations are the limit of nearly vertical ones: remaining sources: `Weights`: the same for widely spaced XYM3L/XYM4L; counterexamples by uniqueness of the limit at the first vertical station.
- **C212** (proved) Exported plans reload with the same numbers: `WbpText` (writers and reader on lists of characters): parse of a printed number, words of a line, then induction over steps, plans and the loading loop (`load_export`); spec `PlanFile`.
- **C213** (partial) Exported plans reload with the same names: `WbpText`: names as read by `load_export`; counterexample.
- **C214** (partial) Exported plans reload with the same tie-on points: `WbpText`: tie-on flag as read by `load_export`; counterexample.
- **C215** (partial) Exported covariances reload as covariances: `WbpText`: entries as read by `load_export`; counterexample matrix.
- **C216** (partial) Each target keeps its colour: `WbpText`: the shared dictionary is part of the state of the reader; counterexamples.
- **C217** (partial) Each plan keeps its targets: `WbpText`: targets as read by `load_export`; counterexample.
- **C218** (partial) Each plan keeps its units: `WbpText`: units as read by `load_export`; counterexample.
- **C219** (partial) Local coordinates are relative to the surface location: `Sections`: exact error of the local coordinates.
- **C220** (proved) Comments do not change what a file means: `WbpText`: `load_export` does not depend on the comments.
- **C221** (proved) Printed angles are read back: `DmsText`: the preferred match of each piece of the pattern (`Best`), composed; spec `DmsText`.
- **C222** (partial) An angle without direction is read back as three numbers: `DmsText`: the preferred match of the end of the pattern on the sign of the seconds.
- **C223** (partial) Converting an angle to text and back keeps it: `DmsText`: the search skips the minus; with C15.
- **C224** (partial) The rows of decimal2dms can be printed and read: `DmsText`: every match has two commas with no point between them (`pattern_commas`); with C221.
- **C225** (partial) Seconds are read as they were printed: `DmsText`: the preferred match when an exponent follows the mantissa.
- **C226** (partial) A case has the records it refers to: `EdmCase` (attributes of a case as a dictionary): what later steps leave alone; spec `EdmCase`; counterexample.
- **C227** (partial) An unknown case is not an error: `EdmCase`: the failing branches.
- **C228** (partial) The name of a case is the name of the case: `EdmCase`: first and last row with an id; counterexample.
- **C229** (partial) Pressure and temperature tables are grouped and sorted: `EdmCase`: entries of the grouping loop, then sorting; counterexamples.
- **C230** (partial) A formula means what it says: `FormulaText` (characters: rewriting, tokens, recursive descent): the rewritten text of a written formula is read as its tree, by induction over the way it is written; with C122; spec `FormulaText`; counterexample.
- **C231** (partial) Every term of a shipped JSON tool model is evaluated: `FormulaTable` (generated from the shipped files): kernel evaluation of the reader on the whole table; trees without unprovided names have values; with C63.
- **C232** (partial) JSON and hand-written error sources agree: `FormulaTable`, `Weights`: trees of the table evaluated symbolically and compared with the hand-written rows; spec `FormulaTable`.
- **C233** (partial) The two covariances of a survey agree: `SurveyCov` (constructor and `_get_errors` on a heap of arrays and lists): case analysis over the arguments; frame spec `Spec.Agree`; counterexamples.
- **C234** (partial) The start covariance is added at every station: `SurveyCov`: the survey with and without the start covariance compared; counterexamples.
- **C235** (partial) The parts add up to the survey's covariance: `SurveyCov` with C24; counterexample.
- **C236** (partial) Constructing a survey leaves its arguments unchanged: `SurveyCov`: no reference that existed before is written, by cases; counterexample with two surveys.
- **C237** (proved) get_error does not depend on earlier calls: `SurveyCov`: induction over the series of calls (`Spec.Calls`).
- **C238** (partial) A failed get_error leaves the survey unchanged: `SurveyCov`: case analysis; counterexample.
- **C239** (partial) A given covariance is kept: `SurveyCov`: case analysis; counterexample.
- **C240** (proved) A mesh clearance has a result for each reference interval: `MeshClearance` (loop over intervals with slices, searches and look-ups; collision answers as parameters): induction over the intervals; spec `AtDepth`, `OnWell`.
- **C241** (proved) The offset point of a mesh clearance is on the offset well: `MeshClearance`: case analysis over the one or two searches as in C157; spec `NearestIndex`, `AtDepth`.
- **C242** (proved) Distance, bearing and hole size of a mesh clearance: `MeshClearance`, `Bearing`: trigonometry.
- **C243** (partial) The project-ahead uncertainty is in the meshes: `MeshClearance`, `Mesh`: algebra; counterexample for every other value.
- **C244** (partial) The reported uncertainties are those of the meshes: `MeshClearance`: algebra; counterexample for every other value.
- **C245** (proved) Sliced meshes cover the survey piece by piece: `SlicedMesh` (loop with fuel, Python slices, exceptions): strong induction on what is left of the survey; spec `legs`, `CutInto`.
- **C246** (partial) Sliced meshes can be made with the default arguments: `SlicedMesh`: the first pass fails for every survey; from C245 for a given method.
- **C247** (partial) Making sliced meshes ends: `SlicedMesh`: induction on the number of passes for a step of zero; from C245 otherwise.
- **C248** (proved) A transformed scene is similar to the given one: `SlicedMesh`: algebra; spec `dist2`, `signedVolume`.
- **C249** (partial) The origin of a transformed scene may be any array: `SlicedMesh`: case analysis of the argument.
- **C250** (partial) A transformed scene has fewer triangles: `SlicedMesh`: case analysis, the decimation as a parameter.
- **C251** (proved) Repairing a mesh removes exactly the bad triangles: `SlicedMesh`: membership in filtered lists.
- **C252** (partial) A density profile has a density for every depth: `DensityProfile` (shapes, exceptions; the solver as a parameter): induction over the pairs of depth and gradient.
- **C253** (proved) The density at the surface is the reference density: `DensityProfile`, `Fluid`: the objective at depth zero, a solver with a tolerance.
- **C254** (proved) The tags of an EDM file: `EdmGraph`: merge sort gives an ordered permutation.
- **C255** (partial) The wellbore graph joins each wellbore with its parent: `EdmGraph`: induction over the wellbores; counterexample with equal names.
- **C256** (partial) A wellbore is found by its identifier and by its name: `EdmGraph`: from C85; counterexample with equal names.
- **C257** (proved) The toolface column of a data frame: `Frame`: periodicity of sine and cosine.
- **C258** (partial) The columns of a data frame are in the units of their labels: `Frame`: algebra; counterexample for every survey in feet.
- **C259** (proved) Converted tool models have the terms of the workbook: `Owsg` (cells, rows, terms): induction over the rows; spec `hasTerm`, `Represents`.
- **C260** (partial) Terms that do not fit the schema are reported: `Owsg`: case analysis of a row, lifted over the rows; counterexample with an empty magnitude.
- **C261** (partial) The file of a converted model carries its warnings: `Owsg`: a prefix of length five; counterexample with six terms.
- **C262** (partial) The inclination range of a tool model is kept: `Owsg` (the regular expression as a function on characters): induction over the digits; counterexamples.
- **C263** (partial) Identifiers of converted models and terms are distinct: `Owsg`: injectivity of the seeds, uuid5 as a parameter; counterexample with two sheets.
- **C264** (partial) Every sheet of a workbook is in its own file: `Owsg` (directory as a function from names): induction over the sheets; counterexample.
- **C265** (partial) The revision number of a tool model is kept: `Owsg`: truncation; counterexample.
- **C266** (partial) Every converted model has an identifier: `Owsg`: case analysis of the metadata; counterexample.
- **C267** (partial) The error model uses the dip of the looked-up field: `Header`, `Factors`, `Weights`: the sensitivity is unique (linear system), so the sign shows; counterexample in every field.
- **C268** (proved) Factors of a map location agree with the header: `Factors`: case analysis of the look-up.
- **C269** (partial) Exported control points end where the survey ends: `ExportCsv` on `Sections`: rebuilt arcs; counterexample from the merged survey of `SectionData`.
- **C270** (partial) Workbook depths are converted to metres: `Workbook`: labels without blanks and brackets (`Lemmas/Labels`), induction over the rows; counterexample.
- **C271** (proved) Stations of a workbook are the rows of its table: `Workbook`: places of the rows kept by a filter, by induction from the end.
- **C272** (proved) Reference values are found by their names: `Workbook`: labels, spec `Names`, induction over the rows.
- **C273** (proved) Error terms of a workbook are the rows of its model sheet: `Workbook`: as C271.
- **C274** (partial) Source tabs are aligned with the well path: `Workbook`: fold over the sheets; counterexample.
- **C275** (partial) Totals are compared at the same depth: `Workbook`: induction over the rows; counterexamples.
- **C276** (proved) Misalignment tilts the hole equally in every direction: `Weights`, spec `Tilt` (derivative of the direction): quadratic form in a direction across the hole.
- **C277** (partial) Each pair of misalignment terms is isotropic: `Weights`: quadratic form of each pair; counterexample.
- **C278** (proved) Wells of the standard set are the rows of their sheets: `IoData`: fold over the rows as a filter, places of the rows kept.
- **C279** (partial) A survey of the standard set starts at its own well: `IoData`: induction over the wells for the names; counterexamples.
- **C280** (proved) A reported match is a match: `Conformance`: maximum of a list against a bound.
- **C281** (partial) Every hand-written weight function is compared: `Conformance` on `Weights`: cases of the weight functions; counterexample.
- **C282** (proved) Markers show each station once: `IoData`: permutation by a filter and its complement.
- **C283** (proved) Lines between wells are the reported distances: `IoData` on `ClosestPoint`: induction over the stations with C157.
- **C284** (partial) Diagnostics formulas use the values of their station: `Conformance` on `Interpreter`: monotonicity of `Denotes` with C122; counterexample.
- **C285** (partial) A plotted well mesh shows the whole mesh: `Visual`: indices of the end faces against the number of points; counterexample for all meshes.
- **C286** (proved) A well mesh is closed on its own vertices: `Visual` on `Mesh`: membership in the list of faces, places in the flattened rings.
- **C287** (partial) Formulas for vertical stations are used: `JsonTerm` on `Interpreter`: the sensitivities of an azimuth error vanish in a vertical well; counterexample.
- **C288** (proved) The summary of a validation is its rows: `Report`: fold for the grouping, first maximum of a list, sorted codes.
- **C289** (proved) The coverage matrix counts every term: `Report`: induction over the verdicts and the models.
- **C290** (partial) Hook loads for every friction factor and depth: `HookLoad` on `TorqueDrag`: induction over depths and friction factors; C42 for the negation.
- **C291** (proved) Hole sections are listed once each: `EdmTables`: membership and duplicates of the list, lookups through the folds.
- **C292** (partial) Pressure and temperature tables are complete: `EdmTables`: induction over the rows with C87; counterexample.
- **C293** (proved) A straight well has no tortuosity: `TiData` on `Tortuosity`: every section total vanishes.
- **C294** (proved) One arc is one section: `TiData`: one binormal along a circular curve, chord of an arc.
- **C295** (partial) A change of the bending direction starts a new section: `TiData`: bounds between component tolerances and distance; counterexample.
- **C296** (partial) A change of severity starts a new section: `TiData`: exact condition; counterexample.
- **C297** (partial) Method and function of the tortuosity index agree: `TiData`: inclusion of cuts; counterexample.
- **C298** (partial) Sections do not depend on the compass direction: `TiData`: rotation of normals, quarter turns permute components; counterexample.
- **C299** (proved) Maximum curvature has the requested severity: `MaxCurve` on `Toolface`: swept arc of known angle, severity of the first half.
- **C300** (partial) Maximum curvature bends the way the well bends: `MaxCurve`: toolface of a direction along a circle; counterexample at a vertical station.
- **C301** (partial) Maximum curvature works in either depth unit: `MaxCurve`: decision logic; negation.
- **C302** (proved) Maximum curvature keeps the survey stations: `MaxCurve`: places of the interleaved list by induction.
- **C303** (partial) The extraction scripts agree with the workbook reader: `Extract` against `Workbook` and `Ingest`: fold over complete rows; negations.
- **C304** (partial) Gyro settings are grouped under their heading: `Extract`: induction over blocks of the sheet; negations.
- **C305** (partial) Every tool of the index is found by its short name: `Extract`: dictionary with distinct keys, last row with a key; negation.
- **C306** (proved) Computed positions are close to the true well: `MinCurve` against `Spec.TrueWell`: each step is the trapezoidal rule up to a bound on the ratio factor; errors summed by induction over the stations.
- **C307** (proved) Feet and metres describe the same trajectory: `MinCurve`: steps are linear in depth; induction.
- **C308** (proved) A well that never points upwards never rises: `MinCurve` and `Spec.WellPath`: the direction along an arc is a nonnegative combination of its end directions; induction.
- **C309** (proved) Leaving out stations never adds turn: `MinCurve`: triangle inequality for angles; induction over the selection.
- **C310** (proved) Positions do not depend on the end one starts from: `MinCurve`: a step is symmetric under reversal; induction with the list reversed.
- **C311** (proved) Wells come no closer than reported: `ClosestPoint` against `Spec.Closest`: half spacing on both wells.
- **C312** (partial) Uncertainty does not depend on the depth unit: `ErrorModel`, `Weights`: the derivatives by depth keep, those by angles scale; case analysis over the sources, induction over the catalogue; negations.
- **C313** (partial) Every vertical depth the well passes is found: `InterpTvd`: the bisection of `searchsorted` on an unsorted list ends between two entries that enclose the value; intermediate value theorem on that piece; negation on a lateral.
- **C314** (partial) Levels of a resampled survey lie on the well: `NodeTvd`: the arc from a point of an interval to its end is the rest of the interval; one call finds the first point at the level; simulation of the simplified loop of C191 by the loop over nodes; negation on the well of C113.
- **C315** (proved) Small errors of a survey move its positions by a bounded amount: `Stability`: the ratio factor grows with the turn and |a+b| shrinks, so one interval moves by at most rf(D) times the error of its ends; induction over the stations.
- **C316** (proved) Further or larger error sources never make a well look safer: `MoreErrors`: a smaller magnitude scales the covariance of a source by at most one (`callFunc_smul`); induction over the list of sources; the separation factor falls with the projected variances (C30).
- **C317** (proved) Reported distances bound the distance of the wells as drilled: `MeasuredWell`, `TrueApproach`: a station is near every point of a well; error of a station by C306 and C315; the search by C157; triangle inequality.
- **C318** (proved) More friction never makes pulling or turning easier: `Friction`: order between the loads of the two strings kept by one element (triangle inequality for the normal force), then induction.
- **C319** (proved) Loads are proportional to the weights: `Friction`: one element is homogeneous in loads and weight; induction.
- **C320** (partial) A connection with a target direction joins the given positions: `ConnectorLoop` (model of the search), `ConnectorSearch`: only the starting point moves the ends, at most twice; concrete searches with an end straight ahead.
- **C321** (proved) The search for a path with two curves ends and is well defined: `ConnectorSearch`: every half step is defined (critical radius bounds the square root); counting steps by induction over the loops.
- **C322** (partial) The search starts from a point that can be reached: `ConnectorSeed`: the directions tried are unit vectors across the start; distances of the candidates computed; induction over the four candidates; the first leg computed.
- **C323** (partial) Moving the origin moves the connection: `ConnectorOrigin`: every part depends on differences only, except `np.allclose`; witness with map coordinates.
- **C324** (partial) A connection is not shorter than the distance: `ConnectorOrigin`: an arc and a straight are no shorter than their chord; witness with map coordinates.
- **C325** (proved) The severities reported after a search cover its curves: `SearchSeverity`: invariant over all steps and retries that the noted minimum is below every radius used, up to the tolerance; then arithmetic.
- **C326** (partial) A plan with a parent takes its surface location from the parent file: `WbpParent` (model of the parent data), `Props/WbpParent`: the words of a location line computed for all numbers; for the numpy without the alias a case split.
- **C327** (partial) A plan exported with a parent file brings back the parent's plans and its own: `Lemmas/WbpParent`: the lines of the parent after the WELLPLANS line, read by the reader of C214-C219; witness by evaluation.
- **C328** (partial) Parent plans keep their units: `Props/WbpParent`: the units code is read once; witness with a parent in feet.
- **C329** (proved) A mirrored well has the mirrored uncertainty: `Mirror`: every weighting function computed on the mirrored survey, up to a common sign of the error vector; induction over the sources of the tool model.
- **C330** (partial) JSON tool models use the values of the survey header: `JsonScal` (model of the scalar bindings), `Props/JsonScal`: the bindings agree with the header environment name by name, then the value theorem of C122/C124; witness: the gyro bias formula.
- **C331** (proved) Clearances do not depend on origin, north or handedness: `Spec/Motion` (rigid motions that keep the vertical), `MovedWells`: tangents, doglegs, interpolated positions and covariances commute with the motion, so the objective of the search is the same function.
- **C332** (partial) A connection to a position turns with the coordinates: `ConnectorTurned`: each step of the connection commutes with the linear part of a motion; witness far from the origin.
- **C333** (proved) Turning the coordinates by a quarter turn turns the connection: `ConnectorTurned`: quarter turns permute the axes, so the closeness test agrees; induction over the search loop.
- **C334** (proved) The connection to a mirrored position is the mirrored connection: `ConnectorTurned`: mirroring keeps the absolute values per axis.
- **C335** (partial) Clearance does not depend on which well is the reference: `SwappedWells`: symmetry of the separation of a pair; witness of two straight wells using C157.
- **C336** (partial) Torque and drag of a mirrored well are the same: `MirroredWell`: the azimuth difference enters squared; witness at north as for C81.
- **C337** (proved) A mirrored well is as tortuous and as difficult: `MirroredWell`: axes of turn are mirrored pseudo-vectors, and the closeness test does not see signs.
- **C338** (proved) A mirrored well has the mirrored control points: `MirroredWell`: case analysis of azimuth differences on both sides of north; toolfaces by conjugating the argument.
- **C339** (proved) Resampling without a step changes nothing: `NoStep`: each section has the two rows of its ends; induction over the sections and the removal of duplicates.
- **C340** (partial) The scale of the tortuosity indices can be set: `TiData` (methods with keyword arguments), `TiKeywords`: the scale factors out of the common index; witness of a quarter circle.
- **C341** (proved) A further station on a straight interval keeps the systematic uncertainty: `Refined`: contributions of the two neighbours and the further station add up to those of the neighbours before (for depth and angle errors separately); induction over the later stations; `RefinedTool` for whole tool models and the exception of the first interval.
- **C342** (proved) A further station on a straight interval never raises the uncertainty: `RefinedTool`: variance along a direction as a sum of squares; each station counts with half the length on either side, and three shorter lengths have a smaller sum of squares than two longer ones.
- **C343** (proved) Positions and directions change no faster than the depth: `Continuity`: within one interval the interpolated points lie on one arc, so the turn is the severity times the difference and the chord is no longer than the arc; induction over the stations in between with the triangle inequality for distances and for angles.
- **C344** (partial) A survey continued with the covariance reached has the uncertainty of the survey in one piece: `Handover`: rows of the derivative array for the part above and the part below the cut; sums split at the cut; the difference is the contribution of the station of the cut. Negation by a level well with three stations.
- **C345** (partial) Uncertainty never decreases down the well: `Deeper`: the covariance at the next station adds a square and replaces the star term by the full one, which is a longer multiple of the same vector. Negation by a level well turning from north to east.
- **C346** (proved) Resampling at a step that all stations already follow returns the survey: `NoStep`: no multiple of the step lies inside an interval, so every section returns its ends; the rest is shared with C339.
- **C347** (proved) A further station on a straight interval does not change the loads: `DragStations`: on a straight part the normal force does not depend on the tension, so one step with the sum of the weights equals two steps; the fold is split at the interval.
- **C348** (proved) Resampling twice is resampling once: `ResampleTwice`: the resampled survey has a station at every multiple of the step, its intervals are parts of the arcs of the survey and pass the same checks; then C346.
- **C349** (proved) A finer step refines a coarser one: `ResampleTwice`: both routes give sorted lists with the same members (stations and multiples of the step) and the directions of one path.
- **C350** (proved) A string does not depend on the end it is built from: `EitherEnd`: invariants by induction over the additions for both directions; both end in the same list of stacked sections, numbered in the same order.
- **C351** (proved) Interpolating a resampled survey gives the nodes of the survey: `ResampledNodes`: every node of a survey lies on the well path through its stations (uniqueness of the arc through two directions); the resampled survey has the same path.
- **C352** (proved) Resampling keeps turn and dogleg severity: `ResampledTurn`: every interval of the resampled survey lies within one of the survey, where the turn is proportional to the depth; sums telescope over a turn function of the depth.
- **C353** (proved) The order of the sources of a tool model does not matter: `SourceOrder`: adding a source to the totals commutes, a permuted list of sources gives a permuted list of terms.
- **C354** (proved) Splicing surveys in steps is splicing them at once: `SpliceSteps`: C20 applied three times; the constructor run on the spliced arrays keeps the azimuths of the reference of the header.
- **C355** (proved) Positions do not depend on the depth datum: `Datum`: only differences of depths enter minimum curvature; the interval search commutes with the shift.
- **C356** (proved) A survey made from connections runs along them: `FromConnections` (model and properties): rows of each part lie on its arc or straight, duplicates at the seams are dropped, then `positions_on_path` of C183.
- **C357** (proved) A survey made from connect_points passes through the points: `SurveyOfPoints`: each gap gives a path along its connection (C74), the paths are glued, then C356.
- **C358** (partial) from_connections compares depths at the given number of decimals: `Decimals`: two straights, the second 0.02 mm long; the partial theorem is a corollary of C356.
- **C359** (proved) The density sought at a depth is unique, and hotter mud is not denser: `DensityTrend`: the balance as an integral of the stretch of the column, strictly monotone in the density; comparison of two columns.
- **C360** (partial) Applied pressure does not make the mud lighter: `DensityTrend`: the same comparison with two applied pressures; existence of a balance by the intermediate value theorem for the counterexample.
- **C361** (proved) Only the depth scale and stretch sources know the datum of the depths: `ErrorDatum`: derivatives, weights and vertical special cases read differences of depths, then induction over the sources.
- **C362** (proved) Two sources of the same kind add in squares: `LikeSources`: C25 scales the unit source, the loop of totals adds the squares, C353 for the position.
- **C363** (partial) The uncertainty of a magnetic survey turns with the declination: `Declination`: weights unchanged, propagation and vertical rows turned (C62), induction over the sources; the sag of C62 as counterexample.
- **C364** (partial) A scene contains every well mesh once: `Scene` (model and properties): induction over the names with the scene so far.
- **C365** (proved) Without friction all load cases agree: `Frictionless`: differences of the cases and the torque are invariants of the loop.
- **C366** (partial) The hanging weight of a uniform string is its weight over the vertical depth it spans: `Frictionless`: C347 gives the state at a station as a sum over the parts below; compare each with the vertical advance of the arc, which for one azimuth is the mean cosine times sin x / x.
- **C367** (partial) Tortuosity and difficulty do not depend on the origin: `TiOrigin`: depths and positions enter by differences only, section search shifted as in C355; explicit values for the difficulty index.
- **C368** (partial) Vertical sections at all azimuths follow from two: `SectionAzimuths`: addition theorem in each interval, induction over the running sum; two stations as counterexample.
- **C369** (partial) A covariance taken apart is put together again: `CovParts`: entry by entry; a quadratic form as counterexample.
- **C370** (partial) Every labelled column of a source sheet is read under its label: `BlockColumns`: the value under a label is that of the last column with the label, by induction over the columns.
- **C371** (partial) With a kick-off depth the well is examined from that depth on: `KickOff` (model and properties): the tail from the insertion point is the list of depths that are not less.
- **C372** (partial) A full turn more or less in an azimuth makes no difference: `FullTurns`: sine and cosine are periodic, doglegs depend on the squared sine of half the difference; case by case over the sources.
- **C373** (partial) A tool added to the index is used for its name and leaves the others alone: `IndexEntry` (model and properties): dictionary look-ups by induction; the first tool with a unique name does not depend on the order.
- **C374** (partial) The survey for comparing tool models is the one of its file: `TestSurvey` (model and properties): on the header of C148 and C151.
- **C375** (partial) Recording a station twice does not change the uncertainty: `Repeated`: the half-interval contributions of the two copies add up to those of the station; case by case over the sources.
- **C376** (proved) More cautious settings never withdraw an alarm: `Cautious`: monotonicity of the boundary, and of the quotient while the holes do not overlap.
- **C377** (proved) Recording a station twice does not change the loads: `DragRepeated`: a part without weight and bend is the identity on the state; as C347.
- **C378** (proved) Of a parent file the plans are read and nothing else: `ParentFile`: induction over the lines; trailing blanks do not matter for the heading.
- **C379** (proved) A string can be run to a depth in stages: `DepthStages`: on the run of C04; the number of pieces needed is determined by the lengths.
- **C380** (partial) A slice of a survey lies where the survey lies: `Slice` (model and properties): positions of a part of the stations from the position of its first one, by induction; arithmetic of indices.
- **C381** (partial) Separation factors do not depend on the unit of length: `ClearanceUnits`: every quantity is homogeneous of degree one.
- **C382** (partial) A connection does not depend on the unit of length: `ConnectorUnits`: every step of the construction is homogeneous; as C332.
- **C383** (partial) A mesh for a higher confidence contains the one for a lower: `NestedRings`: a ring with an even number of vertices is symmetric about both axes, so a vertex of the smaller one is a convex combination of four vertices of the larger.
- **C384** (partial) The pedal-curve mesh covers the uncertainty in the direction of each vertex: `PedalReach`: the vertex is the foot of the perpendicular on a tangent of the ellipse; algebra.
- **C385** (proved) The diameter of a string scales its torque and nothing else: `TorqueRadius`: as C319, by induction over the elements.
- **C386** (proved) A denser mud contains more weighting material: `DenserMud`: monotonicity of v / (1 + v).
- **C387** (proved) Points can be connected in stages: `PointStages`: induction over the loop of `connect_points`.
- **C388** (proved) A term of a tool model depends only on the quantities its formulas mention: `Irrelevant`: simultaneous induction over expressions and argument lists; evaluations in two states that agree on the names mentioned stay in step.
- **C389** (proved) Further records in an EDM file do not change what the others say: `EdmFrame`: induction over the document, the conditions and the chain of tied headers.
- **C390** (proved) A JSON term acts station by station: `StationWise`: induction over expressions; values of two evaluations stay equal at the station.
- **C391** (proved) An arc can be drilled in two runs: `ArcStages`: the direction of the turn at the stop is that of some toolface, which get_toolface finds.
- **C392** (proved) An arc can be built back from its end: `ArcBack`: the direction of the turn seen from the end is that of some toolface, which get_toolface finds.
- **C393** (proved) Conversion to degrees, minutes and seconds keeps the order of angles: `DmsOrder`: rounding half to even is monotone; minutes and degrees are quotients of the whole minutes.
- **C394** (proved) A curve-hold-curve path can be followed from its other end: `ClcBack`: C392 for both curves.
- **C395** (proved) Tortuosity at a station depends only on the well down to it: `TiCausal`: the section boundaries of the upper part are those of the whole well (induction), then C116.
- **C396** (proved) Drilling on leaves the control points above the end of the well alone: `SectionsCausal`: breaks of a prefix are a prefix of the breaks; induction over consecutive pairs.
- **C397** (proved) Drilling on does not change the resampled stations above: `ResampleCausal`: induction over the stations, and over the rows for the removal of duplicates.
- **C398** (proved) Drilling on does not change what is interpolated above: `InterpolateCausal`: the insertion point in a prefix is that in the whole list; positions of a prefix are a prefix (C09).
- **C399** (proved) Drilling on deeper does not change the node found at a vertical depth: `TvdCausal`: the insertion point in an ascending list is determined by its neighbours.
- **C400** (proved) The maximum-curvature survey can be made in two pieces: `MaxCurvePieces`: induction over the stations above the cut.
- **C401** (proved) A density profile can be computed in pieces: `ProfilePieces`: induction over the first list.
- **C402** (proved) Drilling on leaves the mesh above alone: `MeshCausal`: indices of the faces between rings stay below the number of ring vertices; list lemmas.
- **C403** (partial) Drilling on does not change the node found at a vertical depth, in any well: `TvdRising`: counterexample, a vertical hole with a U-turn; the bisection is evaluated step by step.
- **C404** (proved) Drilling the offset well on away from a point leaves the closest point alone: `ClosestCausal`: first smallest entry of an extended list; the searches of C157 on a prefix.
- **C405** (partial) Drilling the offset well on never makes it look farther away: `ClosestLonger`: the U-shaped well of C158 as the continuation of its first branch.
- **C406** (proved) Drilling the reference well on does not change the mesh clearances above: `MeshClearanceCausal`: slices of a prefix; induction over the intervals.
- **C407** (proved) Drilling on does not change the nodes above when resampling by vertical depth: `ResampleTvdCausal`: the last node of an interval is a station, so the next interval does not change it; induction over passes and stations.
- **C408** (proved) Further connections do not change the survey of those before: `ConnectionsCausal`: induction over the connections; the removal of duplicates as in C397, positions as in C398.
- **C409** (proved) Well plans can be appended to a file: `WbpAppended`: induction over the lines of a plan and over the plans; the result does not depend on surplus fuel.
- **C410** (proved) A tighter curve gives a shorter path to a position: `TighterBend`: the half angle satisfies (a+t) sin = b cos, which orders the doglegs; the difference of the lengths is then a sum of three nonnegative terms.
- **C411** (proved) The curve-and-hold solution is the shortest of its radius: `ShortestCurveHold`: a competing path lies in the plane of the target and turns towards it (then it is the solution, up to full turns) or away from it (then it is longer, by cases on half a turn).
- **C412** (proved) Points along the straight are reached by the same curve: `ProlongHold`: the same dogleg with the longer straight solves the plane equations of the new target, and the solution is unique.
- **C413** (proved) A curve-and-hold path is close to the straight distance: `NearStraight`: the straight plus radius times sine is the projection of the displacement on the final direction.
- **C414** (proved) Leaving out stations never raises the largest dogleg severity: `SparseSeverity`: being joined by at most the bound times the length is a transitive relation, so it holds between any two stations.
- **C415** (proved) Inclination bounds the depth gained: `Progress`: the ratio factor is at least one, so a step advances by at least the mean of the two cosines; then induction over the stations.
- **C416** (proved) In a vertical hole friction has no effect: `VerticalHole`: averages and differences of the inclinations are zero, so no element has a contact force; invariant of the loop.
- **C417** (proved) Loads and critical angle in a straight inclined hole: `StraightHole`: the rows of the loop in closed form, then induction over the elements; the critical angle follows from the load at the surface.
- **C418** (proved) Drilling in a straight inclined hole: `StraightDrilling`: in a straight hole the contact force does not depend on the tension, so the loads at the bit are carried up unchanged; induction over the elements.
- **C419** (proved) Which way is up in a transformed scene: `SceneAxes`: the vertex map in coordinates relative to the origin; added because an edit of the axes was found by a worked example only.
- **C420** (proved) Vertical depths on either side of a station: `LevelOrder`: the interval of C114 lies on the right side of the station because both depths increase along the list.

## Where the code does not have the property

Each line is proved: the negation is a theorem with a concrete witness (or for every input where said), and the part that does hold is the `_partial` theorem.

- **C03** A rejected add_section leaves the string unchanged: False of the code: C03_rejected_call_mutates gives witnesses for both methods, C03_poisoned_forever a lasting consequence. What holds (flag and settings unchanged) is C03_rejected_keeps_flag_partial.
- **C15** Decimal degrees survive a DMS round trip: False of the code strictly between -1 and 0 degrees (C15_sign_lost_below_one_degree); holds everywhere else, and every normalised row survives the other round trip.
- **C17** All reported positions of a station agree: False of the code when start_xyz is non-zero or the grid scale factor is not one (negations proved for every survey); equal otherwise.
- **C21** Maximum-curvature conversion keeps the original depths: Count and original depths proved for every survey; order is false of the code when the half sweep exceeds pi (C21_inserted_station_overshoots) and NaN for zero noise on a straight interval; proved otherwise.
- **C22** Vertical section is the projection on the section azimuth: False of the code across north and when kicking off from vertical (two witness families). Proved: equals the projection whenever each leg points along its mean azimuth, in particular for wells in one vertical plane; bounded by the horizontal path length for every survey.
- **C26** Position partials are the true derivatives: False of the code at the first interval for models that are not rev4 (C26_first_interval_wrong: the north inclination partial is doubled). Everywhere else the table is the derivative of the balanced-tangential step.
- **C28** Every catalogued propagation mode contributes to the uncertainty: False of the code for the well-by-well mode (C28_well_mode_fails: the model cannot be loaded); the other modes contribute.
- **C32** Sidetrack uncertainty restarts at the kick-off point: False of the code in two ways: given covariances are not restarted (C32_given_cov_not_restarted), and a random source can leave a negative variance (C32_negative_variance). Zero at the kick-off point is proved for every error model; non-negativity when random non-depth sources are proportional at the kick-off station, which C32_regular_source shows for sources without a depth part.
- **C34** Well meshes are consistently oriented: False of the code for every size (C34_never_oriented).
- **C42** A torque and drag model can be built from any valid string: False: construction always raises (C42_never_constructed), a TypeError for every valid non-empty string (C42_type_error), because the bottoms are read from the integer keys of the section dictionary. There is no true part.
- **C43** Attribute search honours AND/OR: False with two or more attributes: AND returns every element matching the first one (C43_and_only_first, C43_and_wrong) and both logics repeat elements (C43_or_twice). Proved for at most one attribute, and OR returns the right set.
- **C44** Wellbore ancestry does not depend on earlier queries: False: the default list persists, so a query also returns the ancestors of earlier queries (C44_second_query, C44_witness). Proved for the first query.
- **C45** A tied survey is the parent down to the tie-on plus the child below: False: an untied survey is empty (C45_untied_is_empty), the root of the chain is missing (C45_root_missing), tie-on stations occur twice (C45_tie_on_twice). Proved: exactly which stations are returned, and their order.
- **C46** Stripping duplicates keeps the trajectory: False: only inclinations are compared, so stations that differ in azimuth or depth are removed (C46_constant_inclination, C46_witness). Proved: the result is a sublist that keeps the ends, and exactly which stations are dropped.
- **C48** Mud mixture conserves mass and volume: False: the added volume is divided by the density of the solids alone, so the mixture of the computed fractions weighs less than the fluid asked for (C48_mixture_density, C48_too_light). Proved: the fractions add to one and are not negative.
- **C49** Every advertised target shape can be constructed: False for 'polygon', which no arguments construct (C49_polygon_fails). Proved for the other shapes, both acceptance and rejection.
- **C51** No error source is lost on conversion: False when XCLA and XCLL are both present (C51_collision). Proved otherwise, for distinct codes.
- **C53** A string that reports complete is complete: False of the code (negative-length section after completion): C53_complete_accurate_is_false. Holds when every section has top <= bottom.
- **C54** Documented ways of giving a bottom-up section all work: False of the code: giving top always raises UnboundLocalError, giving neither raises KeyError on an empty string. The length form is C04_build; the default works on a non-empty incomplete string.
- **C55** Rounded DMS output is accurate and normalised: Error bound proved; seconds can be reported as 60 (C55_rounded_seconds_can_reach_sixty).
- **C56** Vertical-section queries do not change the survey: False of the code at exactly vertical stations (C56_vertical_azimuth_overwritten); everything else is unchanged.
- **C57** Any surveys can be spliced: False of the code (C57_splice_rejects, C57_single_magnetic); the working case is C20.
- **C58** A slice of a survey is the same well: False of the code for true and magnetic references (C58_slice_turns_the_well gives the exact turn); holds for grid.
- **C59** A correlated error displaces every station to first order: Proved for rev4 models; false for the others (C59_first_order_fails_other_models).
- **C60** Sources do not depend on the unit of gravity or field: Proved for every source but ABIZ, where it is false (C60_abiz_depends_on_unit).
- **C61** Uncertainty at a station does not depend on deeper stations: False for five sources at a near-vertical last station (C61_last_vertical_station_wrong); proved in every other case.
- **C62** Turning a well about the vertical turns its non-magnetic uncertainty: Proved for rev4 models: eleven single sources, the XYM3/XYM4 pair, and the XYM3L/XYM4L pair with random propagation when the second station is not near vertical or the first two intervals have the same coefficient (C62_turn_lateral_partial); for all models the seven of these single sources without an error of inclination (C62_turn_level_partial). False for the XYM3L/XYM4L pair otherwise (C62_lateral_not_equivariant), for the other single sources in other models (C62_sag_not_equivariant) and for the XYM3E/XYM4E pair (C62_xym34e_not_equivariant).
- **C63** A JSON tool model contributes every term: False of the code: a term whose formula mentions a name the interpreter does not bind contributes zero with only a warning (C63_term_silently_dropped), as GXY-RN of the shipped GYRO-NS does (C63_gyro_noise_dropped).  Of two terms with one name only the second is evaluated (C63_same_name_dropped); with distinct names every term is, once and in order (C63_all_terms_partial).
- **C65** Evaluating a formula leaves the survey unchanged: False of the code: sin(Inc, Inc) is accepted and overwrites the inclinations (C65_formula_overwrites_survey). Proved when every call has the number of arguments of the mathematical function.
- **C66** Mesh separation factor tells collisions apart: False after rounding to two decimals (C66_collision_reported_as_one). Before rounding it is proved for mesh distances below the centre distance.
- **C67** The sidetrack reference is the tail of the well: False for true and magnetic headers (C67_tail_azimuth_shifted); proved for grid headers.
- **C68** The minimum searched for is that of the reported separation factor: False of the code when the surface margin is not zero (C68_objective_differs); the exact difference is proved.
- **C70** A mesh has one ring per station: False of the code for the pedal-curve method with an odd vertex count (C70_odd_pedal_loses_rows); proved otherwise.
- **C71** Ring alignment only turns rings: False of the code: rings of four or five vertices are wrongly reversed (C71_small_ring_reversed) and reversed rings start one place off (C71_reversed_ring_shifted). Proved: cyclic order is kept, and rings of six or more vertices in the same sense are aligned.
- **C72** The uncertainty ring contains uncertainty plus hole size: False of the code in oblique directions (C72_ring_too_small); exact on the axes and never more than claimed elsewhere.
- **C73** Every target outside the turning circle is reached: False: a target exactly one diameter to the side (a > 0) gets dogleg 0 and a path shorter than the straight distance (C73_diameter_not_reached, for every radius and a > 0). All other targets: C35.
- **C74** A connector to a position ends at that position: False in the tolerance gap (1-min_error)Rc < R < Rc (C74_gap_not_reached) and for a target exactly ahead, which is moved at random (C74_ahead_moved). Proved outside these for R <= (1-min_error)Rc with b != 2R and for R >= Rc with a != 0.
- **C75** Interpolated curves end along the solved direction: False for every dogleg between pi and 2 pi (C75_reflex_ends_elsewhere), and the solver returns such doglegs (C75_witness). Proved up to half a turn.
- **C76** An interpolated path has no duplicate depths: False for a hold of zero length (C76_zero_hold_duplicates, C76_zero_final_hold). Proved when every section has positive length.
- **C77** A requested target direction is honoured: False: azimuth with position always takes the curve-hold construction, which ignores it (C77_azimuth_not_honoured). Proved: with a full direction the method is curve-hold-curve or a hold along that direction.
- **C80** Torque uses each element's own contact radius: False: the radius array is not reversed with the others (C80_radius_reversed). Proved when the radii read the same in both directions, in particular for one diameter throughout.
- **C81** Torque and drag do not depend on the compass direction: False: azimuth differences are not reduced across north (C81_turn_changes_forces). Proved when no azimuth wraps.
- **C82** Section boundaries become stations once: False: a depth that bottoms both a string and a wellbore section off the survey stations is added twice (C82_duplicate_station). Proved: order, completeness. interpolate_md is an argument assumed to return a station at the requested depth.
- **C85** Every wellbore can be fetched by id and by name: False when two wellbores share a name (C85_same_name_lost). Proved for distinct names.
- **C86** Collected wellbore data lists every element once: False for a wellbore without ancestors: each element of the well (CD_WELL, CD_DATUM) is listed exactly twice, whatever the tags (C86_root_twice). With ancestors, proved for any tags: the wellbore's own elements, then those of the well, then the ancestors' surveys, each once.
- **C88** Hole section data keeps every section: False: only the last row of a tag is kept (C88_only_last_row). Proved: for any document, exactly the last row of each tag that belongs to the group is kept (C88_last_row_partial), hence the row when there is a single one.
- **C89** Well-formed well plan files load: False: any blank line (C89_blank_line_fails) and any target geometry line (C89_geometry_fails) raises. Proved for files with neither.
- **C90** Plan headers survive a write and read: False for names over 60 characters: the excess spills into the next column (C90_long_name). Proved when each field fits its column and has no surrounding blanks.
- **C91** A loaded well plan can be exported: False when the side track id is blank, the usual case for a main bore: it is read as None and formatting None raises (C91_no_sidetrack_fails). Proved with an id.
- **C93** The density profile balances the mass of the mud column: False for a fluid without weighting material: the profile raises below the surface (C93_unweighted_fails). Proved for the objective when the solids fraction is not zero and the liquids stay of positive, non-constant density; that the optimiser finds the zero is not modelled.
- **C94** Every constructed target can be drawn: False: only circles can be drawn (C94_others_fail).
- **C95** A validation row passes only within tolerance: False: components whose expected value is zero are left out of the relative error, so an all-zero row always passes (C95_zero_row_passes). Proved when no expected value is zero.
- **C96** A successful validation run covers every row: False: rows of sources that welleng does not have, or at depths that are not stations, are skipped (C96_compared, C96_missing_sources). Proved: zero exactly when every compared row passes.
- **C100** Weight of the axial accelerometer bias in corrected surveys: False of the code: the denominator is divided by G instead of multiplied, so the azimuth weight is G^2 (about 96) times the sensitivity (C100_axial_bias_not_sensitivity). Proved: the inclination weight is right and the azimuth weight divided by G^2 is the sensitivity while the denominator is above its limit.
- **C103** Build and turn rate are rates of change: False: the severity listed at a station is that of the interval above, the toolface that of the interval below, so the rates mix two intervals (C103_mixes_intervals). Proved at the last station and wherever the severity is the same above and below.
- **C106** Projecting to the bit continues the survey: False in feet, where deg/100 ft is used as deg/30 (C106_feet_turns_too_fast, C106_feet_witness), and at a vertical last station, where toolface and projection use different references (C106_vertical_witness). Proved in metres for a non-vertical last station, and after a hold.
- **C109** Building an arc leaves its inputs alone: False with target=True, which reverses the caller's direction in place (C109_target_reverses_input, C109_second_call_differs). Proved otherwise.
- **C111** Centres of curvature: False of the upper centre, which uses the radius of the interval above (C111_centres_differ; C111_upper_centre_partial gives the exact condition). Proved of the lower centre.
- **C113** Depth of a vertical-depth interpolation: False in general: if the requested depth is that of the point of the interval's circle opposite its upper station, atan2(0,0) adds a spurious root and the upper station is returned (C113_wrong_depth). Proved for every other depth, inside or outside the survey. node_origin is treated in C314.
- **C115** No point off the well: False: on a straight last interval depths below TD and above the start are extrapolated silently (C115_extrapolates). Proved when intervals are curved; C114 covers depths in range.
- **C119** Tortuosity index and units: False with the default coeff (C119_unit_dependent): the index is inversely proportional to the unit ratio. Equal if coeff is given in the survey's unit.
- **C121** Directional difficulty and units: False: depths are always taken as metres, so a survey in feet gets an index larger by log10(1/0.3048). The exact dependence is proved.
- **C123** Every unit in the shipped tool models is converted to base units: False for deg.nT and deg/sqr(hr): these magnitudes are used unconverted, 180/pi times too large (C123_degrees_taken_as_radians). True for every other unit declared in the shipped models.
- **C125** An error source is propagated in the mode its tool model gives: False: XYM2 is always propagated as systematic and XYM4L as random (C125_propagation_ignored). True for every other weighting function.
- **C128** A survey rebuilt from exported control points passes through them where the original does: False: with default settings two arcs of different severity in one plane become one section and the rebuilt well ends elsewhere (C128_merged_arcs). Proved when every section is a single arc or line.
- **C131** Exported build rate is negative when inclination decreases: False: the absolute value is exported, so a dropping section has a positive build rate (C131_drop_exported_as_build). Proved for sections along which inclination does not decrease.
- **C132** Exported severity times length is the angle turned along the section: False: the severity of the last interval is exported (C132_merged_severity). Proved when the section is one arc.
- **C134** A well plan read from a .wbp file can be converted to a survey: False for every input: the second call of from_connections is given a Survey, which has no md1, and raises AttributeError (C134_wbp_to_survey_raises). The optional utm library call in between is not modelled; it can only raise earlier.
- **C135** The contact force of a string is the resultant of tension and weight across the hole: False: the change of inclination is taken downhole but added to the weight, so the contact force is overstated in building and understated in dropping intervals (C135_wrong_side). Equal when the interval neither builds nor drops, without tension or without weight across the hole. First order in the change of direction, as in the code.
- **C140** Validation values are read by column name: False: columns are taken in the order in which they stand, so exchanged columns are read as each other (C140_order_of_columns). Proved for sheets with the usual order.
- **C141** Every block of a source sheet is kept: False: a label that reads like the numbered name of another replaces its block (C141_block_replaced). Proved otherwise.
- **C143** Every listed error model can be used: False: six of the 62 names have no definition and raise FileNotFoundError (C143_six_undefined). All others are usable.
- **C144** An error model name selects one definition: False: GYRO-NS is read from GYRO-NS.json or GYRO-NS_Fl.json depending on the directory order (C144_depends_on_listing). Proved for the other names; the five gyro names select a file with their model id.
- **C145** The deprecated name of the Rev 5 model still works: False: Survey refuses the name before it reaches the alias (C145_survey_refuses_alias). True of ErrorModel itself.
- **C147** Diagnostics list the components of every source and their total: False without sources, as for ZERO-ERROR (C147_no_sources), and for repeated depths (C147_repeated_depth). Proved otherwise.
- **C149** The inclination below which a station counts as vertical does not depend on the angle unit: False of the code: the default 0.0001 is documented in degrees but taken as radians when deg=False, a limit more than 50 times larger. Proved: an explicit limit is converted correctly.
- **C150** A survey header keeps the survey date it is given: False of the code: when the look-up at the given date raises, the retry calls _get_date(None), which overwrites survey_date with today. Proved: the date is kept without a calculator or when the look-up succeeds.
- **C152** A survey is accepted in the unit its header was made with: False of the code: unit='ft' and unit='m' are refused with every header, a survey in feet without a header is refused, and a header with an unknown unit is accepted although no survey can use it. Proved: which headers go with 'meters' and 'feet'.
- **C153** make_survey_header reads header data as the constructor does: False of the code: values are stored as given, so degrees are not converted and the checks of the constructor are skipped. Proved: a header's own properties give that header back, and each attribute is the last value given or the default.
- **C155** A node without direction reports None for every direction attribute: False of the code: azi_rad is assigned twice and azi_deg never, so reading azi_deg raises AttributeError. Proved: the other five attributes.
- **C158** The reported distance is the smallest distance to the offset well: False of the code: only the intervals at the nearest station are searched; with stations 100 m apart on one branch of a U-shaped well the report is 18 m where the well is 2 m away. Proved: the reported distance exceeds the smallest one by no more than half the largest station spacing.
- **C159** The hole radii used are the ones given: False of the code: a survey always has radii (one foot by default), so Rr and Ro are never used. Proved: radii given to the surveys are used; the offset radius is that of the nearest station, an end of the interval of the closest point.
- **C161** An added minimum has the reference well's uncertainty: False of the code: get_node does not pass the covariance, so the added station has zero covariance and its separation factor leaves out the reference uncertainty (3 instead of 1.8 in the example). Proved: the reported value is never below the true one.
- **C162** A minimum is added exactly if it lies between stations: False of the code: the test compares with +delta_md[0] instead of -delta_md[0]; a minimum at the station above is added (the depth then occurs twice), one at the distance delta_md[0] below is dropped. Proved: all other cases.
- **C163** Separation factors can be computed in feet: False of the code: the refined survey is built without unit, so with a header in feet the first minimum found raises AssertionError. Proved: without a minimum the reference is kept.
- **C164** Interpolating a survey does not change other surveys: False of the code: interpolation sets azi_reference='grid' on the shared header; later surveys with true azimuths are wrong by the convergence. Proved: the state after any history, and that grid headers are safe.
- **C169** A retry with a tighter radius is drawn with that radius: False of the code: _happy_finish takes min(critical, design) and forgets the radius of the retry (C169_retry_radius_ignored); in the example a retry solved exactly at radius 1 is stored with radius 2 and misses by more than 0.3 (C169_retry_spoiled).
- **C170** Neither curve is sharper than the design allows: False of the code: the second curve is re-placed with whatever radius reaches the target (1/2 for a design radius of 1 in the example, for a state the solver might leave before it has converged). Proved: the first curve has exactly the smaller of the two radii.
- **C171** The reported severity has the unit of the design severity: False of the code: in feet the number is 0.3 of the design severity, and curve-hold-curve reports radians. Proved for metres and the other methods.
- **C173** A curve to a direction is not sharper than the design: False of the code: a close target depth silently gives a sharper curve. Proved: without a depth or with room the radius is the design radius.
- **C174** The closest approach is a curve that can be drilled: False of the code: from a start along an axis (every vertical start) the result is NaN for every target, and for an inclined start the reported length can be below the straight distance.  Proved: a delivered curve ends within twice the design radius of the start, at the point closest to the target on a sphere through the start.
- **C175** The listing of control points gives the position of each: False of the code: the column documented as TVD is minus the vertical depth. Proved for the other columns.
- **C179** A kick-off depth does not change the bearings: False of the code: below a kick-off point the stations are rebuilt from azi_grid_rad with the original header, so with a true-north reference the azimuth is off by the convergence, and at vertical stations it is the vertical-section azimuth; the travelling cylinder azimuth then does not point to the offset well. Proved for grid azimuths at inclined stations. The magnetic case has no theorem.
- **C180** A projection to a target is planned with the design severity: False of the code: dls_design is passed as the third positional argument of Connector, which is pos1 and is replaced by the start node, so the path to the target is planned with the default of 3 degrees per 30 m (C180_severity_ignored, C180_not_design). Proved for a design severity of 3 in metres and targets given by position.
- **C181** The path to the target starts from the projected bit: False of the code: whenever the hole turns less sharply than the design severity, the connection to the bit turns with the design severity and then goes straight, and ends elsewhere (C181_bit_moved). Proved for turns at least as sharp as the design and for straight projections.
- **C182** A projected survey has the directions of the projected path: False of the code: the grid azimuths of the path are entered in the reference of the survey's header, so with a true-north or magnetic reference the projected survey is turned, by the convergence or by the declination less the convergence. Proved for grid azimuths.
- **C184** Resampling a survey keeps its stations: False of the code: a station less than 1e-4 below a multiple of the step is dropped as a duplicate of the resampled row above it, even if it is the last of the survey (C184_station_lost). Proved for surveys whose stations and multiples of the step are equal or more than 1e-4 apart, under the conditions of C183.
- **C185** Surveys in feet can be resampled: False of the code: from_connections is called without a depth unit, so the unit of the new survey is metres and its constructor refuses a header in feet (C185_feet_fail, C185_negated). Proved for metres.
- **C187** A resampled station has the radius of its section: False of the code: below a station dropped as a duplicate the running index lags by one (C187_radius_lags). Proved for the surveys of C183.
- **C188** Queries leave the header of a survey alone: False of the code: interpolate_md and maximum_curvature assign azi_reference = 'grid' to the survey's own header (C188_header_changed, for every survey with another reference). Proved for headers with the reference grid, over all histories.
- **C189** The vertical section does not depend on earlier calls: False of the code: after an interpolation the section of a survey entered with true azimuths is computed from grid azimuths (C189_section_changed). Proved over all histories for grid headers, and for any header over histories without interpolation.
- **C190** Derived surveys use the section azimuth that was set: False of the code: set_vertical_section stores the azimuth as passed, and the constructor reads it as radians (C190_degrees_fail). Proved for radians.
- **C192** Resampling by vertical depth reports every level passed: False of the code: after a station exactly at a level the levels on the way up are lost (C192_level_lost), and a survey that climbs from its first station reports none (C192_first_climb). Proved for surveys whose first interval does not climb and with no later station at a level. Levels are those between the ends of an interval: an arc that dips below both its ends is not looked into.
- **C193** Resampling by vertical depth keeps the stations: False of the code: a station within the relative tolerance 1e-5 of np.isclose below a level is replaced by the level (C193_station_lost). Proved if no level is that close without being at the station.
- **C194** The starting level is respected: False of the code: a start below the first station is not reported itself (C194_start_missing), and with a start one step or more above it no level is reported at all (C194_start_above). Proved for a start less than one step above the first station.
- **C195** Resampling by vertical depth keeps positions: False of the code: the rebuilt survey starts at the origin (C195_start_lost), and a survey in feet is refused (C195_feet_fail). Proved: the displacements from the first station are those of the path, if the nodes lie on it.
- **C199** Building to a higher inclination keeps the azimuth: False of the code: the optimiser starts on the low side, where its objective does not depend on the toolface (C199_flat), and there a higher inclination is only reached through the vertical, with the opposite azimuth, or by almost a full circle (C199_build_reversed). Proved for drops that do not pass the vertical.
- **C201** A depth that cannot be reached is reported: False of the code: a horizontal well is extended by an arbitrary length and returned (C201_horizontal_not_reported). Proved: a depth behind the bit is an error without a design severity; with one an empty connection is returned.
- **C202** delta_md limits the length of the extension: False of the code: delta_md is only the start of the search (C202_limit_exceeded), with a target inclination even its lower bound (C202_limit_is_lower). Proved if the depth is reached within the limit.
- **C203** extend_to_tvd starts at the surface by default: False of the code: without a node every call raises TypeError (C203_no_default), because an empty Node has no position. Proved for the surface given as a node.
- **C204** Extending to a vertical depth with a target inclination: False of the code for turns of more than half a circle: the connection goes the short way round (C204_short_way). Proved for turns of less than half a circle.
- **C206** A single severity applies to every gap: False of the code: with a whole number the result is an empty list (C206_whole_number), because only Python floats are spread over the points. Proved for floats.
- **C207** connect_points respects the start direction: False of the code: with whole-number points the direction is truncated to whole numbers, which leaves nothing of a direction off the axes (C207_direction_lost). Proved for float points and for directions along an axis.
- **C208** survey_to_plan returns a plan: False of the code: it always raises (C208_never_returns): Connector has no method survey, and for two stations a loop variable is unbound (C208_error). Proved: the documented check of the severity.
- **C211** Vertical stations are the limit of nearly vertical ones: remaining sources: False of the code.  XYM3E and XYM4E report nothing at a vertical station recorded with azimuth 90 degrees; CNA uses the grid azimuth; XYM3L (and XYM4L alike) leaves out the factor for short spacings and counts the first station double also in rev4 models.  Proved for XYM3L and XYM4L with stations at least 10 m apart, the first of them not vertical.
- **C213** Exported plans reload with the same names: False of the code: a target of several words is cut at the first blank, runs of blanks in a tool name become one.  Proved for the steps after the first with one-word targets and tools with single blanks.
- **C214** Exported plans reload with the same tie-on points: False of the code: the first turn point of every reloaded plan is a tie-on point and has lost its method, also when the plan was made from a survey, which marks none.  Proved: no later step becomes one.
- **C215** Exported covariances reload as covariances: False of the code: entries are printed with one decimal.  Proved: variances stay non-negative, and matrices whose entries have one decimal stay covariances.
- **C216** Each target keeps its colour: False of the code: all targets share one dictionary (mutable default argument), so all have the colour of the last; a target without colour is written as a line that cannot be read.  Proved for targets of one colour.
- **C217** Each plan keeps its targets: False of the code: only the targets of the first plan are written.  Proved for the first plan, names without colon.
- **C218** Each plan keeps its units: False of the code: only the units of the first plan are written where the reader looks for them, so a plan in feet exported after one in metres reloads in metres with its numbers unchanged.  Proved for plans with the same units.
- **C219** Local coordinates are relative to the surface location: False of the code: northing and easting of the datum are exchanged.  Proved: the error at every point is the difference of the two, so the claim holds when they are equal.
- **C222** An angle without direction is read back as three numbers: False of the code for every tuple printed with symbols: the sign of the seconds is returned as a fourth element.  Proved: the three numbers are right; with words see C221.
- **C223** Converting an angle to text and back keeps it: False of the code for every negative angle: the minus is not part of the pattern.  Proved: the absolute value is kept, for seconds printed without exponent.
- **C224** The rows of decimal2dms can be printed and read: False of the code: without a direction the row is an array of floats, printed as 33.0, 30.0, and the text does not match, for any angle.  Proved with a direction, for non-negative angles.
- **C225** Seconds are read as they were printed: False of the code: the exponent is not read, so 5e-05 seconds become 5.  Proved for seconds printed without exponent.
- **C226** A case has the records it refers to: False of the code for the assembly: it is overwritten by its components and its own record is lost.  Proved for the other eight, for a case id that occurs once, when no pressure table has the same name.
- **C227** An unknown case is not an error: False of the code: an unknown id, and a case without survey headers, end in an exception (UnboundLocalError or TypeError).  Proved: a case that is returned is the one asked for.
- **C228** The name of a case is the name of the case: False of the code for two cases of the same id: the name is that of the first, the case is the last.  Proved for ids that occur once.
- **C229** Pressure and temperature tables are grouped and sorted: False of the code: one row without depth and no group is sorted; a row is put under the first attribute whose name contains _group_id, which may be another one.  Proved for tables in which every row has a depth and its own group is the first.
- **C230** A formula means what it says: False of the code for a power of a power without parentheses: Python reads ** from right to left (2^3^2 gives 512, not 64).  Proved for all formulas without such chains; numbers without exponent, names in ASCII.
- **C231** Every term of a shipped JSON tool model is evaluated: False of the code for eleven weight functions: their formulas use names that are not provided (GField and Bfield only by spelling; the previous station; constants of the gyro), and they contribute exactly nothing.  Proved for the other 48 rows.  The table of formulas is generated from the shipped files.
- **C232** JSON and hand-written error sources agree: False of the code for ABIZ (azimuth differs by the square of gravity), AMIL (opposite sign) and the terms of C231.  Proved for the other 38.  Division by zero and near-vertical stations are excluded.
- **C233** The two covariances of a survey agree: False of the code if both covariances are given (they are kept, whether they agree or not), and with an error model where true and grid north differ (the covariance along the borehole is computed with the azimuth from true north, C233_convergence).  Proved for one given covariance, for a start covariance, and for an error model without convergence.
- **C234** The start covariance is added at every station: False of the code without other covariances (the start covariance is dropped) and for a Python list (the constructor fails and spoils the list).  Proved for all other arguments.
- **C235** The parts add up to the survey's covariance: False of the code with a start covariance, which is in no part.  Proved without one.
- **C236** Constructing a survey leaves its arguments unchanged: False of the code for a covariance array and a start covariance without an error model: the array is changed in place; a second survey from it gets the start covariance twice and changes the first.  Proved for all other arguments.
- **C238** A failed get_error leaves the survey unchanged: False of the code if the error model raises: the survey then has the name of the new model and the covariances of the old one.  Proved for unknown names.
- **C239** A given covariance is kept: False of the code: with an error model the given covariances are replaced, although the documentation says that it is used if they are not present.  Proved without an error model and start covariance.
- **C243** The project-ahead uncertainty is in the meshes: False of the code: MeshClearance does not pass sigma_pa to its meshes, so that they do not depend on it (C243_ignored).  Proved for the default value 0.5.
- **C244** The reported uncertainties are those of the meshes: False of the code for a project-ahead uncertainty other than 0.5: both values are wrong by (0.5 - sigma_pa) / (2 sigma) (C244_wrong).  Proved for 0.5 and the radii used by the result.
- **C246** Sliced meshes can be made with the default arguments: False of the code: the default method of sliced_mesh, 'mesh_ellipse', is not one that WellMesh accepts, so every call without a method raises (C246_default_fails).  Proved for method='ellipse'.
- **C247** Making sliced meshes ends: False of the code: with a step of zero the loop never ends (C247_step_zero_forever, provided a mesh of a single station can be made).  Proved for steps of at least one.
- **C249** The origin of a transformed scene may be any array: False of the code: 'not origin' raises for an array (C249_array_fails).  Proved for a list and for no origin.
- **C250** A transformed scene has fewer triangles: False of the code: the decimated mesh that trimesh returns is dropped (C250_not_reduced, C250_quarter).  Only the trivial ratio 1 holds.  Relies on simplify_quadratic_decimation returning a new mesh.
- **C252** A density profile has a density for every depth: False of the code: a list of temperatures raises (C252_list_fails) and several temperatures for one depth are cut without an error (C252_one_depth_cut).  Proved for a number and for arrays of equal length.
- **C255** The wellbore graph joins each wellbore with its parent: False of the code when two wellbores have the same name (C255_same_name_lost).  Proved for distinct names.
- **C256** A wellbore is found by its identifier and by its name: False of the code when two wellbores have the same name (C256_unreachable).  Proved for distinct names and identifiers.
- **C258** The columns of a data frame are in the units of their labels: False of the code for surveys in feet (C258_feet_wrong).  Proved for surveys in metres.
- **C260** Terms that do not fit the schema are reported: False of the code: an empty magnitude becomes 0 without a warning (C260_no_magnitude).  Proved for units, modes and magnitudes given as text.
- **C261** The file of a converted model carries its warnings: False of the code: only the first five warnings are kept (C261_sixth_lost).  Proved for up to five.
- **C262** The inclination range of a tool model is kept: False of the code: an upper limit of 0, or one written with a degree sign, becomes 180 (C262_widened).  Proved for whole numbers other than 0, for texts of the form 'n deg', and for texts with sign, decimals, blanks and unit (read as the number written, then rounded to the nearest whole number).  C262_sheet_partial ties the limits of a converted sheet to its rows.
- **C263** Identifiers of converted models and terms are distinct: False of the code: sheets with an empty cell for the prefix get the same identifiers (C263_same_for_two_sheets).  Proved for terms with different names in a sheet, if uuid5 does not collide.
- **C264** Every sheet of a workbook is in its own file: False of the code: names that differ in replaced characters share a file, and the first model is lost (C264_overwritten).  Proved for distinct names made of characters that are kept.
- **C265** The revision number of a tool model is kept: False of the code: revision 5.1 becomes 5 (C265_five_point_one).  Proved for whole numbers.
- **C266** Every converted model has an identifier: False of the code: empty cells for prefix and short name give an empty identifier (C266_nameless).  Proved when the prefix is given, or its label missing.
- **C267** The error model uses the dip of the looked-up field: False of the code: the header stores minus the looked-up inclination, also for the default field (C267_looked_up, C267_default_up).  Proved when the dip is given.
- **C269** Exported control points end where the survey ends: False of the code: arcs of different severity in one plane are merged, and the listing ends more than 40 m away for any tolerance and optimiser (C269_forty_metres).  Proved when the sections are single arcs or lines.
- **C270** Workbook depths are converted to metres: False of the code: a sheet in 'feet' is taken as metres (C270_feet).  Proved for every other spelling of metre and foot.
- **C274** Source tabs are aligned with the well path: False of the code: a sheet with fewer rows than stations is kept as it is (C274_short).  Proved for sheets with at least as many rows.
- **C275** Totals are compared at the same depth: False of the code: rows are compared by place (C275_by_place).  Proved when the sheet lists the first stations of the survey.
- **C277** Each pair of misalignment terms is isotropic: False of the code: XYM3E takes the absolute value of the cosine of the azimuth, so the pair XYM3E, XYM4E is not isotropic in holes to the south (C277_south_east).  Proved for XYM3L, XYM4L and, where the cosine is not negative, for XYM3E, XYM4E.
- **C279** A survey of the standard set starts at its own well: False of the code: make_survey fails with KeyError on all imported data (C279_import_fails), and with meshes added every survey starts at the offset well (C279_same_start).  Proved for a well called offset that has a mesh.  A survey that is made has the columns of its own well (C279_own_columns_partial).
- **C281** Every hand-written weight function is compared: False of the code: nine functions are reported as missing on surveys with a nearly vertical station, and XCLA and XCLH on all (C281_reported_missing, C281_xym3).  Proved for the others and for surveys without such stations.
- **C284** Diagnostics formulas use the values of their station: False of the code: TVD is bound to the measured depth, AzM and Az to the true azimuth (C284_wrong_values, C284_false).  Proved for formulas without these names.
- **C285** A plotted well mesh shows the whole mesh: False of the code: the figure has the vertices of the rings but not the two end points that the triangles of the ends refer to, and with edges it fails with IndexError (C285_caps_missing).  Proved: all triangles are there and the vertices of the wall are the points drawn (C285_wall_partial).  Colours and layout are not modelled.
- **C287** Formulas for vertical stations are used: False of the code: the formulas for vertical stations are never read (C287_declared_unused), and an azimuth term gives a vertical well nothing, whatever real number stands for its azimuth formula (C287_vertical_nothing, C287_compass_lost).  In floats 1 / sin(0) is infinite and the product with 0 is nan, which the real numbers of the model do not show.  Proved: the formulas for depth, inclination and azimuth are used (C287_formulas_partial).
- **C290** Hook loads for every friction factor and depth: False of the code: no hook load table is ever made, because no TorqueDrag can be constructed (C290_never_made, from C42).  Proved for any calculation of the tensions in place of TorqueDrag.
- **C292** Pressure and temperature tables are complete: False of the code: one row without a depth and the whole table is reported as None, as if the well had none (C292_table_lost, C292_like_absent).  Proved when all rows are complete.
- **C295** A change of the bending direction starts a new section: False of the code: with a tolerance of 1, the default of the modified index, no change of the bending direction is noticed (C295_blind); a build and a drop are one section (C295_build_drop).  Proved: normals further apart than 1 + sqrt 3 times the tolerance always start a section, normals within the tolerance never do, and a straight part next to a curved one always does.
- **C296** A change of severity starts a new section: False of the code: the tolerance of the normals is also an absolute tolerance of the severity, so with the defaults of the modified index a change from 2 to 3 degrees over 30 m is no cut (C296_half_as_much_again).  Proved with both tolerances together.
- **C297** Method and function of the tortuosity index agree: False of the code: the method does not pass dls_tol on (C297_ignored).  Proved: it never cuts where the function does not, and agrees when dls_tol is None.
- **C298** Sections do not depend on the compass direction: False of the code: the tolerance is applied to each component, so a turn by 45 degrees removes a cut (C298_turned).  Proved for quarter turns.
- **C300** Maximum curvature bends the way the well bends: False of the code at a vertical station that is recorded with an azimuth: the inserted station heads north whatever the azimuth of the well (C300_kick_off_north, C300_east_well).  Proved at every station that is not vertical.
- **C301** Maximum curvature works in either depth unit: False of the code: a survey in feet always ends in an AssertionError, and its header has by then been switched to grid azimuths (C301_feet).  Proved for metres.
- **C303** The extraction scripts agree with the workbook reader: False of the code: with the script for ISCWSA workbooks any blank row below the heading raises an exception (C303_blank_row), and a blank behind a code stays in the key (C303_padded_code).  Proved for sheets of complete rows, with blank codes skipped by the script for OWSG workbooks.
- **C304** Gyro settings are grouped under their heading: False of the code: a blank row right below a group, or a setting that is a number, raises TypeError (C304_blank_after_block, C304_number_setting).  Proved for sheets without these, with any number of groups.
- **C305** Every tool of the index is found by its short name: False of the code: a tool whose prefix a later tool shares is lost (C305_shared_prefix).  Proved when keys and short names differ.
- **C312** Uncertainty does not depend on the depth unit: False of the code, which never reads the depth unit: the depth reference error in metres is used unchanged for a survey in feet (C312_depth_reference), and misalignments compare the course length with 10 of whatever unit (C312_course_length).  Proved for tool models of sources without lengths of their own, and, for single sources, with the magnitudes of DREF and DST and the tortuosity converted by the user.
- **C313** Every vertical depth the well passes is found: False: a lateral that rises and levels off passes vertical depths that are not found, the search only looks at the level piece and divides by zero (C313_passed_depth_not_found); on any rising well only the piece between the last two stations is looked at (C313_rising_last_piece).  Proved: on any well the depths from that of the first to above that of the last station are found (C313_any_well_partial).
- **C314** Levels of a resampled survey lie on the well: False: at the depth of the point opposite the upper station of the interval the station inserted is the upper station again (C314_wrong_depth).  Proved for every other depth, with real nodes passed through the loop (C314_levels_partial): surveys that never climb, or whose first interval does not and that have no later station at a level (the limits of C191 and C192); levels told apart from the stations by np.isclose; a station at a level is the first point of its interval there.  The Connector of get_node_tvd is taken to return the direction it is given.
- **C320** A connection with a target direction joins the given positions: False of the code: C320_start_moved and C320_target_moved give searches that succeed with the start or the target moved by the random offset (an end straight ahead of the other).  C320_ends_kept_partial: kept in all other cases; C320_moved_little_partial: never moved by 2 m or more along an axis.  In real arithmetic.
- **C322** The search starts from a point that can be reached: A middle that is kept is outside all turning circles (C322_middle_partial), the points tried otherwise are outside (C322_outside_partial) and well chosen (C322_choice_partial), but the first step does not draw a path to them: C322_first_curve_misses, the angle found is zero and the hold starts two radii beside the well.  In real arithmetic.
- **C323** Moving the origin moves the connection: False of the code at large coordinates: C323_origin_matters.  C323_origin_partial: true as long as both origins agree on whether start and target count as the same point.
- **C324** A connection is not shorter than the distance: False of the code at large coordinates: C324_zero_length (a target 40 m away, length zero).  C324_design_radius_partial and C324_critical_radius_partial: true in the cases of C74 if start and target do not count as the same point.
- **C326** A plan with a parent takes its surface location from the parent file: False of the code: C326_no_parent (with numpy 1.24 or later, where np.float is gone, no plan can be made with any parent; numpy is not pinned) and C326_colon_in_name.  C326_first_location_partial: true with an older numpy if no earlier line has L: in it.
- **C327** A plan exported with a parent file brings back the parent's plans and its own: False of the code: C327_plan_lost (a parent plan with the word WELLPLANS in its name loses its header line, its steps are added to the plan before).  C327_parent_first_partial: true if the word is in one line of the parent only.
- **C328** Parent plans keep their units: False of the code: C328_parent_in_feet (a parent in feet is loaded in metres, numbers unchanged).  C328_same_units_partial: true if all units agree.
- **C330** JSON tool models use the values of the survey header: False of the code: C330_earth_rate_ignored (header.earth_rate is never read; the constant 0.262516 is used), C330_gyro_bias (with the default header rate 0.26251614 the gyro bias term is not the value of its formula), C330_zero_field (a field of 0 becomes 50000 nT).  C330_header_values_partial: true if the header has that earth rate and a field; C330_no_earth_rate_partial: true of terms that do not mention the earth rate.
- **C332** A connection to a position turns with the coordinates: False of the code: C332_turn_matters (6000 km north of the origin a target 40 m to the east is a connection with a length; turned by 45 degrees it counts as the start itself and the connection has none, because np.allclose is relative per axis).  C332_turned_partial: true if the closeness test says the same in both coordinates.
- **C335** Clearance does not depend on which well is the reference: False of the code: C335_run_differs (a vertical well and a level well starting 5 m beside its middle: at least 50 m one way round, at most 6 m the other, with any optimiser that finds minima to 1 m).  C335_pair_partial: for one pair of points every reported quantity is the same.
- **C336** Torque and drag of a mirrored well are the same: False of the code: C336_mirror_changes_forces (a level turn from north to north-east and its mirror image to north-west have different overpull tensions, because the azimuth difference is not reduced to half a turn).  C336_mirror_partial: true if azimuths only change sign, without being reduced to a full turn.
- **C340** The scale of the tortuosity indices can be set: False of the code: C340_kappa_ignored and C340_not_scaled (the code looks up the misspelt keyword kapa; kappa is accepted and ignored).  C340_kapa_partial: both indices are proportional to kapa.
- **C344** A survey continued with the covariance reached has the uncertainty of the survey in one piece: False of the code: the first station of the second survey has no error, and systematic errors of the two surveys are added as if independent (C344_too_small, C344_too_small_systematic: 450 instead of 1125 and of 2025). Proved for rev4 models without stations close to the vertical and sources not weighted by course length: the exact difference for random sources and for systematic ones, and that for random angle sources the two surveys are never more uncertain than one.
- **C345** Uncertainty never decreases down the well: False of the code: a random depth error counts along the tangent only at the last station, so after a turn from north to east the northing variance falls from 1 to 1/2 (C345_smaller). Proved for wells without stations close to the vertical: random sources that change the angles only, the random part of a tool model with such sources, and other angle sources in straight wells.
- **C358** from_connections compares depths at the given number of decimals: False of the code: decimals is checked but not passed to _remove_duplicates, which rounds to four decimals; the end of a well 0.02 mm beyond the station before it is dropped with decimals=6 (C358_end_lost). Proved: depths more than 1e-4 apart are kept for every decimals.
- **C360** Applied pressure does not make the mud lighter: False of the code: the reference density is taken as the density at the top whatever pressure is applied there, so pressure only stiffens the liquids; at the reference temperature throughout more applied pressure makes the mud strictly lighter below the surface (C360_pressure_lightens, C360_example). Proved: columns in which oil and water get no denser downwards (C360_expanding_partial). About the density that balances the column exactly; the optimiser is not modelled.
- **C363** The uncertainty of a magnetic survey turns with the declination: False of the code for models that are not rev4: the effect of an inclination error at the second station is doubled in north only, so sag does not turn (C363_not_turned). Proved: rev4 models made of any sources but XYM3E, XYM4E, XYM3L, XYM4L and ABIXY_TI2, with XYM3 and XYM4 in pairs of one magnitude and mode; other models made of the sources without an error of inclination and the course length sources.
- **C364** A scene contains every well mesh once: False of the code for the documented argument: a list that is not empty ends in a TypeError, because the meshes are used as indices of the list (C364_list_fails). Proved for dictionaries. trimesh is not modelled beyond adding a geometry under a new name.
- **C366** The hanging weight of a uniform string is its weight over the vertical depth it spans: False of the code: in every build or drop of one azimuth the mean inclination overstates the vertical advance, so the tension is too large (C366_curve_fails). Proved: equality where every interval is straight, and a lower bound in wells of one azimuth that go down. The weights of a uniform string are taken as the code would compute them; the constructor itself fails (C42).
- **C367** Tortuosity and difficulty do not depend on the origin: False of the code for the difficulty index, which uses absolute depths and coordinates (C367_difficulty_moves). Proved for the sections and both tortuosity indices; the difficulty index keeps its value when the horizontal distance from the origin does.
- **C368** Vertical sections at all azimuths follow from two: False of the code when a station is vertical: its azimuth is replaced by the section azimuth, so the section of a kick-off to the north is its length towards north and zero towards south (C368_vertical_station). Proved for wells without a vertical station.
- **C369** A covariance taken apart is put together again: False of the code for get_sigmas(long=True), which lists the variances first while make_long_cov expects the rows of the upper triangle (C369_order says when the result is right, C369_not_covariance that three independent errors come back as a matrix that is no covariance). Proved for errors_from_cov, for the reordered elements and for make_cov.
- **C370** Every labelled column of a source sheet is read under its label: False of the code when two columns of a block have the same label: the first is lost (C370_repeated_label). Proved otherwise. The rows are those of C141.
- **C371** With a kick-off depth the well is examined from that depth on: False of the code between stations: the part from the kick-off depth to the next station is left out (C371_gap). Proved: the stations examined are exactly those at or below the kick-off depth, a start at the kick-off depth if there is a station, the refusal and the default.
- **C372** A full turn more or less in an azimuth makes no difference: False of the vertical section, which uses the mean of two azimuths: a full turn at one station turns a leg to the north into one to the south (C372_section_turns). Proved for minimum curvature and for every hand-written tool model, with independent numbers of turns for the true, magnetic and grid azimuths.
- **C373** A tool added to the index is used for its name and leaves the others alone: False of the code if another tool has the short name already (C373_name_taken). Proved: the header read from the sheet, the entry and the refusal, the entries of other tools, adding again, and the choice by short name when the name is new, in any order of the written file. Reading and writing YAML is not modelled.
- **C374** The survey for comparing tool models is the one of its file: False of the convergence, which is handed over in radians where degrees are expected: right exactly if it is zero (C374_convergence); it is zero in the shipped file. Proved for everything else. Reading the JSON file is not modelled.
- **C375** Recording a station twice does not change the uncertainty: False of random sources, which make the well below the copies look more certain (C375_random), and of the first station, which has no error while its copy has one (C375_first). Proved for stations other than the first and the last and for the systematic, global and within-pad parts. XYM3E, XYM4E, XYM3L and XYM4L are excluded: they divide by the length of the interval, which is zero.
- **C380** A slice of a survey lies where the survey lies: False of the coordinates x, y, z, which are counted from the first station of the slice (C380_xyz), and of the table pos_nev with a grid scale factor other than one (C380_scaled). Proved for the rest. Azimuth references other than grid are C58.
- **C381** Separation factors do not depend on the unit of length: False with the margins left at their defaults, 0.5 and 0.3 of whatever unit the surveys have (C381_default_margins). Proved if the margins are converted too.
- **C382** A connection does not depend on the unit of length: False of targets straight ahead, which are moved by a random offset of up to one unit whatever the unit (C382_straight_ahead). Proved if the offset is converted too and the test for start and target being the same point, which has an absolute tolerance, agrees in both units.
- **C383** A mesh for a higher confidence contains the one for a lower: False with an odd number of vertices (C383_odd: a triangle). Proved for every even number, which includes the default.
- **C384** The pedal-curve mesh covers the uncertainty in the direction of each vertex: False of correlated high-side and lateral errors, because only the two standard deviations are used (C384_correlated); also of margins, for the reason in C72. Proved: the vertex is exactly as far out as the ellipse with the two semi-axes reaches in its direction, hence sigma standard deviations for uncorrelated errors without margins.
- **C403** Drilling on does not change the node found at a vertical depth, in any well: False in general: the vertical depths are searched by bisection, so after a U-turn the depth 80 m of a vertical hole is found on the way up instead of at 80 m (C403_other_node). Proved for wells that get deeper and deeper (C403_same_node_partial, the same as C399).
- **C405** Drilling the offset well on never makes it look farther away: False: only the intervals next to the nearest station are searched, so a new station on another branch diverts the search: 2 m become 18 m (C405_looks_farther). Proved when the new stations are not nearer than the nearest station was (C405_not_farther_partial).

## Testing the theorems against wrong programs

`seeded/LOG.jsonl` has 976 edits of the model made in a scratch copy. 925 made a theorem fail. 5 failed only a worked example at first; each of these was repeated, or answered by a new theorem, and a theorem then failed. The other 46 made nothing fail at first; they are answered by the theorems named in `theorems_tightened`, or by a note saying why the claim is not broken. The build stops at the first module that fails, so the theorems listed for an edit may be earlier ones than those of the claim it breaks.
