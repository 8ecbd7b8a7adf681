# Formal model of pvfactors in Lean 4: design

## 1. What is modelled and how

The code under /repo/pvfactors is a vectorised numpy program: every quantity is an
array over time steps, and all array operations act element by element on the time
axis.  The model follows that structure:

* A *time series* is a function from a finite index type to values, or a list where
  the code splits and concatenates.  Vectorised code is modelled by the function it
  computes at one time step.  The only place where the code lets one time step
  influence another is `TsSurface.is_empty` (a sum over the time axis); this is
  modelled explicitly and is the subject of property C15.
* Floating point numbers are modelled by real numbers, without rounding; only
  `Model/Rounded*.lean` have operations with relative errors, for the view factor matrix, the
  coordinates of the scene, fast mode, the irradiance models, averages over sides and ground, and
  absorbed light and the solution of the linear system (properties C96 to C104 and C106 to C113, which bound the
  difference; the error of the inverse that numpy returns is a parameter; overflow and underflow are left out;
  the lower edges of stored rows need to be equally high only up to a slack
  `σ`).  Trigonometric functions come from numpy; they are assumed to have small relative
  errors (`TrigArith`, `LightArith`), and C98 needs only values close to the exact ones (`TrigNear`).
  `np.where`, `np.minimum`, `np.clip`, `np.abs` are modelled as written.  Where a
  numpy expression would give an infinity or NaN, either the model has an explicit
  extended value (ground cut points, which are `+inf` for flat rows) or the theorem
  carries the hypothesis that excludes the case, and the definition's comment says so.
* Degrees are used where the code uses degrees (`cosd`, `sind`).
* The signed zero of the rotation of flat rows is modelled (it decides the sign of an
  infinite cut point).
* Python dictionaries and object references are modelled where they matter: surface
  indices, the `surface_dict` of ground elements, the in-place aliasing of the view
  factor matrix, surface parameter dictionaries.
* Loops that assign matrix entries are modelled as the list of assignments they make,
  in order, applied to a zero matrix (the last assignment to a cell wins).

### Layout of /verif/lean/Verif

| module | content |
|---|---|
| `Model/Num`        | `cosd`, `sind`, `arctan2`, python `%`, `clip`, constants of config.py |
| `Model/Line`       | points, lines, length, lowest/highest point, centroid (timeseries.py) |
| `Model/Rotation`   | `_get_rotation_from_tilt_azimuth`, `_get_solar_2d_vectors` (base.py) |
| `Model/PVRow`      | `TsPVRow`, `TsSide.from_raw_inputs` (pvrow.py) |
| `Model/Ground`     | `TsGround`, `TsGroundElement` (pvground.py) |
| `Model/PVArray`    | `OrderedPVArray.fit`, inter-row shading, surface list and indices |
| `Model/VF`         | `VFTsMethods`, `VFCalculator` (vfmethods.py, calculator.py) |
| `Model/AOI`        | wedge integrals and `rho_from_faoi_fn` (aoimethods.py) |
| `Model/Irradiance` | `IsotropicOrdered`, `HybridPerezOrdered`, utils |
| `Model/Engine`     | full mode of the engine |
| `Model/Fast`       | fast mode: view factors and incident irradiance of back surfaces |
| `Model/Weighted`   | length-weighted parameters of collections, segments, sides, ground |
| `Model/State`      | engine as a state machine: fit, full mode, fast mode, parameter dictionaries |
| `Model/Run`        | serial and parallel run, report merge |
| `Model/Shapely`    | `difference`, cutting and removal on collections of shapely surfaces (base.py, utils.py) |
| `Model/GroundAt`   | ground geometry at one time step: merging of shadow surfaces, non-point surfaces |
| `Model/RowAt` | PV rows as geometries of one time step: surfaces, collections, segments, sides with their checks, weighted parameters |
| `Model/Side` | projection, rows from coordinates, segments with collections in memory: shadows, cuts, merging, kept lists |
| `Model/Dicts` | parameter dictionaries of all parts of the time series array and the methods that update them |
| `Model/SurfParams` | parameters of the surfaces of a time step when these are cut, removed or merged |
| `Model/Sandia` | fAOI functions of modules in the Sandia database, forms of the fAOI argument |
| `Model/Indices` | indices and numbers of the surfaces of a time step |
| `Model/FromDict` | arrays, irradiance models, calculators and runs from dictionaries of parameters, columns of a dataframe |
| `Model/GroundObj` | `PVGround`: flat ground, ground from lists of surfaces, ground of a time step |
| `Model/Nan` | time series with missing values |
| `Model/Circumsolar` | circumsolar shading: uniform disk, Gaussian, shading by a neighbouring row |
| `Spec/*`           | small independent specifications (ray tracing, tilings, radiosity) |
| `Lemmas/*`         | helper lemmas |
| `Props/*`          | the property theorems, one file per group, with witnesses beside them |

Model definitions cite file and lines of /repo.

## 2. Trusted base

* Lean 4.33.0's kernel.  Axioms used: `propext`, `Classical.choice`, `Quot.sound`
  only (checked by `#print axioms` during development and by the gate).
* No axioms of our own, no `sorry`, no `native_decide`/`bv_decide`.
* That the model transcribes the code.  The model was written by reading the code;
  the code was not run.  Every definition says which lines it models and where it
  simplifies.  As a check of the transcription, `validation/run.sh` evaluates the text of the
  definitions with floating point numbers on inputs of the tests of pvfactors (view factor
  matrices, fast and full mode, a year of hourly steps); all results agree with the numbers that
  those tests expect.
* Idealisations: real arithmetic for floats (no rounding, no overflow, no NaN);
  numpy, pandas, pvlib, shapely/GEOS and multiprocessing behave as documented:
  `np.array_split`, `Pool.map` (order preserving), `np.linalg.inv` (exact inverse or
  failure on singular input), pvlib's transposition and Perez models (parameters of
  the model: arbitrary values unless a hypothesis restricts them).
* Not modelled: styles of drawings (the commands are modelled), pandas formatting, the shapely operations with buffers (their results
  are parameters of the model, restricted by hypotheses), the pvlib Perez coefficients,
  the float rounding error of AOI functions (a parameter of C112 and C113), of the choice of obstructing rows in AOI methods where it is not clear (C113) and of
  circumsolar shading.  `get_full_modeling_vectors` of both irradiance models calls a method
  `get_modeling_vectors` that does not exist (pvfactors/irradiance/models.py lines 281 and 775), so it
  always fails with an AttributeError; nothing in the package calls it.

## 3. Plan per property

| id | modelled how | proved how |
|---|---|---|
| C01 | assembly loops of the VF matrix over indexed surfaces | closed form of every entry (assignments never conflict), then algebra |
| C02 | same | four-point (crossed strings) inequality; monotonicity of string differences in the ground point; telescoping over ground surfaces, PV surfaces and rows |
| C03 | same | closed form of entries, both directions |
| C04 | same | closed form of entries |
| C05 | string formulas | telescoping |
| C06-C09, C12 | linear system per time step over `Fin (n+1)` | matrix algebra; M-matrix argument for sign and bounds |
| C07 | same | strict diagonal dominance (Gershgorin lemma of Mathlib) |
| C10 | AOI matrix in the diffuse case, irradiance components | algebra |
| C11 | same plus C01, C03 | exchange of sums |
| C13, C14 | `array_split`, fold dictionaries, worker completion order as an arbitrary permutation, sort by index, merge | induction on lists |
| C15 | whole pipeline as function of the input time series | naturality in re-indexing of the time axis; a counterexample shows the length hypothesis is needed |
| C16 | surface list and index loop | list lemmas |
| C17 | shadows, overlap flags, clipping, elements, cut points | trigonometric identity shading <-> overlap, telescoping |
| C18 | same, against ray tracing spec | projection along the sun direction |
| C19, C20 | cutting loop with extended-real cut points | induction on the list of cut points |
| C21, C22 | segment construction | trigonometry, case analysis, telescoping |
| C23, C24 | shading formula | trigonometric identities; comparison with ray tracing spec |
| C25, C26, C27 | rotation, coordinates | trigonometry, modular arithmetic |
| C28-C30, C47 | fast mode | algebra; string differences of fast mode and of the rows of the full-mode matrix telescope to the same values, collinearity of cut point and row |
| C48 | Python index arithmetic | case analysis; counterexample with index -1 |
| C49 | example report function on the final state | reading back what full mode wrote; missing keys in fast mode |
| C31, C32 | AOI integrals (C31 against the integral of `Spec/Absorbed`) | telescoping of cosines, monotonicity of sums, integrals over sections |
| C33, C34, C45 | irradiance models with pvlib outputs as parameters | algebra / trigonometry |
| C35 | shading percentage formulas | real analysis |
| C36 | recursion with fuel; depth bound | trigonometry |
| C37 | weighted averages over lists | convexity |
| C38 | engine as state machine over parameter stores | induction on operation histories |
| C39, C46 | AOI assignments written into the same matrix (aliasing) | closed form of the entries; counterexample with fAOI = 0 |
| C40 | report merge on association lists | induction |
| C41 | `difference`, `cut_at_point`, `remove_linestring` with shapely predicates as exact distances | collinear line strings reduce to intervals; case analysis on the order of the end points |
| C42 | merge loop with carried surface | induction |
| C43 | `non_point_*_at` | description of what is returned (time step 0), counterexample for other time steps |
| C50 | same as C42 with a parameter per surface | sums over the surface lists; counterexample for merged shadows |
| C51 | view factors of C01-C05 against rays (`Spec/RayView`, `Spec/Scene`) | sines of directions to visible end points; string lengths as antiderivatives of the sines |
| C52 | same | all but finitely many directions meet exactly one surface or nothing; measurability; C01 |
| C53 | direct components of both irradiance models on the illuminated surfaces of C16-C24 | shaded lengths on rows and overlaps of ground shadows are the same projection; telescoping |
| C54 | two runs of full mode with different reflectivities | the difference solves the same linear system with non-negative sources; M-matrix argument |
| C55 | AOI matrix of C31-C34 against rays (`Spec/Absorbed`) | angles are directions of visible end points; sections of the wedge against the integral |
| C56 | horizon shading against rays (`Spec/Horizon`) | a ray is blocked iff it passes below the top of the next row; measure of blocked elevations |
| C57 | circumsolar models against areas and integrals (`Spec/Circumsolar`) | area between graphs, antiderivative; change of variables for the Gaussian |
| C58 | constructors of the geometry classes with their checks as partial functions | every surface of a side has the same normal vector, so no check fails; lists related element by element; sums with and without short surfaces |
| C59 | equations and tests of `projection` | intersection point by linear algebra; distances along the line string |
| C60 | constructors from coordinates | parts of a line by interpolation; comparison with the parametrised rows of the array |
| C61 | collections in memory; intersection of shapely as a parameter | positions on the line; measure of intervals that cover or lie apart |
| C62 | bounds of all end points | coordinates are monotone along the line |
| C63 | memory of collections, segments refer to it by number | operations that only use their own collections commute with others |
| C44 | decision logic | case analysis |
| C64 | `perez_diffuse_luminance` with pvlib's formulas as hypotheses, inputs of whole runs | the cosine of incidence changes sign for the surface turned over; view factors cancel |
| C65 | components of ground surfaces, `gnd_shaded`, `gnd_illum` | C64: the two luminances add up to DHI |
| C66 | front and back components of two runs | C64 on both runs; tangent is not bounded |
| C67 | `total_perez` of fronts with pvlib's transposition as hypothesis | closed form; concrete run for the negative value |
| C68 | fAOI modifiers of both models | sine of the elevation is the absolute cosine of incidence; the angle is unique |
| C69 | Model/Dicts: memory of all dictionaries of an array, loops of the update methods, of transform and of run_full_mode, ground geometry without cut points with its shared dictionaries | flatten the loops to lists of references, updates are idempotent; membership in the lists is the specification |
| C70 | Model/SurfParams: surfaces of a time step with all attributes | induction over the list of surfaces |
| C71 | none new | two engines side by side: geometry of each step is equal, parameters and matrices are equal after every call |
| C72 | Model/Sandia: folding of angles, sapm polynomial, forms of arguments | case split at 90 degrees; C31 and C68 for the consequences |
| C73 | none new | exact values of entries as differences of strings; sums over segments telescope to values at the ends of the side and of its shade |
| C74 | none new | the balance of C06 iterated; the rest shrinks by the largest reflectivity at each step since view factors of a surface add up to 1 |
| C75 | none new | balance of C06 in both runs, reciprocity of view factors (C03) |
| C76 | none new | coordinates of segments under moving, resizing and mirroring; string lengths scale |
| C77 | `Model/Indices` | row geometries of C58, position in a list without repetitions |
| C78 | `Model/FromDict` | unfolding of lookups; result of C15 for the single time step |
| C79 | `Model/GroundObj` | the loops that cut and merge keep all surfaces at the height of the ground, so that normal vectors are vertical |
| C80 | balance of C06, view factors of C02 | maximum principle: the surface with the largest error reflects at most r of it |
| C81 | `Model/Nan` | emptiness over the time series only concerns surfaces that are shorter than the tolerance at every step, as in C15 |
| C82 | list of operations in `Spec/Defined` | coordinates of rows as points at a distance from the centre, angles of the sun |
| C83 | the models' steps compared component by component | sums of components equal; C38 for the objects |
| C84 | the view factor matrix of full mode, fast-mode view factors | the sums over ground and rows collapse to strings; flat rays for the error at the end of the ground |
| C85 | the view factor matrix of full mode, fast-mode view factors | convexity of the distance, quadrilateral inequality |
| C86 | geometry, view factors, AOI view factors, both irradiance models, full mode | closed forms of matrix entries, bijection of surfaces, uniqueness of the radiosity solution |
| C87 | inter-row shading, ground shadows | closed form of the shaded length of a side; angle addition formulas |
| C88 | view factor matrix between PV rows | sums over segments telescope to strings between the ends of the rows (C73); inequalities for square roots |
| C89 | arguments of `fit`, lists of length one, marks | reports computed time step by time step (C13) |
| C90 | `throughModules` in both irradiance models | linearity and monotonicity of full mode (C12), range of fast-mode view factors (C28) |
| C91 | full mode, both irradiance models, geometry and view factors | shading by rays (C42, C47), view factors by rays (C51, C52), horizon band (C56), Perez' formulas (C64); uniqueness by the maximum principle |
| C92 | fast mode, isotropic irradiance model, view factors of fast mode | difference between fast and full mode (C47), full mode by rays (C91), ground seen in fast mode (C29) |
| C93 | run, example report, weighted means, full mode, irradiance models | example report (C49), full mode by rays (C91), formula of Perez et al. (C64), means over sides (C37), sky by rays (C52) |
| C94 | full mode with AOI methods, absorbed components of the irradiance models | AOI view factors by rays (C55), full mode by rays (C91), angles of direct light (C68), horizon band by rays (C56) |
| C95 | fast mode, irradiance models | fast-mode view factors as string differences in distances from the lower end of a row, mirror images of these strings, reversal of sums over shadows |
| C96 | floating point operations as operations with bounded relative errors, view factor matrix with these operations | relative errors of sums of squares and square roots; errors of angles from the sine of their difference; a detour over a point seen in nearly the same direction is short; row of the largest error in the radiosity equations |
| C97 | coordinates of rows and segments with operations that have bounded relative errors | string lengths are Lipschitz in all points also where they switch from straight to bent, because the detour over a point on the line is no detour; view factors are quotients of them |
| C98 | all operations that make coordinates of rows, shade, shadows and cut points with operations that have bounded relative errors | taking the smaller or the larger of two numbers never increases errors; the end of shade is always one of three points of the same row, and where rounding exchanges them they are close together because the row is tilted |
| C99 | Model/RoundedTrig: rotation, sun vector, all trigonometric functions and fit with operations and functions that have bounded relative errors | sine and cosine are Lipschitz; cotangents are the tangents' reciprocals and their differences are sines of angle differences over products of sines; the angle of a sun above the horizon is an arctangent, which is Lipschitz |
| C100 | Model/RoundedFast: shaded lengths, shaded parts, string view factors, sums and irradiance of fast mode with operations that have bounded relative errors | points of fast mode move by little (C99); strings are Lipschitz in their ends and rounded with small relative errors; lengths of surfaces bound the division; C28 bounds the exact view factors |
| C101 | Model/RoundedIrr: both irradiance models with operations that have bounded relative errors | cosines of the computed angle are close to the exact ones, and where the side is exchanged both sides get little light; arctan is Lipschitz and neighbouring rows are at least m away, so that angles of the horizon move by little (C99) |
| C102 | Model/RoundedGround and Model/RoundedTrig at rotation 0 | ordered operations keep the first end of a segment at least as high as the second one; both ends are close to the exact ones (C98, C99) |
| C103 | Model/RoundedFast and Model/RoundedIrr at rotation 0 | the proofs of C100 and C101 for any coordinates that are close to the exact ones, applied to those of C102; infinite cut points are replaced by the ends of the ground on both sides |
| C104 | Model/RoundedWeighted: loops over collections, segments and sides with operations that have bounded relative errors | all terms of the loops have the sign of the value, so that rounding errors are relative to the sum of absolute values; the quotient with slightly different lengths is compared with the exact one |
| C105 | Model/Plot: a drawing is the list of commands given to the axes | the geometries of C58 and C79 are drawn surface by surface; ground surfaces go from left to right also after merging, so that their normal vectors point up |
| C106 | Model/RoundedWeighted: the loops over elements and zones with the operations of a rounded arithmetic | the pieces of an element telescope, so errors of coordinates bound the error of element lengths and of the ground length; then a quotient of nearby sums |
| C107 | Model/RoundedAbs: qabs and the absorbed components with the operations of a rounded arithmetic | the sum over view factors times radiosities is (1 - rho) times the incident light without the part from the sky; then C102 and sums with rounding |
| C108 | Model/RoundedGround and Model/RoundedFast (view factors with the operations of a rounded arithmetic), Model/Engine | the surface with the largest radiosity sends less than it receives; so a vector that the matrix maps to zero is zero |
| C109 | Model/RoundedSolve: matrix, radiosities and incident light with the operations of a rounded arithmetic; the inverse is a parameter | the residual is the error of the inverse times the light plus the rounding errors of the sums times the entries of the matrix; then C103 and C107. Rows of the exact inverse are bounded by solving for light with the signs of their entries |
| C110 | Model/RoundedSolve: absorbedOf, with the operations of a rounded arithmetic | difference of sums, with C96 for the radiosities |
| C111 | Model/RoundedAoi: wedge with the operations of a rounded arithmetic and a computed table | the masks of computed and exact angles differ only in a section with an end within twice the error of the angle; there is at most one such section at each end |
| C112 | Model/RoundedAoi: linspace, middles, sections and sum with the operations of a rounded arithmetic | errors of the ends of sections, of their cosines, view factors and products are added up |
| C113 | Model/RoundedAngle: angles with the operations and functions of a rounded arithmetic | errors of the cosine relative to the product of the norms; differences of cosines bound differences of angles from both sides |

## 4. How the theorems were tested

Each line of `seeded/LOG.jsonl` is one wrong program: an edit of one definition of the model in a
scratch copy of the project, such as a wrong sign, a missing case or a wrong index.  The copy is
built; the declarations in which errors are found are noted and their proofs left out, and the build
is repeated once to reach files that were not built before.

* `theorems_failed` lists the property theorems among those declarations, and the property theorems
  that use one of them directly or through other lemmas.  For edits of definitions on which nearly
  everything rests, the build is stopped soon after the first errors, so that this list is not
  complete.
* `claim` is the property that the wrong program should violate.
* A broken proof does not by itself show that the statement is false for the wrong program: the proof
  may only fail to follow the new text.  A build without errors does show that nothing stated depends
  on the edited text.  Such survivors were looked at one by one; either a theorem was added or made
  stronger (`theorems_tightened`), or a note says why the edit has no observable effect.
