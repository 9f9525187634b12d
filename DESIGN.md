# Formal model of celest: design

`lean/` holds a Lean 4 model of the Python package in `/repo/celest` and theorems about it.
`properties.jsonl` lists the properties, `MANIFEST.json` maps each to its theorems,
`seeded/LOG.jsonl` records the wrong programs the theorems were tried on.

## How the code is modelled

* One Lean function per Python function, following its branches, with a comment citing file and
  lines and naming every simplification.
* Python exceptions are values: `Py α` is `Except PyErr α`.
* Mutable objects (request handler, window collection, text writer, scheduler, iterators) are
  records; methods are state transformers.  A method that raises returns the state it leaves.
* `deepcopy` is the identity on such records.  Unit objects are the exception: the code compares
  their identity, so a copy is a renaming of object ids.  `Units/Memory` gives arrays addresses, so
  sharing, copying and writing in place can be told apart there.
* Randomness (`random.choices`, `random.choice`, `random.random`) is an oracle: a
  universally quantified stream of draws.  Theorems hold for all streams.
* `math.exp` in the acceptance rule is a parameter; theorems name the facts they need of it.
* `str` on floats (`fs`) and NumPy's `astype(str)` (`strOf`) are parameters too; `%.nf` is modelled
  exactly (round half to even on the exact value).
* Numbers are exact.  Scheduling, windows, units, calendar and text use rationals `ℚ`, so that
  concrete runs evaluate in the kernel; frames, sidereal and solar time use `ℝ` with Mathlib's
  `sin`, `cos`, `arccos`, `arctan`, `sqrt`.  Python's `%` on floats is `x - m * ⌊x / m⌋`.
* NaN is `none` of an `Option` where the code can produce it (azimuth, elevation, latitude, attitude, look angles).
* `sorted` is Mathlib's stable `insertionSort`; reverse sorts keep ties in order, as Python does.
* Floating-point arithmetic is modelled in separate `Rounded` modules.  There a rounding, or a whole
  machine (`Frames/Rounded`), is a parameter with an assumed error bound; double precision is shown
  to meet it.  What is assumed of NumPy's sine, cosine, arccosine, sums and inverses stands in
  `Machine.Accurate` as hypotheses of the theorems.
* The solar ephemeris (`get_sun_position`) is an arbitrary function from instants to positions.

## Trusted base

* The Lean 4.33 kernel.  Every theorem depends on `propext`, `Classical.choice` and `Quot.sound` at
  most.  There are no own axioms, no `sorry`, no `native_decide`, no `bv_decide`.
* `kernel_decide` (`Verif/Tactic.lean`) is a tactic that hands `decide` goals to the kernel with
  `Decidable` instances reduced there; what it produces is an ordinary `of_decide_eq_true` proof.
* Mathlib's definitions of `ℚ`, `ℝ`, the elementary functions, matrices, lists and sorting, since
  statements mention them.
* The reading of the code: that each model function agrees with the Python it cites, and that
  CPython, NumPy 1.23 and jplephem behave as the comments say.  This was done by hand.

## What is modelled and what is not

| module | models |
|---|---|
| `Verif/Py.lean`, `Verif/Tactic.lean` | exceptions, indexing, sorting; the `kernel_decide` tactic |
| `Schedule/Model` | `schedule/request_handler.py`, `insertion_operators.py`, `removal_operators.py`, `scheduling_utils.py` |
| `Schedule/Alns`, `Schedule/Scheduler` | `schedule/alns.py`, `schedule/scheduler.py` |
| `Verif/Rounding.lean`, `Schedule/Rounded` | rounding to floats, binary64; the scheduler again with every float operation rounded |
| `Schedule/AlnsRounded` | `schedule/alns.py` again on doubles with gradual underflow |
| `Windows/Model` | `encounter/window_generator.py`, containers of `encounter/window_handling.py` |
| `Windows/Geometry` | `generate_vtws` applied to a satellite and station of `Frames` |
| `Windows/Gaps` | the same for series of positions with NaN at some samples |
| `Windows/Shown` | `__str__` and `__repr__` of windows and collections |
| `Units/Model` | `units/core.py`, `display.py`, `quantity.py`, `unit_initialization.py`; `utils.py` in `Units/PropsUser` |
| `Text/Crash`, `Text/Concurrent` | `TextFileWriter.save` call by call on a buffered file that can be interrupted, and several such processes at once |
| `Units/Fractional` | `units/core.py`, `display.py` and conversion again with integer or float exponents |
| `Units/Memory` | quantities of arrays that live, are shared and change in memory |
| `Frames/Memory` | position, satellite and `Time` objects whose arrays live in memory; programs using them |
| `Planning/Model` | `Scheduler.add_request` together with `generate_vtws`; histories of calls, some of which raise |
| `Calendar/Rounded` | `from_julian`, `day_of_year` and `Time.datetime` again with every constant and float operation rounded, and `timedelta` in whole microseconds |
| `Text/RoundedAngle` | the text of angles and ground locations again with every float operation rounded |
| `Units/Rounded` | conversion, sums and comparisons of quantities again with every float operation rounded |
| `Verif/RoundingReal.lean`, `Frames/Rounded`, `Frames/RoundedAngles`, `Frames/RoundedStation`, `Frames/RoundedLook`, `Frames/RoundedAltitude`, `Frames/RoundedTime`, `Frames/RoundedAttitude`, `Frames/RoundedGeographic`, `Frames/RoundedAzimuth` | rounding of real numbers; the time scales, the angles of the conversions, the Earth-fixed coordinates of a station, the conversions between GCRS and ITRS, `_get_ang`, `_elevation`, `_azimuth`, `GroundLocation.radius`, `Satellite.distance`, `look_angle`, `attitude`, the LVLH matrix, `_altitude`, `_itrs_to_wgs84` and `_wgs84_to_itrs` again with every float operation rounded |
| `Calendar/Model` | `from_julian`, `day_of_year`, `Time.datetime` |
| `TimeScale/Model` | the rest of `coordinates/astronomical_quantities.py`, the time scales of `time.py` |
| `Frames/Model` | `coordinates/transforms.py`, `nutation_precession_matrices.py`, `ground_location.py` |
| `Frames/Containers`, `Frames/Satellite`, `Frames/Save` | `coordinates/coordinate.py`, `coordinates/frames/*`, `satellite.py`, saving, `to_numpy`, `repr` |
| `Text/Model` | `file_save.py`, `angle_strings.py`, `save_text_file` of windows |
| `Windows/Saved` | `save_text_file` of a whole collection and of a satellite |

In each directory `Model`, `Containers`, `Satellite`, `Alns` and `Scheduler` hold code, `Spec` the
independent vocabulary, `Lemmas*` helpers, and `Props*` (also `Geometry`, `Save`) the theorems named
in the manifest, each with a non-vacuity `example`.

Not modelled:

* floating-point rounding outside the `Rounded` modules; overflow, underflow (except C143), infinities, signed zero;
* NumPy broadcasting beyond one dimension;
* units named after a formula with fractional powers; complex powers;
* the JPL ephemeris reader and its data files;
* bytes inside a character, the order in which the operating system writes blocks to the disk;
* trivial accessors, `__str__` of containers, type annotations, performance.

## Where the code falls short

Reading the code showed that about half of the properties a user would rely on do not hold.  For
those the full statement stays in `properties.jsonl`; the manifest says *partial*; the negation is
proved, for a whole class of inputs wherever possible; and the strongest true part found is proved
under a name ending in `_partial` or as an exact characterisation.  The main findings:

* **Requests.** Iteration over the request list skips the last request, so cost, completeness,
  conflict checks and random removal ignore it (C05, C06, C18, C66), and a lone request is never
  scheduled (C19; beside another request one that outweighs all others is).  Schedules can
  therefore overlap (C02), though never three observations at once.
* **Search.** The "better" score cannot be awarded (C17); the acceptance rule divides by zero at
  cost zero (C16); sorting by conflict degree raises on mixtures (C07, C10, C20).  A search
  of more than a thousand passes can divide by a temperature, or a sum of weights, that has
  underflowed to zero (C143).
* **Missing values.** Comparisons with NaN are false, so a window whose rise sample has no attitude
  cannot hold a request with a look angle, and one whose set sample has none can hold a request whose
  look angle is never reached (C138). If a position is missing in the middle of a pass, the window
  after the gap rises at the missing sample and takes no request with a look angle (C140).
* **Generated schedules** carry an empty attitude and can never be saved (C69): comparing a
  `memoryview` with a number gives one `False` instead of an array.
* **Windows.** A pass under way at the first sample gets a wrapped-around rise time (C23, C24, C77, C79);
  no pass at all raises instead of giving an empty collection (C25); collections share one iterator
  (C27).  Rounding can leave the zenith without an elevation and split the pass there (C115).
* **Units.** Numeric multiples are dropped in conversion (C28, C36, C37), dividing by a compound
  unit that shares a unit with the dividend adds exponents (C33, C35), cancelled dimensions and
  zeroth powers break dimension strings (C31, C34), user-defined units cannot be used in compounds
  (C89), foot and yard have wrong sizes (C91).  Quantities share the arrays they are given (C98);
  `<=`, `>=` and `!=` raise on arrays (C99).  In floating-point arithmetic `==` is not symmetric and
  two quantities can each be less than the other (C103).  Powers of units print the unit's factor as
  well as the unit (C132).
* **Sharing.** A position converted to its own frame, or an ITRS position made into a satellite, is
  the very same object, and objects keep the arrays they are made from (C104); `time.julian.data` is
  the array of the `Time` object itself (C105).
* **Calendar.** In centennial common years dates from 1 March on are a day behind for up to three
  months (C41) and the day of the year is one too large once they have caught up (C43); arrays with an early
  instant raise (C42).
* **Time scales.** Apparent sidereal time is not reduced, and leaves [0, 24) every day (C44); local and Greenwich sidereal time
  differ by more than the longitude (C73); the equation of the equinoxes counts seconds of time but
  carries the unit arcsecond (C139).
* **Velocities** are rotated between frames without the rotation of the Earth, so they are not rates of
  change of the converted positions, and a satellite given in the ITRS frame gets a wrong roll (C131).
* **Frames.** The precession matrix uses the wrong sign of zeta (C86) and the nutation matrix the
  wrong axis (C87) and an obliquity decreased twice (C135), though the whole conversion stays within
  0.04 degrees of the standard reduction (C134); latitude is geocentric (C51), so positions do not survive a conversion to WGS84 and back (C127), and so is the zenith (C53), by up to 0.2 degrees (C136), which shifts passes (C137, C144); cameras miss, by at most about 4.2 km (C145); azimuth is measured from the south in
  the southern hemisphere (C54, C136, C141); the altitude loop stops on the mean change of the whole array, so
  a sample's altitude depends on its companions (C52, C76), and a single position on the polar axis
  leaves every altitude at the first guess (C133); containers accept arrays of different
  lengths (C57) and cannot save them (C92).
* **Text.** Column widths ignore the minus sign (C60); a failed save destroys the old file (C61);
  seconds can read 60.00 (C63), and in double precision the minutes can be one too many as well: 4.35
  degrees is shown as 04°21′60.00″ (C129).  The text of a window does not show the angles of its
  attitude (C142).

## Properties: what is modelled and how it is proved

"R" marks a property that is false in the code in general (see above).

| id | model | proof |
|---|---|---|
| C01 | handler, operators, search, generate with oracle | invariant `Feasible` (window, deadline, grade, look angle) preserved by every operator, induction over iterations and histories |
| C02 R | same | kernel-computed run with two overlapping windows; at most one iteration: invariant of C12, removal keeps it, insertion keeps it but for the last row; any number of iterations: no three rows ever overlap each other, because an inserted row overlaps at most the last |
| C03 | same | invariant: static fields are a permutation of the submissions |
| C04 | same | invariant: counter = number of scheduled rows |
| C05 R | iterator as a state machine | exact list of visited requests for every handler |
| C06 R | `does_conflict_exist` | exact iff over all but the last request; never sees the last one, in any consistent handler |
| C07 R, C08 | removal operators with oracle | induction on the removal loop; order from stable sort |
| C09 | insertion operators | induction over request indices |
| C10 R | sorts | sortedness, permutation, stability; exact failure condition |
| C11 R | overlap function | exact iff; mean of the conflict degrees |
| C12 | `initialize_solution` | invariant along the insertion loop |
| C13, C14 | search over any state type | induction over iterations |
| C15 | weights | induction over reachable states; beyond the statement: fails at significance 1 |
| C16 R | `_accept`, cooling | case analysis; closed form of the temperature |
| C17 R | scoring | reachable scores characterised; credit assignment step by step |
| C18 R, C19 R | cost, completeness | exact formulas; a request that outweighs the others is served: initial schedule maximal (C67) and by priority (C68), search never worse (C13) |
| C20 R | generate | exceptions possible per phase, by induction; classes of crashing runs |
| C21, C22 | image quality, bisection | floor arithmetic; loop invariant and measure |
| C23–C25 R, C77–C79 R | `generate_vtws` | runs of an ascending index list, by list induction |
| C26, C27 R | `WindowCollection` | induction over operation sequences |
| C28–C40 R | units | unit expressions refined to exponent maps and factors; the displayed string determines them |
| C41–C43 R | calendar | integer arithmetic against an independent civil calendar |
| C44 R, C45, C73 R | time scales | floor arithmetic on reals, intermediate value theorem |
| C46–C49 | rotations, LVLH, attitude | real linear algebra |
| C50–C52 R | geographic coordinates | algebra of the ellipsoid; contraction of the altitude iteration; signs of its first step in the south and in the north |
| C53–C55 R | elevation, azimuth, look angle, distance | inner products, `arccos` monotonicity |
| C56–C58 R | coordinate conversion, containers, ground locations | case analysis |
| C59–C63 R | text files, sexagesimal strings | list and character induction; parsing back |
| C64 R | array conversion | element-wise refinement |
| C65 R–C68 | choice of window, exhaustiveness, order of service | loop invariants of the insertion operators |
| C69 R | saving generated windows | every window of every history has an empty attitude |
| C70 | elevation, look angle, distance | Mathlib's triangle theorems |
| C71, C72 R, C74 R | satellites | frame independence, pairing of samples |
| C75, C76 R | altitude loop | contraction gives termination after at most four passes and an error bound |
| C80, C81 R | repeated generation | invariants of the scheduler state over histories |
| C82–C85 | nutation, solar time, right ascension, sidereal time | interval bounds on trigonometric sums |
| C86 R, C87 R | precession, nutation matrices | matrix identities, bounds on the angles |
| C88 | windows of a satellite over a station | C23/C79 combined with the frame theorems: inertial geometry |
| C89 R, C90, C91 R | user-defined units, name space, unit sizes | dimension lookup; induction over definitions; computation |
| C92 R, C93 R, C94 | saving positions, `to_numpy`, `repr` | C59 and its read-back; element-wise conversion; injectivity of joins |
| C95, C96 R | saved collections and satellites | histories reduced to their additions (C26), then C59 read back |
| C97, C98 R, C99 R | arrays in memory | frame property of every computation, induction over programs; refinement of the scalar model |
| C100, C101 R | schedules in floating-point arithmetic | any monotone rounding with bounded relative error: the C01 and C12 invariants with error terms; binary64 is one such rounding; at most one iteration, and at most two at once, as for C02; without rounding it is the exact model |
| C102, C103 R | quantities in floating-point arithmetic | relative errors counted in roundings, closed under products, quotients and sums; monotonicity; computation in binary64 for the contradictions |
| C104 R, C105 R | arrays of positions and times | every conversion extends memory and gives new addresses; who holds an array, by induction over programs; refinement of the value-level conversions |
| C106, C107, C108 | planning as a whole: `add_request` with its window generation, then `generate` | a history of calls is a history of operations on the handler; C01 (C100 with rounding), C23 and C79 combined; the geometry of C88 |
| C109 | the calendar functions with every float operation rounded | dates are multiples of 2^-31, on which sums are exact; each truncated quotient is at distance at least 1/q from the integers unless it is exact |
| C110 | mean elements of sun, moon and node; precession | cubic polynomials against linear motion; interval bounds |
| C111, C112 | equation of the centre, equation of time, hour angle of the sun | complex logarithm bounds give the series of the true anomaly and of the right ascension with remainders; Kepler's equation by one substitution |
| C113 | windows and observations of a satellite on a path of bounded speed | the angle between two nearby directions is at most an arcsine; summing over ever finer steps gives the angular rate; then the nearest visible sample |
| C114 | a machine: rounding, sine, cosine, arccosine, sums of three products, 3 by 3 inverses, each with an assumed error bound; the ten angles are arbitrary | entrywise errors of the three matrices, then of matrix times vector, then composition; the rotations about one axis move by at most the change of the angle |
| C115 R | `_elevation` and windows on the same machine | relative errors of norms and quotient, modulus of continuity of the arccosine; a station with integer coordinates computed in binary64 for the contradiction |
| C116 | dates, unit factors, polynomials, remainders, nutation series and rotations on the same machine, term by term in the order of the code | absolute errors carried through every operation (`Close`), full turns of the Earth dropped by periodicity, then C114 |
| C117 R | C116 and C115 joined: `pipelineScene`, from inertial positions and geodetic coordinates to the arrays `generate_vtws` works with | the errors of positions and station as angles seen from the station, then C23 and C79 |
| C118 | C117 and C108 joined: `pipelineMission`, from inertial positions and requests to the schedule | windows of C117 in the schedule of C108; between the samples by C113 |
| C119 | the continuous path behind the samples of `sceneOf` (C113) | runs of C23 matched with the passes by order; crossings by the intermediate value theorem |
| C120 R | `Satellite.distance` and `Satellite.look_angle` operation by operation on the same machine, after the conversion of C116 and the station of C117 | relative error of the computed norm; errors of positions as angles seen from the satellite, as in C117; a station with integer coordinates computed in binary64 for the contradiction |
| C121 | `_altitude` operation by operation on the same machine, with arctangents off by at most `4u` and means by at most a tenth of the largest entry | relative errors of the curvature radius, the tangent and the height; an invariant over the passes; the contraction of C75 at the fourth pass |
| C122 R | `save` as the sequence of its calls on a buffered file; any part of the buffer may reach the disk at any time; interruption between any two steps | invariant over all reachable states; refinement of the atomic `save` by the sequence of calls |
| C123 R | any number of processes with the program of C122, one file, a position in it for each process | invariant of the last process to open the file, over all interleavings |
| C124 R | the time scales in floating-point arithmetic, with any tangent and `arctan2` of bounded error | absolute error bounds through every formula; remainders compared on the dial; arguments of nearby complex numbers; rounding to an integer bound is monotone |
| C125 R | exponents that are integers or floats, with rounded sums and products; sizes as real powers | refinement of the integer model; induction over formulas; displayed texts decode to names and exponents |
| C126 | `Rounded.attitude`: float LVLH matrix, target direction and angles | forward error analysis; the common rotation cancels; C49 for the exact direction |
| C127 R | `convert` to WGS84 and back, all of `_altitude` | exact form of the result; tangential component of the move; C52 bounds of all altitudes |
| C128 | `_itrs_to_wgs84`, `_wgs84_to_itrs` and their composition with the frame conversions, every operation rounded | error algebra; height above a convex surface is 1-Lipschitz; C116, C121, C127 |
| C129 R | `_ISO6709_representation`, every operation rounded | significands as integers: a product with 60 rounds to below a whole number only if the one with 3600 does; unique reading of the text |
| C130 | `GroundLocation.radius` and `_azimuth`, every operation rounded | relative errors of tangent, projection and cross product; angle between slightly wrong vectors; sign of a sum of products |
| C131 R | `Satellite` and `_gcrs_to_itrs` on moving points | derivative of the product of rotations; precession and nutation bounded by Lipschitz constants of their angles |
| C132 R | `Quantity.__str__` on the unit model | relational reading of texts, unique by splitting at spaces and at the slash; the printed text has the reading with the unit's own factor |
| C133 R | `_altitude` with NaN (`Frames/Polar.lean`) | exact outcome of the loop for every array with a polar position (at most one pass), sums of first changes; agrees with the other model off the axis |
| C134 R | the whole conversion against a specification `standardItrs` (`Frames/PropsReduction.lean`) | rotations by small angles almost commute; C85 for sidereal time, C82 for nutation |
| C135 R | `nutation_matrix`, `eps_A` (`Frames/PropsObliquity.lean`) | difference of the polynomials; commutator of small rotations |
| C136 R | `_azimuth`, `_elevation` and `radius` against directions `seenAt` (`Frames/PropsCompass.lean`) | coordinates in the local frame north, east, up; triangle inequality for angles |
| C137 R | C117 and C118 with elevations above the horizon (`Planning/PropsHorizon.lean`) | C136's bound on the angle between zenith and vertical; exact elevations in the meridian plane |
| C138 R | attitude with numpy's divisions by zero (`Frames/Missing.lean`), look-angle search on series with NaN (`Schedule/Missing.lean`) | exact case analysis of the denominators; loop invariant with comparisons false on NaN; agreement with the models without NaN |
| C139 R | `equation_of_equinoxes`, `Time.gast` | right ascension of the mean equinox from a rotated vector (`Frames/PropsEquinoxes.lean`), bounds on sine and arctangent |
| C140 R | `generate_vtws`, `Satellite.attitude` and `_look_angle_time` on series with NaN | visibility of known samples, maximal runs of the complete and the cut series (`Windows/Gaps.lean`), C138 |
| C141 R | C130 from inertial positions against C136's directions (`Planning/PropsBearing.lean`) | composition; a satellite put on the wrong side of the meridian is seen so close to north or south that both sides are the same direction |
| C142 R | texts of windows and collections (`Windows/Shown.lean`), C129's texts of locations | splitting at commas; no piece contains one |
| C143 R | the search again on doubles with a smallest positive number (`Schedule/AlnsRounded.lean`), and `generate` on it | rounding keeps powers of two; induction on the passes and on the number of smaller costs |
| C144 R | C117 and C118 with elevations by `standardItrs` (`Planning/PropsStandard.lean`) | C134 turned into an angle at the station, C137's bound for the vertical |
| C145 R | C49 with the target where `standardItrs` puts it (`Planning/PropsPointing.lean`) | C49 gives the exact direction, C134 the offset; two points on a sphere that are close cannot be in line with a satellite above the horizon |
