{"id": "C01", "title": "Every scheduled observation is feasible", "statement": "Every observation window returned by Scheduler.generate belongs to one of the submitted requests, has exactly the requested duration, lies strictly inside one of that request's visible time windows, ends strictly before the request's deadline, has an image quality at least the requested minimum, and starts at the requested look angle if one was requested.", "quantifier": "all request lists (any number, any windows, deadlines, priorities, qualities), all iteration counts, annealing parameters and significance parameters, and every sequence of random draws", "why_tests_cant": "the search visits randomly chosen states; a test sees one random history out of unboundedly many", "anchors": ["celest/schedule/scheduler.py:Scheduler.generate", "celest/schedule/insertion_operators.py:insert_first_n_requests", "celest/schedule/alns.py:ALNS.solve", "celest/schedule/scheduling_utils.py:initialize_solution"]}
{"id": "C02", "title": "No two scheduled observations overlap in time", "statement": "The observation windows returned by Scheduler.generate are pairwise disjoint in time: the satellite is never asked to perform two observations at once.", "quantifier": "all request lists, all parameters and every sequence of random draws", "why_tests_cant": "whether a conflict is missed depends on the order of requests at each step of a random search", "anchors": ["celest/schedule/insertion_operators.py:does_conflict_exist", "celest/schedule/request_handler.py:RequestHandler.__next__", "celest/schedule/alns.py:ALNS.solve"]}
{"id": "C03", "title": "Scheduling neither invents, loses nor duplicates requests", "statement": "Through any sequence of insertion, removal and sorting operators the request list stays a permutation of the submitted one with every submitted field (location, deadline, duration, priority, quality, look angle, set of visible windows) unchanged, and each request is scheduled at most once.", "quantifier": "all request lists, all operator sequences of any length and all random draws", "why_tests_cant": "requires an invariant over unbounded operator histories", "anchors": ["celest/schedule/request_handler.py:RequestHandler", "celest/schedule/insertion_operators.py", "celest/schedule/removal_operators.py"]}
{"id": "C04", "title": "The scheduled-request counter is exact", "statement": "number_of_scheduled_requests always equals the number of requests currently marked scheduled, and an unscheduled request carries no start time, duration or window index.", "quantifier": "all histories of add/insert/remove/sort/unschedule-all operations reachable through the operators", "why_tests_cant": "counter drift only shows after particular histories", "anchors": ["celest/schedule/request_handler.py:RequestHandler.schedule_request", "celest/schedule/request_handler.py:RequestHandler.unschedule_request", "celest/schedule/request_handler.py:RequestHandler.unschedule_all_requests"]}
{"id": "C05", "title": "Visiting a request list visits every request", "statement": "A for loop over a RequestHandler visits every request exactly once, in order, and can be repeated.", "quantifier": "all handlers of any length", "why_tests_cant": "the tests iterate over one fixed handler", "anchors": ["celest/schedule/request_handler.py:RequestHandler.__iter__", "celest/schedule/request_handler.py:RequestHandler.__next__"]}
{"id": "C06", "title": "Conflict detection is exact", "statement": "A candidate observation (start, duration) is reported to conflict exactly when it overlaps in time with an observation that is already scheduled.", "quantifier": "all handlers, all candidate start times and positive durations, all scheduled requests", "why_tests_cant": "there are unboundedly many interval configurations and positions in the list", "anchors": ["celest/schedule/insertion_operators.py:does_conflict_exist"]}
{"id": "C07", "title": "Removal operators remove exactly what was asked", "statement": "Each removal operator, asked for k removals, unschedules exactly min(k, number scheduled) requests, schedules nothing, leaves every other request's assignment unchanged, and never fails.", "quantifier": "all handlers, all k and all random draws", "why_tests_cant": "random removal and arbitrary mixes of scheduled and unscheduled requests", "anchors": ["celest/schedule/removal_operators.py:random_removal", "celest/schedule/removal_operators.py:priority_removal", "celest/schedule/removal_operators.py:opportunity_removal", "celest/schedule/removal_operators.py:conflict_removal"]}
{"id": "C08", "title": "Removal operators remove in the documented order", "statement": "Priority removal unschedules the scheduled requests of highest priority, opportunity removal those with most visible windows; nothing kept ranks strictly before something removed.", "quantifier": "all handlers and all k", "why_tests_cant": "order must hold for every multiset of keys including ties", "anchors": ["celest/schedule/removal_operators.py:priority_removal", "celest/schedule/removal_operators.py:opportunity_removal", "celest/schedule/removal_operators.py:_remove_first_n_scheduled_requests"]}
{"id": "C09", "title": "Insertion operators only add", "statement": "An insertion operator asked for k insertions schedules at most k new requests, never unschedules or moves an already scheduled request, and every new assignment is feasible for its request.", "quantifier": "all handlers and all k >= 0", "why_tests_cant": "unbounded handlers and interleavings of windows", "anchors": ["celest/schedule/insertion_operators.py:greedy_insertion", "celest/schedule/insertion_operators.py:minimum_opportunity_insertion", "celest/schedule/insertion_operators.py:minimum_conflict_insertion", "celest/schedule/insertion_operators.py:insert_first_n_requests"]}
{"id": "C10", "title": "The sort operations are sorts", "statement": "Each sort operation on a RequestHandler leaves a stable permutation of the requests (or of a request's windows) ordered by its documented key, for every handler.", "quantifier": "all handlers", "why_tests_cant": "sorting with mixed key types fails only on particular mixtures", "anchors": ["celest/schedule/request_handler.py:RequestHandler.sort_by_decreasing_priority", "celest/schedule/request_handler.py:RequestHandler.sort_by_decreasing_conflict_degree", "celest/schedule/request_handler.py:RequestHandler.sort_vtws_by_increasing_conflict_degree"]}
{"id": "C11", "title": "Overlap time is the length of the intersection", "statement": "The overlap time used for conflict degrees equals the length of the intersection of the two windows, is symmetric, and is zero for disjoint windows.", "quantifier": "all pairs of windows", "why_tests_cant": "a continuum of window pairs", "anchors": ["celest/schedule/request_handler.py:RequestHandler._julian_day_overlap", "celest/schedule/request_handler.py:RequestHandler._conflict_degree"]}
{"id": "C12", "title": "The greedy initial schedule is conflict free", "statement": "The initial solution built before the search starts contains no two overlapping observations, and schedules no request infeasibly.", "quantifier": "all request lists", "why_tests_cant": "unbounded request lists", "anchors": ["celest/schedule/scheduling_utils.py:initialize_solution", "celest/schedule/insertion_operators.py:greedy_insertion"]}
{"id": "C13", "title": "Search never returns worse than its start", "statement": "The schedule returned by the search has cost no larger than the initial schedule and no larger than any candidate the search generated, and it is one of those.", "quantifier": "all initial schedules, operator sets, parameters, iteration counts and random draws", "why_tests_cant": "random search history of unbounded length", "anchors": ["celest/schedule/alns.py:ALNS.solve"]}
{"id": "C14", "title": "The search stops exactly when the schedule is complete", "statement": "ALNS.solve runs at most the requested number of iterations, stops as soon as the best schedule is complete and not before, and with zero iterations returns the initial schedule.", "quantifier": "all initial schedules, parameters and random draws", "why_tests_cant": "random search history", "anchors": ["celest/schedule/alns.py:ALNS.solve"]}
{"id": "C15", "title": "Operator selection probabilities are a distribution", "statement": "After any number of iterations with significance parameter in [0,1) every operator weight is positive and at most its bound, the selection probabilities are non-negative and sum to one, and selection never fails.", "quantifier": "all histories of scores and all significance parameters in [0,1)", "why_tests_cant": "weights after unboundedly many updates", "anchors": ["celest/schedule/alns.py:ALNS._get_probabilities", "celest/schedule/alns.py:ALNS._update_destroy_weights", "celest/schedule/alns.py:ALNS._update_repair_weights"]}
{"id": "C16", "title": "Acceptance rule", "statement": "The simulated-annealing rule accepts every candidate that is not worse, accepts a worse one only with probability less than one that decreases with the loss, and never fails.", "quantifier": "all current/candidate costs, temperatures and random draws", "why_tests_cant": "continuum of costs and draws", "anchors": ["celest/schedule/alns.py:ALNS._accept", "celest/schedule/alns.py:ALNS.solve"]}
{"id": "C17", "title": "Scores reward improvement", "statement": "An iteration is scored best if it improves on the best schedule, better if it improves on the current one, accepted if accepted, rejected otherwise, and each score class can occur.", "quantifier": "all iteration states and random draws", "why_tests_cant": "reachability over all states", "anchors": ["celest/schedule/alns.py:ALNS.solve", "celest/schedule/alns.py:ALNS._update_destroy_weights"]}
{"id": "C18", "title": "Schedule cost counts every scheduled request", "statement": "The cost of a schedule is minus the sum of the priorities of all scheduled requests, and a schedule is complete exactly when all its requests are scheduled.", "quantifier": "all handlers", "why_tests_cant": "the discrepancy depends on which request is last", "anchors": ["celest/schedule/scheduling_utils.py:cost", "celest/schedule/scheduling_utils.py:is_complete"]}
{"id": "C19", "title": "A feasible lone request is scheduled", "statement": "If a request has a visible time window that can accommodate the observation before the deadline with sufficient quality, and nothing else is requested, Scheduler.generate returns a window for it.", "quantifier": "all single-request schedules", "why_tests_cant": "for every window geometry", "anchors": ["celest/schedule/scheduler.py:Scheduler.generate", "celest/schedule/insertion_operators.py:insert_first_n_requests"]}
{"id": "C20", "title": "Generate always terminates normally", "statement": "Scheduler.generate with at least one request and valid parameters terminates and returns a collection rather than raising.", "quantifier": "all request lists, parameters and random draws", "why_tests_cant": "crashes depend on random choices and on mixtures of scheduled requests", "anchors": ["celest/schedule/scheduler.py:Scheduler.generate", "celest/schedule/alns.py:ALNS._accept", "celest/schedule/request_handler.py:RequestHandler.sort_by_decreasing_conflict_degree"]}
{"id": "C21", "title": "Image quality is a grade from 1 to 10 peaking at nadir", "statement": "For any start time within a visible window the image quality is an integer between 1 and 10, equals 10 exactly at the window midpoint, is symmetric about it, and does not increase with distance from it.", "quantifier": "all windows with rise < set and all start times in them", "why_tests_cant": "a continuum of times", "anchors": ["celest/schedule/insertion_operators.py:image_quality"]}
{"id": "C22", "title": "Look-angle bisection brackets the requested look angle", "statement": "The look-angle search terminates; when it returns a time, that time is a sample of the window and the requested angle lies between the values at it and at an adjacent sample; it returns nothing exactly when the end samples lie strictly on the same side of the requested angle.", "quantifier": "all sampled pitch profiles and all requested angles", "why_tests_cant": "unbounded sample counts and profiles", "anchors": ["celest/schedule/insertion_operators.py:_look_angle_time"]}
{"id": "C23", "title": "Visible windows are exactly the maximal visible runs", "statement": "generate_vtws returns, in chronological order, one window per maximal run of consecutive samples that satisfy both the elevation threshold and the lighting condition: every qualifying sample lies in exactly one window and no other sample does.", "quantifier": "all sampled elevation and sun profiles of any length, all thresholds and lighting conditions", "why_tests_cant": "unbounded profiles", "anchors": ["celest/encounter/window_generator.py:generate_vtws", "celest/encounter/window_generator.py:_lighting_constraint_indices"]}
{"id": "C24", "title": "Visible windows are proper and disjoint intervals", "statement": "Every window returned by generate_vtws rises before it sets, and consecutive windows do not overlap.", "quantifier": "all profiles with strictly increasing times", "why_tests_cant": "edge runs at the first sample", "anchors": ["celest/encounter/window_generator.py:generate_vtws"]}
{"id": "C25", "title": "Invisible targets give an empty collection", "statement": "If no sample satisfies the visibility conditions generate_vtws returns an empty collection.", "quantifier": "all profiles with no qualifying sample", "why_tests_cant": "universally quantified over profiles", "anchors": ["celest/encounter/window_generator.py:generate_vtws"]}
{"id": "C26", "title": "Window collections are homogeneous and append-only", "statement": "After any sequence of add_window calls a collection contains exactly the accepted windows in insertion order, all of one type; a rejected call raises and changes nothing.", "quantifier": "all sequences of add_window calls with arbitrary arguments", "why_tests_cant": "unbounded histories", "anchors": ["celest/encounter/window_handling.py:WindowCollection.add_window"]}
{"id": "C27", "title": "Iterating a window collection yields every window", "statement": "Every for loop over a WindowCollection yields all windows from the first in order, whatever loops ran before.", "quantifier": "all collections and all histories of complete, interrupted and nested loops", "why_tests_cant": "unbounded histories of loops", "anchors": ["celest/encounter/window_handling.py:WindowCollection.__iter__", "celest/encounter/window_handling.py:WindowCollection.__next__"]}
{"id": "C28", "title": "Conversion multiplies by the ratio of unit factors", "statement": "Quantity.to(v) returns the number that, times v's factor to base units, equals the original number times the original unit's factor to base units.", "quantifier": "all numbers and all units built from named units with *, /, ** and numeric multiples that have the same dimension", "why_tests_cant": "infinitely many compound units", "anchors": ["celest/units/quantity.py:Quantity.convert_to", "celest/units/quantity.py:Quantity.to", "celest/units/core.py:CompoundUnit"]}
{"id": "C29", "title": "Conversions round-trip and compose", "statement": "Converting a quantity to another unit and back returns the original number; converting through an intermediate unit gives the same number as converting directly.", "quantifier": "all quantities and all units of the same dimension", "why_tests_cant": "infinitely many compound units", "anchors": ["celest/units/quantity.py:Quantity.convert_to"]}
{"id": "C30", "title": "Dimension safety", "statement": "Conversion, addition, subtraction and comparison of two quantities succeed only if their physical dimensions are equal.", "quantifier": "all pairs of units built from named units with *, / and **", "why_tests_cant": "infinitely many compound units; dimensions are compared as rendered strings", "anchors": ["celest/units/display.py:get_dimension_string", "celest/units/display.py:get_dimensions_from_unit", "celest/units/quantity.py:Quantity.convert_to"]}
{"id": "C31", "title": "Units of equal dimension are interconvertible", "statement": "If two units have the same physical dimension then a quantity in one can be converted to the other.", "quantifier": "all pairs of units built from named units with *, / and **", "why_tests_cant": "depends on construction order and cancellation", "anchors": ["celest/units/display.py:get_dimensions_from_unit", "celest/units/quantity.py:Quantity.convert_to"]}
{"id": "C32", "title": "Unit products add exponents", "statement": "In a product of two units the exponent of every named unit is the sum of its exponents in the factors; the product with a dimensionless unit is the other unit.", "quantifier": "all pairs of units built by unit arithmetic", "why_tests_cant": "infinitely many compound units", "anchors": ["celest/units/core.py:BaseUnit.__mul__", "celest/units/core.py:CompoundUnit._expand_and_collect"]}
{"id": "C33", "title": "Unit quotients subtract exponents", "statement": "In a quotient of two units the exponent of every named unit is the difference of its exponents; a unit divided by itself is dimensionless.", "quantifier": "all pairs of units built by unit arithmetic", "why_tests_cant": "infinitely many compound units", "anchors": ["celest/units/core.py:BaseUnit.__truediv__", "celest/units/core.py:CompoundUnit._expand_and_collect"]}
{"id": "C34", "title": "Unit powers multiply exponents", "statement": "In the n-th power of a unit the exponent of every named unit is n times its exponent; the zeroth power is dimensionless.", "quantifier": "all units built by unit arithmetic and all integers n", "why_tests_cant": "infinitely many compound units", "anchors": ["celest/units/core.py:BaseUnit.__pow__", "celest/units/core.py:CompoundUnit.__init__"]}
{"id": "C35", "title": "Quantity products and quotients carry the right value and unit", "statement": "The product (quotient) of two quantities, read in base units, is the product (quotient) of their values in base units, with the corresponding unit exponents.", "quantifier": "all pairs of quantities", "why_tests_cant": "infinitely many compound units", "anchors": ["celest/units/quantity.py:Quantity.__mul__", "celest/units/quantity.py:Quantity.__truediv__"]}
{"id": "C36", "title": "Quantity sums and differences are exact in base units", "statement": "The sum and difference of two quantities of the same dimension, read in base units, are the sum and difference of their values in base units; addition is commutative and associative in value and q - q is zero.", "quantifier": "all pairs and triples of quantities of the same dimension", "why_tests_cant": "continuum of values, many units", "anchors": ["celest/units/quantity.py:Quantity.__add__", "celest/units/quantity.py:Quantity.__sub__", "celest/units/quantity.py:Quantity.__neg__"]}
{"id": "C37", "title": "Quantity comparison is a total order on values", "statement": "For quantities of one dimension exactly one of <, ==, > holds, <= is the negation of >, >= the negation of <, the relations agree with the order of values in base units and are therefore transitive across mixed units.", "quantifier": "all triples of quantities of one dimension", "why_tests_cant": "transitivity quantifies over all triples", "anchors": ["celest/units/quantity.py:Quantity.__lt__", "celest/units/quantity.py:Quantity.__eq__", "celest/units/quantity.py:Quantity.__gt__"]}
{"id": "C38", "title": "Inequality negates equality", "statement": "For every quantity q and every object x, (q != x) is the negation of (q == x).", "quantifier": "all quantities and all operands, including non-quantities", "why_tests_cant": "quantifies over operand types", "anchors": ["celest/units/quantity.py:Quantity.__ne__", "celest/units/quantity.py:Quantity.__eq__"]}
{"id": "C39", "title": "Copies of a quantity behave like the original", "statement": "A quantity converted to its own unit can be substituted for the original in any later unit arithmetic.", "quantifier": "all quantities and all later unit operations", "why_tests_cant": "identity-based bookkeeping only shows in combinations", "anchors": ["celest/units/quantity.py:Quantity.convert_to", "celest/units/core.py:CompoundUnit._expand_and_collect"]}
{"id": "C40", "title": "Derived units inherit their definition's factor", "statement": "A unit defined from a base-unit expression converts to base units with that expression's factor.", "quantifier": "all unit definitions", "why_tests_cant": "infinitely many definitions", "anchors": ["celest/units/core.py:Unit.__init__", "celest/units/unit_initialization.py"]}
{"id": "C41", "title": "Julian dates convert to the right calendar date", "statement": "Time.datetime / from_julian returns the Gregorian year, month and day of the instant, and consecutive days map to consecutive calendar dates.", "quantifier": "all Julian dates in the Gregorian era", "why_tests_cant": "unboundedly many days; errors hide in a few days per century", "anchors": ["celest/coordinates/astronomical_quantities.py:from_julian", "celest/time.py:Time.datetime"]}
{"id": "C42", "title": "Calendar conversion works elementwise on arrays", "statement": "Converting an array of Julian dates gives the same result as converting each element on its own.", "quantifier": "all arrays", "why_tests_cant": "depends on mixtures of dates around the threshold", "anchors": ["celest/coordinates/astronomical_quantities.py:from_julian"]}
{"id": "C43", "title": "Day of year is the ordinal date", "statement": "day_of_year equals the number of days since the start of the year plus one, and therefore increases by one each day within a year.", "quantifier": "all Gregorian dates", "why_tests_cant": "leap-century exceptions", "anchors": ["celest/coordinates/astronomical_quantities.py:day_of_year"]}
{"id": "C44", "title": "Times of day lie in one day and are periodic in longitude", "statement": "True and mean solar time, hour angles, UT1, GMST, LMST, GAST and LAST lie in [0, 24) hours; a change of longitude by 360 degrees changes nothing and the local time advances one hour per 15 degrees.", "quantifier": "all instants and longitudes", "why_tests_cant": "a continuum of instants", "anchors": ["celest/time.py:Time.true_solar_time", "celest/time.py:Time.mean_solar_time", "celest/time.py:Time.gmst", "celest/time.py:Time.lmst", "celest/time.py:Time.gast", "celest/time.py:Time.last"]}
{"id": "C45", "title": "Earth rotation angle is an angle that advances uniformly", "statement": "The Earth rotation angle lies in [0, 360) degrees and advances at the fixed sidereal rate modulo 360 between any two instants.", "quantifier": "all pairs of instants", "why_tests_cant": "a continuum of instants", "anchors": ["celest/coordinates/astronomical_quantities.py:earth_rotation_angle"]}
{"id": "C46", "title": "GCRS and ITRS conversions are inverse rotations", "statement": "Converting GCRS to ITRS and back (or ITRS to GCRS and back) returns the original position and velocity at every instant.", "quantifier": "all positions, velocities and instants", "why_tests_cant": "a continuum of positions and instants", "anchors": ["celest/coordinates/transforms.py:_gcrs_to_itrs", "celest/coordinates/transforms.py:_itrs_to_gcrs"]}
{"id": "C47", "title": "Frame rotations preserve distances and angles", "statement": "The bias, precession and nutation matrices are proper rotations, and GCRS/ITRS conversion preserves the distance between any two simultaneous points.", "quantifier": "all instants and all pairs of points", "why_tests_cant": "a continuum of inputs", "anchors": ["celest/coordinates/nutation_precession_matrices.py:bias_matrix", "celest/coordinates/nutation_precession_matrices.py:precession_matrix", "celest/coordinates/nutation_precession_matrices.py:nutation_matrix"]}
{"id": "C48", "title": "LVLH axes form a right-handed orthonormal frame", "statement": "For every non-degenerate orbit state the LVLH transformation is a proper rotation that maps the satellite position to (0, 0, -r) and the velocity into the x-z plane with positive x component, and depends only on the directions of position and velocity.", "quantifier": "all position/velocity pairs with non-zero angular momentum", "why_tests_cant": "a continuum of states", "anchors": ["celest/coordinates/transforms.py:_gcrs_to_lvlh", "celest/coordinates/transforms.py:_gcrs_to_lvlh_matrix"]}
{"id": "C49", "title": "Attitude angles point at the target", "statement": "The roll, pitch and yaw returned by Satellite.attitude rotate the nadir direction onto the line of sight to the ground target, and their off-nadir angle is the look angle; a target at nadir needs zero roll and pitch.", "quantifier": "all satellite states with non-zero angular momentum and all targets closer to the centre of the Earth than the satellite", "why_tests_cant": "a continuum of geometries, quadrant errors", "anchors": ["celest/satellite.py:Satellite.attitude"]}
{"id": "C50", "title": "Geographic to ECEF lies on the ellipsoid and agrees across the API", "statement": "A WGS84 position at height zero converts to a point on the reference ellipsoid, increasing height moves it along the outward normal by exactly that height, and GroundLocation's ITRS coordinates agree with the coordinate conversion.", "quantifier": "all latitudes, longitudes and heights", "why_tests_cant": "a continuum of positions", "anchors": ["celest/coordinates/transforms.py:_wgs84_to_itrs", "celest/coordinates/ground_location.py:GroundLocation"]}
{"id": "C51", "title": "Geographic round trip", "statement": "Converting WGS84 to ITRS and back returns the original latitude and longitude.", "quantifier": "all latitudes in (-90, 90) and longitudes in (-180, 180]", "why_tests_cant": "a continuum of positions", "anchors": ["celest/coordinates/transforms.py:_itrs_to_wgs84", "celest/coordinates/transforms.py:_wgs84_to_itrs"]}
{"id": "C52", "title": "Altitude of a point on the ellipsoid normal is its height", "statement": "The altitude computed for an ITRS position is its height above the reference ellipsoid.", "quantifier": "all positions outside the Earth", "why_tests_cant": "iterative algorithm over a continuum of positions", "anchors": ["celest/coordinates/transforms.py:_altitude"]}
{"id": "C53", "title": "Elevation, azimuth and look angle are well-ranged", "statement": "Elevation lies in [-90, 90] and is 90 exactly at the local zenith, azimuth lies in [0, 360), look angle lies in [0, 180] and is 0 exactly when the target is at nadir.", "quantifier": "all satellite and ground positions", "why_tests_cant": "a continuum of geometries", "anchors": ["celest/coordinates/transforms.py:_itrs_to_azel", "celest/coordinates/transforms.py:_azimuth", "celest/coordinates/transforms.py:_elevation", "celest/coordinates/transforms.py:_get_ang", "celest/satellite.py:Satellite.look_angle"]}
{"id": "C54", "title": "Azimuth is measured clockwise from north everywhere", "statement": "The azimuth of a satellite lying due north of a station is 0 for every station, in both hemispheres.", "quantifier": "all ground stations other than the poles", "why_tests_cant": "hemisphere-dependent sign", "anchors": ["celest/coordinates/transforms.py:_azimuth"]}
{"id": "C55", "title": "Satellite-to-ground distance is a metric", "statement": "The reported distance is non-negative, zero exactly when the satellite is at the location, at least the difference of geocentric radii, and satisfies the triangle inequality.", "quantifier": "all satellite and ground positions", "why_tests_cant": "a continuum of geometries", "anchors": ["celest/satellite.py:Satellite.distance"]}
{"id": "C56", "title": "Coordinate conversion delivers the requested frame", "statement": "Coordinate.convert_to returns a position of the requested frame for every source frame, with the same times, is the identity when already in that frame, does not depend on an intermediate conversion to ITRS, and raises only when the conversion lacks the data it needs.", "quantifier": "all source/target frame pairs, samples, with and without location", "why_tests_cant": "the composition of conversions for every pair and value", "anchors": ["celest/coordinates/coordinate.py:Coordinate.convert_to"]}
{"id": "C57", "title": "Coordinate containers have consistent lengths", "statement": "Every accepted position series has equally many samples in each component and in time.", "quantifier": "all component lengths", "why_tests_cant": "quantifies over all length combinations", "anchors": ["celest/coordinates/frames/base_positions.py:Position2d.__init__", "celest/coordinates/frames/base_positions.py:Position3d.__init__"]}
{"id": "C58", "title": "Ground locations are on the globe", "statement": "Every GroundLocation that can be constructed has latitude in [-90, 90] degrees and longitude in [-180, 180] degrees.", "quantifier": "all arguments and units", "why_tests_cant": "quantifies over units and values", "anchors": ["celest/coordinates/ground_location.py:GroundLocation.__init__"]}
{"id": "C59", "title": "Saved text files contain every row of the data", "statement": "A saved text file lists the title, the parameters, a column header and one line per data row in order, each line containing the entries of that row in column order.", "quantifier": "all titles, parameters, column lists and data", "why_tests_cant": "unbounded tables", "anchors": ["celest/file_save.py:TextFileWriter.save"]}
{"id": "C60", "title": "Columns of saved tables are aligned", "statement": "All rows of a saved table place each column at the same offset.", "quantifier": "all data", "why_tests_cant": "alignment fails only for particular magnitudes and signs", "anchors": ["celest/file_save.py:TextFileWriter"]}
{"id": "C61", "title": "Saving is atomic with respect to failure", "statement": "A save that raises leaves a previously existing file of that name unchanged.", "quantifier": "all data and all points of failure", "why_tests_cant": "crash point quantification", "anchors": ["celest/file_save.py:TextFileWriter.save", "celest/encounter/window_handling.py:WindowCollection.save_text_file"]}
{"id": "C62", "title": "File names end in .txt exactly once", "statement": "Whatever name is given, the file written has the extension .txt, and giving the name with or without the extension writes the same file.", "quantifier": "all file names", "why_tests_cant": "all strings", "anchors": ["celest/file_save.py:TextFileWriter"]}
{"id": "C63", "title": "Sexagesimal strings denote the angle", "statement": "The degrees-minutes-seconds (hours-minutes-seconds) rendering denotes the original angle: minutes and seconds lie in [0, 60) and the parts sum to the angle.", "quantifier": "all angles including negative ones", "why_tests_cant": "a continuum of angles, sign handling", "anchors": ["celest/angle_strings.py"]}
{"id": "C64", "title": "Array quantities convert element by element", "statement": "Converting a quantity that holds an array gives the array of the converted elements, for integer and float arrays alike.", "quantifier": "all arrays and all units of equal dimension", "why_tests_cant": "depends on dtype and on all unit pairs", "anchors": ["celest/units/quantity.py:Quantity.convert_to"]}
{"id": "C65", "title": "The recorded window index names the window used", "statement": "After any search, the window index recorded with a scheduled request names, in the request's list of visible windows, the window that contains the scheduled observation.", "quantifier": "all request lists, operators and histories", "why_tests_cant": "another operator may reorder the list after the index was recorded, so it depends on the history", "anchors": ["celest/schedule/insertion_operators.py", "celest/schedule/request_handler.py:RequestHandler.schedule_request", "celest/schedule/insertion_operators.py:minimum_conflict_insertion"]}
{"id": "C66", "title": "Random removal can remove any scheduled request", "statement": "For every scheduled request there is an outcome of the random draws in which random removal unschedules it.", "quantifier": "all request lists, all numbers to remove, all random draws", "why_tests_cant": "reachability over all random outcomes; a test sees only one outcome", "anchors": ["celest/schedule/removal_operators.py:random_removal"]}
{"id": "C67", "title": "Insertion is exhaustive", "statement": "After an insertion operator with a budget covering every request, and after building the initial schedule, no unscheduled request still has a visible window whose proposed start fits and is free.", "quantifier": "all lists of requests of positive duration, windows, look angles and existing schedules", "why_tests_cant": "a maximality claim about the final state for every input", "anchors": ["celest/schedule/insertion_operators.py", "celest/schedule/scheduling_utils.py:initialize_solution"]}
{"id": "C68", "title": "Insertion serves the most important request first", "statement": "Greedy insertion and the initial schedule consider requests in decreasing priority (minimum opportunity insertion: in increasing number of visible windows), so an unserved request is only ever blocked by an earlier-ranked one or by what was scheduled before.", "quantifier": "all lists of requests of positive duration and existing schedules", "why_tests_cant": "quantifies over all priority patterns and all conflicts", "anchors": ["celest/schedule/insertion_operators.py:greedy_insertion", "celest/schedule/insertion_operators.py:minimum_opportunity_insertion", "celest/schedule/scheduling_utils.py:initialize_solution"]}
{"id": "C69", "title": "A generated schedule can be saved", "statement": "The collection of windows returned by Scheduler.generate can be written to a text file listing start time, duration, location and attitude of each scheduled observation.", "quantifier": "all histories of requests and generate calls, all outcomes of the search", "why_tests_cant": "quantifies over all schedules generate can return", "anchors": ["celest/schedule/scheduler.py:Scheduler._generate_window_handler_from_request_list", "celest/encounter/window_handling.py:WindowCollection.save_text_file"]}
{"id": "C70", "title": "Elevation, look angle and distance describe one triangle", "statement": "For a satellite and a ground station, elevation at the station, look angle at the satellite and the central angle add up to 90 degrees, and elevation, look angle, distance and radii obey the sine rule; elevation is positive exactly when the satellite is above the station's (geocentric) horizon plane.", "quantifier": "all satellite positions and all ground stations of non-negative height, apart from the satellite being at the station or at the centre of the Earth", "why_tests_cant": "a relation between three separately computed functions over a continuum of positions", "anchors": ["celest/coordinates/transforms.py:_elevation", "celest/satellite.py:Satellite.look_angle", "celest/satellite.py:Satellite.distance"]}
{"id": "C71", "title": "A satellite is the same whichever frame it is given in", "statement": "A Satellite accepts GCRS or ITRS positions only, and altitude, distance and look angle do not depend on which of the two the same motion is given in.", "quantifier": "all positions, velocities, times and ground locations", "why_tests_cant": "two construction routes over a continuum of positions and instants", "anchors": ["celest/satellite.py:Satellite"]}
{"id": "C72", "title": "Position and velocity of a satellite refer to the same instants", "statement": "A Satellite whose position and velocity have different times is rejected; the attitude of sample i uses position and velocity of the same instant.", "quantifier": "all pairs of position and velocity objects", "why_tests_cant": "requires all combinations of sample times", "anchors": ["celest/satellite.py:Satellite.__init__", "celest/satellite.py:Satellite.attitude"]}
{"id": "C73", "title": "Local sidereal time is Greenwich sidereal time plus longitude", "statement": "For every instant and longitude the local mean (apparent) sidereal time equals the Greenwich mean (apparent) sidereal time plus the longitude in hours, modulo 24 hours.", "quantifier": "all instants and longitudes", "why_tests_cant": "an identity between functions on a continuum of instants and longitudes", "anchors": ["celest/time.py:Time.lmst", "celest/time.py:Time.last", "celest/time.py:Time.gmst"]}
{"id": "C74", "title": "Every satellite can be saved", "statement": "Satellite.save_text_file writes time, GCRS and ITRS coordinates of every sample for every satellite that can be constructed.", "quantifier": "all satellites, with or without a velocity", "why_tests_cant": "quantifies over all satellites", "anchors": ["celest/satellite.py:Satellite.save_text_file"]}
{"id": "C75", "title": "The altitude computation ends", "statement": "Satellite.altitude and the conversion to WGS84 return, with one altitude for each sample, for every array of positions that are off the polar axis and not deep inside the Earth.", "quantifier": "all arrays of positions of any length, at least 6000 km from the centre of the Earth and off the polar axis", "why_tests_cant": "termination of an unbounded loop over a continuum of inputs", "anchors": ["celest/coordinates/transforms.py:_altitude", "celest/satellite.py:Satellite.altitude"]}
{"id": "C76", "title": "The altitude of a sample does not depend on its companions", "statement": "The altitude reported for a position is the same whichever other positions are in the same array and whatever their order.", "quantifier": "all arrays of positions", "why_tests_cant": "quantifies over all pairs of arrays sharing a position", "anchors": ["celest/coordinates/transforms.py:_altitude", "celest/satellite.py:Satellite.altitude"]}
{"id": "C77", "title": "A stricter visibility condition only shrinks windows", "statement": "Raising the elevation threshold, or asking for day or night instead of any lighting, yields windows each of which lies within a window of the looser condition.", "quantifier": "all satellites, locations and sample times, all pairs of thresholds and lighting conditions", "why_tests_cant": "a relation between two runs over arbitrary elevation series", "anchors": ["celest/encounter/window_generator.py:generate_vtws"]}
{"id": "C78", "title": "Day and night windows are separate", "statement": "Windows generated for daylight never overlap windows generated for night, and every sample of such a window has the requested lighting.", "quantifier": "all satellites, locations, sample times and thresholds", "why_tests_cant": "a relation between two runs over arbitrary elevation series", "anchors": ["celest/encounter/window_generator.py:generate_vtws", "celest/encounter/window_generator.py:_lighting_constraint_indices"]}
{"id": "C79", "title": "Windows cover exactly the visible samples", "statement": "Every sample after the rise time of a generated window up to its set time satisfies the visibility condition, and every sample satisfying it lies in a generated window.", "quantifier": "all satellites, locations, sample times, thresholds and lighting conditions", "why_tests_cant": "a set equality over arbitrary elevation series", "anchors": ["celest/encounter/window_generator.py:generate_vtws"]}
{"id": "C80", "title": "Generating again is unaffected by earlier generations", "statement": "With no new requests in between, a call of generate returns what it would have returned had the earlier calls not been made, also if some of them failed.", "quantifier": "all histories of requests and generate calls, all random draws", "why_tests_cant": "quantifies over histories and over hidden state left behind", "anchors": ["celest/schedule/scheduler.py:Scheduler.generate"]}
{"id": "C81", "title": "Planning more requests keeps planned observations", "statement": "Adding requests and generating again keeps every observation that the previous generation had planned.", "quantifier": "all histories, all added requests, all random draws", "why_tests_cant": "a relation between two runs for every history", "anchors": ["celest/schedule/scheduler.py:Scheduler.generate", "celest/schedule/scheduling_utils.py:initialize_solution"]}
{"id": "C82", "title": "Nutation is a small bounded correction", "statement": "At every instant nutation_components stays within 18.96 (longitude) and 9.96 (obliquity) arcseconds, so apparent and mean obliquity differ by less than 10 arcseconds, and nutation_angles lie in [0, 360) degrees.", "quantifier": "all instants", "why_tests_cant": "a bound over a continuum of instants", "anchors": ["celest/coordinates/astronomical_quantities.py:nutation_components", "celest/coordinates/astronomical_quantities.py:nutation_angles", "celest/coordinates/astronomical_quantities.py:apparent_obliquity"]}
{"id": "C83", "title": "True and mean solar time stay close", "statement": "At every longitude true and mean solar time differ by at most 19 minutes from 1900 to 2100, and by at most 24 minutes during the documented 10000 years on either side of J2000, where the obliquity stays between 21.4 and 25.5 degrees.", "quantifier": "all instants within 10000 years of J2000, all longitudes", "why_tests_cant": "a bound over a continuum of instants and longitudes", "anchors": ["celest/time.py:Time.true_solar_time", "celest/time.py:Time.mean_solar_time", "celest/coordinates/astronomical_quantities.py:equation_of_time", "celest/coordinates/astronomical_quantities.py:mean_obliquity"]}
{"id": "C84", "title": "The Sun's right ascension is that of its ecliptic longitude", "statement": "sun_right_ascension lies in [0, 2 pi) and is the direction in the equator of the point of the ecliptic at the Sun's true longitude (same quadrant), and from 1900 to 2100 it is within 2.64 degrees of that longitude, which is within 1.94 degrees of the mean longitude.", "quantifier": "all instants within 10000 years of J2000 (bounds: 1900 to 2100)", "why_tests_cant": "quadrants and bounds over a continuum of instants", "anchors": ["celest/coordinates/astronomical_quantities.py:sun_right_ascension"]}
{"id": "C85", "title": "Sidereal time is Earth rotation plus precession", "statement": "From 1900 to 2100 Greenwich mean sidereal time minus the Earth rotation angle equals the accumulated precession in right ascension (zeta + z) to within 2.2 arcseconds, modulo a turn.", "quantifier": "all instants from 1900 to 2100", "why_tests_cant": "a relation between four separately coded series over a continuum of instants", "anchors": ["celest/time.py:Time.gmst", "celest/coordinates/astronomical_quantities.py:earth_rotation_angle", "celest/coordinates/astronomical_quantities.py:conventional_precession_angles"]}
{"id": "C86", "title": "Precession is the standard rotation sequence and vanishes at J2000", "statement": "precession_matrix is R3(-z) R2(theta) R3(-zeta) for the precession angles of the instant, hence the identity (up to the tabulated constants) at J2000.", "quantifier": "all instants", "why_tests_cant": "a matrix identity over a continuum of instants", "anchors": ["celest/coordinates/nutation_precession_matrices.py:precession_matrix"]}
{"id": "C87", "title": "Nutation keeps the ecliptic", "statement": "nutation_matrix takes the pole of the ecliptic of the mean obliquity to the pole of the ecliptic of the true obliquity, so the equinox moves along the ecliptic.", "quantifier": "all instants", "why_tests_cant": "a geometric identity over a continuum of instants", "anchors": ["celest/coordinates/nutation_precession_matrices.py:nutation_matrix"]}
{"id": "C88", "title": "Generated windows are the passes of inertial geometry", "statement": "For a satellite given by GCRS positions in any length unit and a threshold of 0 to 90 degrees, at every sample after a generated window's rise time up to its set time the direction from the station to the satellite is within 90 degrees minus the threshold of the station's zenith, and the Sun is above (day) or below (night) the station's horizon plane, all measured in the inertial frame; conversely, if the first sample does not qualify, every qualifying sample lies in a window. The windows do not depend on the unit, nor on giving the same positions in the ITRS frame.", "quantifier": "all satellites, stations, sampling times, thresholds, lighting conditions and solar ephemerides", "why_tests_cant": "an equivalence between a pipeline of conversions and geometry for every orbit and station", "anchors": ["celest/encounter/window_generator.py:generate_vtws", "celest/coordinates/coordinate.py:Coordinate.convert_to", "celest/coordinates/transforms.py:_itrs_to_azel", "celest/satellite.py:Satellite.__init__"]}
{"id": "C89", "title": "User-defined units work like the package's own", "statement": "A unit defined by a user as a multiple of another unit converts to and from every unit of the same dimension with the defined factor, alone and inside products, quotients and powers; a unit defined without a base unit is at least convertible to itself.", "quantifier": "all names, factors, base units, target units, values and unit expressions", "why_tests_cant": "user definitions are unbounded", "anchors": ["celest/units/core.py:Unit", "celest/units/core.py:CompoundUnit", "celest/units/display.py:get_dimension_string", "celest/units/quantity.py:Quantity.convert_to"]}
{"id": "C90", "title": "Defining units never changes an existing name", "statement": "Over any sequence of unit definitions in a name space, a name that is bound keeps its meaning, and a new name means the first unit defined under it.", "quantifier": "all name spaces and sequences of definitions", "why_tests_cant": "a history property over unbounded sequences", "anchors": ["celest/units/core.py:NamedUnit._insert_into_namespace", "celest/units/utils.py:setup_unit"]}
{"id": "C91", "title": "Units have their defined sizes", "statement": "Conversions between the package's units of length, time and angle follow the definitions of the units (international inch, foot, yard and mile; 60 arcseconds in an arcminute; 86400 seconds in a day; 180/pi degrees in a radian) for every value.", "quantifier": "all values, all pairs of units of one dimension", "why_tests_cant": "must hold for every value", "anchors": ["celest/units/unit_initialization.py", "celest/units/quantity.py:Quantity.to"]}
{"id": "C92", "title": "Saved positions read back", "statement": "save_text_file of any position object (GCRS, ITRS, LVLH, WGS84, AzEl, Attitude) that could be constructed writes a file from which every time and coordinate reads back to 15 decimals, in order, under its label and unit, with the location where there is one.", "quantifier": "all position objects, units, numbers of samples, file names and file system states", "why_tests_cant": "unbounded tables", "anchors": ["celest/coordinates/frames/gcrs.py:GCRS.save_text_file", "celest/coordinates/frames/itrs.py:ITRS.save_text_file", "celest/coordinates/frames/lvlh.py:LVLH.save_text_file", "celest/coordinates/frames/wgs84.py:WGS84.save_text_file", "celest/coordinates/frames/azel.py:AzEl.save_text_file", "celest/coordinates/frames/attitude.py:Attitude.save_text_file", "celest/coordinates/frames/base_positions.py:Position3d"]}
{"id": "C93", "title": "to_numpy keeps samples and coordinates in order", "statement": "to_numpy of any position object with a unit of the right dimension returns one row per sample, in order, holding the converted coordinates in order.", "quantifier": "all position objects, units and numbers of samples", "why_tests_cant": "unbounded arrays, all pairs of units", "anchors": ["celest/coordinates/frames/base_positions.py:Position2d.to_numpy", "celest/coordinates/frames/base_positions.py:Position3d.to_numpy"]}
{"id": "C94", "title": "The representation of a ground location identifies it", "statement": "Two ground locations with the same repr have the same latitude, longitude, height and units.", "quantifier": "all pairs of ground locations", "why_tests_cant": "injectivity over all inputs", "anchors": ["celest/coordinates/ground_location.py:GroundLocation.__repr__"]}
{"id": "C95", "title": "Saved window collections read back", "statement": "After any history of a window collection (additions, some refused, loops, loops left early), if it holds visible time windows then save_text_file succeeds and the file shows the rise and set time of each window added, in order of addition, under their labels and unit, and nothing else. The same holds for the collection generate_vtws returns.", "quantifier": "all histories of collections, all windows, file names and file system states", "why_tests_cant": "unbounded histories and tables", "anchors": ["celest/encounter/window_handling.py:WindowCollection.save_text_file", "celest/encounter/window_generator.py:generate_vtws", "celest/file_save.py:TextFileWriter"]}
{"id": "C96", "title": "A saved satellite reads back", "statement": "save_text_file of a satellite writes a file from which the times, positions and velocities in both frames read back to 15 decimals, in order, each component under its own label and unit; for inertial input the inertial columns are the numbers given.", "quantifier": "all satellites, units, numbers of samples, file names and file system states", "why_tests_cant": "unbounded tables", "anchors": ["celest/satellite.py:Satellite.save_text_file", "celest/satellite.py:Satellite.__init__", "celest/file_save.py:TextFileWriter"]}
{"id": "C97", "title": "Operations on quantities change nothing and share nothing", "statement": "Over any program of constructions, arithmetic, conversions and comparisons (some of which raise), every quantity keeps its value and unit; and the result of an operation, also of a conversion to the unit a quantity already has, keeps its value whatever is assigned later to arrays that existed before.", "quantifier": "all programs, arrays, units, and continuations of them", "why_tests_cant": "aliasing over unbounded histories", "anchors": ["celest/units/quantity.py:Quantity.convert_to", "celest/units/quantity.py:Quantity.__add__", "celest/units/quantity.py:Quantity.__mul__", "celest/units/quantity.py:Quantity.__truediv__", "celest/units/quantity.py:Quantity.__neg__"]}
{"id": "C98", "title": "A quantity keeps its value when arrays change", "statement": "Assigning to elements of an array does not change the value of any quantity.", "quantifier": "all programs and assignments", "why_tests_cant": "aliasing over unbounded histories", "anchors": ["celest/units/quantity.py:Quantity.__init__", "celest/units/quantity.py:Quantity.data"]}
{"id": "C99", "title": "Arithmetic on arrays is element-wise", "statement": "Arithmetic, conversion and comparison of quantities holding arrays give, element by element, what the same operation on numbers gives, with a number or an array of one element used for all elements; operations on arrays of other lengths raise.", "quantifier": "all arrays, numbers, units and lengths", "why_tests_cant": "unbounded arrays, all units", "anchors": ["celest/units/quantity.py:Quantity"]}
{"id": "C100", "title": "Floating-point schedules are feasible up to rounding", "statement": "In floating-point arithmetic too, every window generate() returns serves a distinct submitted request, starts after its visibility window rises, and ends within that window and by the deadline, with the minimum image quality and at the requested look angle, up to the rounding error of a few operations.", "quantifier": "all rounding functions with bounded relative error, histories, requests and random draws", "why_tests_cant": "rounding accumulates over all inputs and search histories", "anchors": ["celest/schedule/scheduler.py:Scheduler.generate", "celest/schedule/insertion_operators.py", "celest/schedule/scheduling_utils.py"]}
{"id": "C101", "title": "Floating-point schedules do not overlap by more than rounding", "statement": "In floating-point arithmetic, no two windows generate() returns overlap by more than the rounding error of a few operations.", "quantifier": "all rounding functions with bounded relative error, requests and random draws", "why_tests_cant": "rounding accumulates over all inputs and search histories", "anchors": ["celest/schedule/scheduler.py:Scheduler.generate", "celest/schedule/insertion_operators.py", "celest/schedule/request_handler.py"]}
{"id": "C102", "title": "Conversions and sums are accurate in floating-point arithmetic", "statement": "In floating-point arithmetic a conversion raises exactly when it does in exact arithmetic, gives the same unit, and a number within a few roundings of the exact one; there and back returns the number within a few roundings; a larger number never converts to a smaller one; sums of non-negative quantities are within a few roundings.", "quantifier": "all rounding functions with bounded relative error, units built from named units, and numbers", "why_tests_cant": "all floats and all units; a sample of values cannot bound the error", "anchors": ["celest/units/quantity.py:Quantity.convert_to", "celest/units/quantity.py:Quantity.to", "celest/units/quantity.py:Quantity.__add__", "celest/units/unit_initialization.py"]}
{"id": "C103", "title": "Comparisons agree with each other in floating-point arithmetic", "statement": "In floating-point arithmetic, for any two quantities of one dimension exactly one of q < r, q == r, q > r is true; q == r exactly if r == q; q < r exactly if r > q.", "quantifier": "all rounding functions with bounded relative error, units built from named units, and numbers", "why_tests_cant": "fails only for rare pairs of floats", "anchors": ["celest/units/quantity.py:Quantity.__eq__", "celest/units/quantity.py:Quantity.__lt__", "celest/units/quantity.py:Quantity.__gt__", "celest/units/quantity.py:Quantity.__le__", "celest/units/quantity.py:Quantity.__ge__"]}
{"id": "C104", "title": "Positions are independent of each other", "statement": "Converting a position or building a satellite changes no object or array the program already has, and shows what the conversion of the values shows. Afterwards assigning to elements of the arrays of the new object never changes an older object, and assigning to older arrays never changes the new object; nor does assigning to the arrays a position object was made from change it.", "quantifier": "all programs (histories of making arrays, objects, conversions, taking arrays out, and assigning to elements)", "why_tests_cant": "sharing shows only after a later assignment, in any of unboundedly many histories", "anchors": ["celest/coordinates/coordinate.py:Coordinate.convert_to", "celest/coordinates/transforms.py", "celest/coordinates/frames/base_positions.py:Position3d", "celest/satellite.py:Satellite.__init__"]}
{"id": "C105", "title": "A Time object does not change", "statement": "Time(julian, offset) shows the given dates plus the offset for ever, whatever the program does afterwards, including assigning to the array it was made from; a number gives one date, len() is the number of dates, and data of more dimensions raise ValueError.", "quantifier": "all programs (histories as for C104)", "why_tests_cant": "sharing shows only after a later assignment, in any of unboundedly many histories", "anchors": ["celest/time.py:Time.__init__", "celest/time.py:Time.julian", "celest/time.py:Time.__len__"]}
{"id": "C106", "title": "Planned observations see their targets", "statement": "After any history of add_request and generate calls on a Scheduler, including calls that raised, the windows generate() returns are matched one-to-one with distinct requests that add_request accepted; each is of the requested location and duration, ends before the deadline, and at every sample of the satellite's positions during the window the satellite is above the visibility threshold as seen from the location and the requested lighting condition holds; it lies in one pass, in which its quality is at least the one requested, and it starts at the sample where the pitch passes the requested look angle, or half its length after the middle of the pass if no look angle is requested.", "quantifier": "all satellites, ground locations, histories of calls, arguments of generate and random draws", "why_tests_cant": "holds of the composition of window generation, scheduling and search, over all inputs and histories", "anchors": ["celest/schedule/scheduler.py:Scheduler.add_request", "celest/schedule/scheduler.py:Scheduler.generate", "celest/encounter/window_generator.py:generate_vtws"]}
{"id": "C107", "title": "Refused requests have no effect", "statement": "add_request raises exactly if the satellite has no velocity, the threshold or the lighting condition is invalid, or the location is never visible under that condition, and with an exception that tells these apart; a request that raised leaves the scheduler as if it had not been made.", "quantifier": "all schedulers, requests and histories of calls", "why_tests_cant": "the effect of a half-finished call shows only in later calls", "anchors": ["celest/schedule/scheduler.py:Scheduler.add_request", "celest/encounter/window_generator.py:generate_vtws", "celest/schedule/request_handler.py:RequestHandler.add_request"]}
{"id": "C108", "title": "Planned observations see their targets in floating-point arithmetic", "statement": "C106 with Python floats: for sample times up to the year 3501 more than a nanosecond apart and requests of at most a day, each window generate() returns ends less than a nanosecond after the deadline and at every sample during it the location is visible under the requested condition; in passes of at least a minute its quality is at most a ten-thousandth below the one requested, and it starts at the requested look angle, or within 0.2 milliseconds of half its length after the middle of the pass.", "quantifier": "all satellites, ground locations, histories of calls, arguments of generate and random draws", "why_tests_cant": "rounding could put a sample outside the visible pass for rare floats only", "anchors": ["celest/schedule/scheduler.py:Scheduler.add_request", "celest/schedule/scheduler.py:Scheduler.generate", "celest/encounter/window_generator.py:generate_vtws"]}
{"id": "C109", "title": "Calendar dates in floating-point arithmetic", "statement": "For every array of Python floats that are Julian dates from the year 1029 to the year 6770, from_julian and day_of_year return exactly the year, month, decimal day and day of the year that exact arithmetic gives; Time.datetime returns the same dates, with a time of the day within 0.51 microseconds, raises exactly when exact arithmetic raises, and never rolls over to the next day.", "quantifier": "all arrays of floats in that range", "why_tests_cant": "truncation after rounding could go wrong for rare floats next to a day, month or year boundary", "anchors": ["celest/coordinates/astronomical_quantities.py:from_julian", "celest/coordinates/astronomical_quantities.py:day_of_year", "celest/time.py:Time.datetime"]}
{"id": "C110", "title": "Sun, moon and node run with their observed periods", "statement": "From 1900 to 2100 each angle of nutation_angles runs uniformly, to 0.02 degrees, with its observed period from its observed epoch (synodic, anomalistic and draconic month, anomalistic year, 18.6 years of the node); the mean longitudes run with the tropical year and month and fit the other angles to 0.01 degrees; the precession angles move the pole by 20.04 arcseconds a year, in keeping with the obliquity.", "quantifier": "all instants from 1900 to 2100", "why_tests_cant": "a relation between separately coded series over a continuum of instants", "anchors": ["celest/coordinates/astronomical_quantities.py:nutation_angles", "celest/coordinates/astronomical_quantities.py:nutation_components", "celest/coordinates/astronomical_quantities.py:conventional_precession_angles"]}
{"id": "C111", "title": "The sun follows Kepler's laws", "statement": "From 1900 to 2100 the place of the sun in its orbit that sun_right_ascension uses is within 0.002 degrees of the true anomaly of Kepler's equation for the mean anomaly and the eccentricity of the instant, and equation_of_time is the mean longitude minus the right ascension of the sun, to within 6 seconds of time.", "quantifier": "all instants from 1900 to 2100", "why_tests_cant": "a relation between separately coded series and a transcendental equation over a continuum of instants", "anchors": ["celest/coordinates/astronomical_quantities.py:sun_right_ascension", "celest/coordinates/astronomical_quantities.py:equation_of_time", "celest/coordinates/astronomical_quantities.py:get_earth_eccentricity"]}
{"id": "C112", "title": "Solar time agrees with sidereal time", "statement": "From 1900 to 2100, at every longitude, true_hour_angle equals Greenwich mean sidereal time plus longitude minus the right ascension of the sun, to within 8 seconds, modulo 24 hours.", "quantifier": "all instants from 1900 to 2100 and all longitudes", "why_tests_cant": "a relation between separately coded functions over a continuum of instants", "anchors": ["celest/time.py:Time.true_hour_angle", "celest/time.py:Time.gmst", "celest/coordinates/astronomical_quantities.py:sun_right_ascension"]}
{"id": "C113", "title": "Windows and observations hold between the samples", "statement": "For a satellite of bounded speed over a station it does not come closer to than some range, the elevation changes by at most speed/range radians a day; hence at every instant of a window from generate_vtws and of an observation from Scheduler.generate, sampled or not, the satellite is above the mask (and the sun on the requested side of the horizon) but for what it can cover between two samples, and if the first sample is not visible every pass that exceeds the mask by that much is found.", "quantifier": "all paths of bounded speed, ground locations, sample times, thresholds, instants and histories of calls", "why_tests_cant": "windows are computed from samples only, a claim about the continuum of instants between them cannot be sampled", "anchors": ["celest/encounter/window_generator.py:generate_vtws", "celest/schedule/scheduler.py:Scheduler.generate", "celest/coordinates/transforms.py:_elevation"]}
{"id": "C114", "title": "Rotations between frames in floating-point arithmetic", "statement": "In floating-point arithmetic of relative precision u, converting GCRS to ITRS positions at one instant is one and the same rotation for all positions to within 241u of their distance from the Earth's centre, and converting back is its inverse to within 4600u; distances between simultaneous positions are kept to that precision, a round trip returns every position to within 5000u of its distance (0.03 mm within 50 000 km in double precision), and the result differs from the exact conversion by at most 241u plus the sum of the errors of the ten angles.", "quantifier": "all positions, all instants, all values of the angles, every machine arithmetic with the stated precision", "why_tests_cant": "errors of rounding compound differently for every input; the bound is over a continuum", "anchors": ["celest/coordinates/transforms.py:_gcrs_to_itrs", "celest/coordinates/transforms.py:_itrs_to_gcrs", "celest/coordinates/nutation_precession_matrices.py:bias_matrix", "celest/coordinates/nutation_precession_matrices.py:precession_matrix", "celest/coordinates/nutation_precession_matrices.py:nutation_matrix"]}
{"id": "C115", "title": "Elevations and windows in floating-point arithmetic", "statement": "In double precision the elevation of any position other than the station's own is a number within a hundred-thousandth of a degree of the angle of Euclidean geometry, and within some 4e-13 degrees divided by its cosine; so every sample in a generated window is visible, and every visible sample is in a window, up to a hundred-thousandth of a degree.", "quantifier": "all positions, stations, sample times, thresholds and lighting conditions, every machine arithmetic with the stated precision", "why_tests_cant": "rounding matters only for rare directions, near the zenith or the mask", "anchors": ["celest/coordinates/transforms.py:_elevation", "celest/coordinates/transforms.py:_get_ang", "celest/encounter/window_generator.py:generate_vtws"]}
{"id": "C116", "title": "The complete conversion between GCRS and ITRS in floating-point arithmetic", "statement": "From 1900 to 2100, with the dates, unit conversions, precession, nutation and Earth rotation angles and the rotations all computed in floating-point arithmetic of relative precision u, a converted position differs from the exact one by at most 930 000 u times its distance from the Earth's centre (935 000 u for the way back): in double precision by less than six millimetres within 50 000 km.", "quantifier": "all positions and all instants from 1900 to 2100, every machine arithmetic with the stated precision", "why_tests_cant": "errors of rounding compound differently for every instant and position; the bound is over a continuum", "anchors": ["celest/coordinates/transforms.py:_gcrs_to_itrs", "celest/coordinates/transforms.py:_itrs_to_gcrs", "celest/coordinates/astronomical_quantities.py:earth_rotation_angle", "celest/coordinates/astronomical_quantities.py:nutation_components", "celest/coordinates/astronomical_quantities.py:mean_obliquity", "celest/coordinates/nutation_precession_matrices.py:nutation_matrix"]}
{"id": "C117", "title": "Windows in floating-point arithmetic, from inertial positions to rise and set times", "statement": "From 1900 to 2100, with everything computed in double precision (dates, angles, rotations, the Earth-fixed coordinates of the station from its latitude, longitude and height, and elevations), the elevation of a satellite or of the Sun at least 100 km from the station is within 0.000015 degrees of the elevation of inertial geometry, and every sample in a window from generate_vtws is visible, and every visible sample is in a window, up to 0.000015 degrees.", "quantifier": "all inertial positions, stations within 10 km of the ellipsoid, sample times from 1900 to 2100, thresholds and lighting conditions, every machine arithmetic with the stated precision", "why_tests_cant": "errors of rounding compound differently for every input; the bound is over a continuum", "anchors": ["celest/encounter/window_generator.py:generate_vtws", "celest/coordinates/ground_location.py:GroundLocation", "celest/coordinates/transforms.py:_gcrs_to_itrs", "celest/coordinates/transforms.py:_elevation", "celest/coordinates/astronomical_quantities.py:radius_of_curvature_in_prime_vertical"]}
{"id": "C118", "title": "Planning in floating-point arithmetic, from inertial positions to observations", "statement": "With everything computed in double precision, from the inertial positions of the satellite and the geodetic coordinates of the sites to the schedule: after any history of add_request and generate calls, every observation generate returns is of the location and duration of a request made and ends less than a nanosecond after its deadline; at every position sample during it the satellite is above the mask of the observed site and the Sun on the requested side of its horizon, in inertial geometry, up to 0.000015 degrees; and at every other instant of it up to that and what they can move between two samples.", "quantifier": "all satellites at least 100 km from the sites and at most 500 times as far from the centre of the Earth as from them, sites within 10 km of the ellipsoid, sample times from 1900 to 2100, histories of calls with deadlines, durations and pointing costs in the ranges of C108, arguments and random draws, every machine arithmetic with the stated precision", "why_tests_cant": "the claim composes every stage of the computation, each with its own rounding errors, over a continuum of instants", "anchors": ["celest/schedule/scheduler.py:Scheduler.add_request", "celest/schedule/scheduler.py:Scheduler.generate", "celest/encounter/window_generator.py:generate_vtws", "celest/coordinates/transforms.py:_gcrs_to_itrs", "celest/coordinates/transforms.py:_elevation"]}
{"id": "C119", "title": "The windows are the passes, one for one", "statement": "If the satellite is in sight of a location, with the Sun on the requested side of the horizon, during some intervals that each take longer than the sampling interval and are at least that far apart, generate_vtws returns exactly one window for each of them, in order; each begins at most a sampling interval before the satellite rises, ends at most a sampling interval before it sets, and is as long as the pass to a sampling interval. Whatever the passes are like, in the sampling intervals that begin at the rise and set times of a window the satellite crosses the mask or the Sun the horizon.", "quantifier": "all paths, ground locations, sample times, thresholds, lighting conditions and passes that lie within the sampled time (no pass is under way at the first sample); for the crossings all paths of bounded speed", "why_tests_cant": "windows are computed from samples; rise and set of the continuous path, and the number of passes, are not observable in the samples", "anchors": ["celest/encounter/window_generator.py:generate_vtws", "celest/coordinates/transforms.py:_elevation"]}
{"id": "C120", "title": "Distances and look angles from inertial positions in double precision", "statement": "`Satellite.distance` and `Satellite.look_angle`, computed in double precision for a satellite given by inertial (GCRS) positions and a ground location given by geodetic coordinates, are the distance and the off-nadir angle of inertial space: the distance to one part in 9\u00b710\u2079 of the satellite's distance from the centre of the Earth (below a centimetre up to 50 000 km), the angle to 0.000015 degrees, and every look angle is a number, zero for a satellite directly overhead.", "quantifier": "every instant between 1900 and 2100, every inertial position (for the angle at least 100 km from the location and at most 500 times further from the centre of the Earth than from the location), every location within 10 km of the ellipsoid, every machine whose operations are accurate to one unit roundoff", "why_tests_cant": "A test compares a handful of rows with reference values at a tolerance; it cannot bound the accumulated rounding of a chain of more than a hundred operations for every position, location and instant, nor find the positions at which the quotient under the arccosine exceeds one.", "anchors": ["celest/satellite.py:Satellite.distance", "celest/satellite.py:Satellite.look_angle", "celest/coordinates/transforms.py:_get_ang", "celest/coordinates/transforms.py:_gcrs_to_itrs", "celest/coordinates/ground_location.py:GroundLocation"]}
{"id": "C121", "title": "The altitude computation ends and is unharmed by rounding in double precision", "statement": "In double precision `Satellite.altitude` returns, with one altitude for each sample, after at most four passes of its loop however many samples there are; rounding moves no altitude by more than two millimetres from the value of exact arithmetic after as many passes, and every altitude returned is within 11.1 km of the height above the ellipsoid.", "quantifier": "all arrays of Earth-fixed positions of any length between 6000 and a million kilometres from the centre of the Earth and off the polar axis (by 250 m in a low orbit, 10 km in a geostationary one), every machine whose operations are accurate to one unit roundoff and whose mean is accurate to a tenth of the largest entry", "why_tests_cant": "The loop stops on a floating-point comparison; a test cannot show that for no array the rounded differences stay above the tolerance and the loop runs for ever, nor bound the rounding over a continuum of positions.", "anchors": ["celest/coordinates/transforms.py:_altitude", "celest/satellite.py:Satellite.altitude"]}
{"id": "C122", "title": "An interrupted save leaves the old file or the new one", "statement": "Whenever a save is interrupted (the process is killed, the file cannot be opened, the disk is full), the named file holds either its old content or the complete new text and all other files are untouched; a save that is not interrupted leaves the complete text, and saving again after any interruptions does too.", "quantifier": "every writer, every old content, every point at which save can be interrupted and every way in which its buffer can have reached the disk in portions", "why_tests_cant": "A test can interrupt a save at a few points; the claim is about every point between the system calls and every portion of the buffer that may have reached the disk by then.", "anchors": ["celest/file_save.py:TextFileWriter.save", "celest/file_save.py:_write_layer_to_file", "celest/file_save.py:_write_data_to_file"]}
{"id": "C123", "title": "Saves at the same time leave one of the files", "statement": "When several processes save to one file at the same time, the file holds the complete text of one of them when all are done.", "quantifier": "any number of processes, all writers, all interleavings of their steps and all portions in which their buffers reach the disk", "why_tests_cant": "The claim is about every interleaving; a test observes the few its machine happens to produce.", "anchors": ["celest/file_save.py:TextFileWriter.save"]}
{"id": "C124", "title": "Time scales in floating-point arithmetic", "statement": "Within a century of J2000 and for longitudes up to a full turn, double precision gives UT1, mean solar time and mean hour angle to a tenth of a nanosecond of the exact formulas, true solar time and true hour angle to ten nanoseconds, local sidereal times to a fifth of a microsecond and Greenwich sidereal times to ten microseconds, read on a 24-hour dial, and every result that is reduced lies between 0 (included) and 24 hours (excluded).", "quantifier": "every Julian date within 36525 days of 2451545, every longitude of at most 360 degrees in size, every machine whose operations have the unit roundoff of double precision; for the ranges, every date and longitude", "why_tests_cant": "Errors add up over dozens of roundings and depend on the date; the values that round up to 24 hours are too few to be met by chance.", "anchors": ["celest/time.py:Time.true_solar_time", "celest/time.py:Time.mean_solar_time", "celest/time.py:Time.true_hour_angle", "celest/time.py:Time.mean_hour_angle", "celest/time.py:Time.ut1", "celest/time.py:Time.gmst", "celest/time.py:Time.lmst", "celest/time.py:Time.gast", "celest/time.py:Time.last", "celest/coordinates/astronomical_quantities.py:equation_of_time", "celest/coordinates/astronomical_quantities.py:sun_right_ascension"]}
{"id": "C125", "title": "Units with fractional powers", "statement": "Units may be raised to fractional powers. A quantity in one such unit converts to another unit of the same dimension by the ratio of their sizes, and never to a unit of another dimension; with integer powers everything is as before. A power of a power and a product of powers of a unit convert to the unit with the product or sum of the exponents.", "quantifier": "every formula of named units, products, quotients, reciprocals and powers with integer or float exponents, every number; every rounding of the exponents", "why_tests_cant": "Whether two units are compatible is decided by comparing texts in which exponents appear; the pairs of formulas and exponents that compare unequal, or equal by accident, are unbounded.", "anchors": ["celest/units/core.py:BaseUnit.__pow__", "celest/units/core.py:CompoundUnit.__init__", "celest/units/core.py:CompoundUnit._expand_and_collect", "celest/units/display.py:generate_compound_unit_string", "celest/units/display.py:get_dimension_string", "celest/units/display.py:get_dimensions_from_unit", "celest/units/quantity.py:Quantity.convert_to", "celest/units/quantity.py:Quantity._get_unit_scale"]}
{"id": "C126", "title": "Attitudes in floating-point arithmetic", "statement": "In double precision the roll, pitch and yaw returned for a satellite and a ground target are numbers (no NaN), together within 1.6e-8 rad times (distance from the centre of the Earth / distance of the target) of the angles without rounding; turned by them, the camera looks past the target by at most 1.6e-8 of the satellite's distance from the centre (eleven centimetres in low orbit). Positions converted to the LVLH frame are within 141015 unit roundoffs of their length.", "quantifier": "every site with |height| up to 10 km, every instant, every position farther from the centre than the site and every velocity at least 30 degrees off the vertical; targets nearer than the centre, not nearer than 1/9000 of that, and within 78 degrees of nadir (every visible target of a satellite 150 km up or more); every arithmetic with relative error 2^-53", "why_tests_cant": "Rounding errors of some thousand operations, arcsines and a quotient of the target's direction add up differently for each of uncountably many inputs; tests compare a few rows with loose tolerances.", "anchors": ["celest/satellite.py:Satellite.attitude", "celest/coordinates/transforms.py:_gcrs_to_lvlh", "celest/coordinates/transforms.py:_itrs_to_gcrs", "celest/coordinates/transforms.py:_gcrs_to_lvlh_matrix"]}
{"id": "C127", "title": "Converting a position to geographic coordinates and back", "statement": "Converting an ITRS or GCRS position to WGS84 and the result back to the frame it came from returns the position.", "quantifier": "all arrays of positions off the polar axis and at least 6000 km from the centre of the Earth, any unit, any instants", "why_tests_cant": "a continuum of positions, and the altitude of one depends on all converted with it", "anchors": ["celest/coordinates/coordinate.py:Coordinate", "celest/coordinates/transforms.py:_itrs_to_wgs84", "celest/coordinates/transforms.py:_altitude", "celest/coordinates/transforms.py:_wgs84_to_itrs"]}
{"id": "C128", "title": "Geographic coordinates in double precision", "statement": "Computed in double precision, a WGS84 position in degrees and kilometres converts to the same ITRS position as without rounding to within 360 u (6400 km + height) and to the same GCRS position to within 940000 u (6400 km + height), u = 2^-53 (one part in nine thousand million). GCRS positions of satellites, for any number of instants, convert to WGS84: the call returns one sample per position, latitude and longitude point to the position to within one part in four thousand million of its distance, and all heights are, but for rounding, within 11 km of the height above the ellipsoid; but for rounding, they are either all the distance from the centre less the geometric mean of the axes or all within 1.01 km of the height above the ellipsoid. An ITRS position converted to WGS84 and back comes back, to within 0.1 mm, on its meridian, moved towards the equator, at least 42.69 sin(psi) cos(psi) km and at most 45 km away, psi its geocentric latitude.", "quantifier": "all arrays of positions between 6400 km and 999999 km of the centre of the Earth (6000 for ITRS) and not almost on the polar axis, all latitudes, longitudes and heights above -400 km, all instants between 1900 and 2100, any correctly accurate floating-point arithmetic", "why_tests_cant": "a continuum of positions and instants; rounding errors pass through series, rotations, an iteration and a stopping rule", "anchors": ["celest/coordinates/transforms.py:_gcrs_to_itrs", "celest/coordinates/transforms.py:_itrs_to_wgs84", "celest/coordinates/transforms.py:_altitude", "celest/coordinates/transforms.py:_wgs84_to_itrs", "celest/coordinates/transforms.py:_itrs_to_gcrs"]}
{"id": "C129", "title": "The text of a ground location", "statement": "str(location) shows the location: latitude first, then longitude, each in degrees, minutes and seconds with the letter of its hemisphere, then the height with its unit; read back, the angles are those of the location to half a hundredth of an arcsecond and the height to half a hundredth of its unit, so that locations with the same text are the same up to a hundredth of an arcsecond. In double precision.", "quantifier": "all latitudes, longitudes and heights that are doubles, any units", "why_tests_cant": "a failure needs a double whose products with 60 and 3600 round differently: some of the doubles next to whole numbers of arcminutes", "anchors": ["celest/angle_strings.py:_ISO6709_representation", "celest/angle_strings.py:_get_sexagesimal_string", "celest/coordinates/ground_location.py:GroundLocation.__str__"]}
{"id": "C130", "title": "Azimuths in double precision", "statement": "Computed in double precision from a satellite's ITRS position, the azimuth is within 5 millionths of a degree of the value the same formulae give without rounding, except that a satellite within 5 parts in a thousand million of its distance of the meridian plane of the station may be put on the wrong side of it (the result is then as close to 360 degrees less the value). It comes out as NaN only within that error of 0, 180 or 360 degrees. In particular a satellite due east on the horizon always gets an azimuth: 90 degrees to within the error from the northern hemisphere and 270 from the southern. From 1900 to 2100, computed from a GCRS position no further from the centre of the Earth than 50 times its distance, the azimuth is within 0.00007 degrees of the value without rounding, with the same exception within a hundred millionth of the distance of the meridian plane.", "quantifier": "all stations between 1 and 89 degrees north or south and up to 10 km above or below the ellipsoid, all satellite positions at least 100 km away with an elevation between -89 and 89 degrees, any correctly accurate floating-point arithmetic", "why_tests_cant": "a continuum of stations and positions; rounding errors pass through the radius, the tangent, a projection, a cross product whose sign decides the side, and an arccosine whose slope is unbounded", "anchors": ["celest/coordinates/transforms.py:_azimuth", "celest/coordinates/transforms.py:_get_ang", "celest/coordinates/ground_location.py:GroundLocation.radius", "celest/satellite.py:Satellite"]}
{"id": "C131", "title": "Velocities are the rates of change of positions", "statement": "If the velocities given to a Satellite are the rates of change of the positions given to it, then in either frame the velocities it stores and saves are the rates of change of the positions it stores and saves, and its attitude does not depend on the frame the motion is given in. In particular a target in the plane of the inertial motion needs no roll.", "quantifier": "all motions, instants within a thousand years of 2000, ground targets and units", "why_tests_cant": "a continuum of motions and instants; the property is about derivatives, which samples do not show", "anchors": ["celest/satellite.py:Satellite.__init__", "celest/satellite.py:Satellite.attitude", "celest/satellite.py:Satellite.save_text_file", "celest/coordinates/transforms.py:_gcrs_to_itrs", "celest/coordinates/transforms.py:_itrs_to_gcrs", "celest/coordinates/transforms.py:_gcrs_to_lvlh_matrix"]}
{"id": "C132", "title": "The text of a quantity says its value", "statement": "The text of a quantity (print, str), read as a number times powers of named units over powers of named units, says the value of the quantity. Quantities with the same text have the same value and convert alike.", "quantifier": "all quantities in all units formed from named units by products, quotients, inverses, powers and numeric multiples, and all numbers", "why_tests_cant": "infinitely many unit formulas and numbers; that a text has only one reading is a statement about all texts", "anchors": ["celest/units/quantity.py:Quantity.__str__", "celest/units/display.py:generate_compound_unit_string", "celest/units/display.py:_to_string", "celest/units/core.py:CompoundUnit.__init__"]}
{"id": "C133", "title": "Altitudes over the poles", "statement": "Satellite.altitude and the conversion to WGS84 also work for positions exactly on the polar axis: such a position gets its height above the ellipsoid, to the accuracy of other positions, and does not change the altitudes of the positions converted with it.", "quantifier": "all arrays of positions at least 6000 km from the centre of the Earth with one or more of them on the polar axis", "why_tests_cant": "a division by zero that only shows for exact zeros, and an effect that depends on all companions in arrays of any length", "anchors": ["celest/coordinates/transforms.py:_altitude", "celest/coordinates/transforms.py:_itrs_to_wgs84", "celest/satellite.py:Satellite.altitude"]}
{"id": "C134", "title": "GCRS to ITRS against the standard reduction", "statement": "Converting a GCRS position to ITRS (and back) is the standard reduction for the quantities celest itself computes: frame bias, precession, nutation about the ecliptic, and Greenwich apparent sidereal time, polar motion apart.", "quantifier": "all positions and all instants from 1900 to 2100", "why_tests_cant": "an agreement between two chains of rotations over a continuum of instants and positions; a test compares a few dates with a tolerance that hides the difference", "anchors": ["celest/coordinates/transforms.py:_gcrs_to_itrs", "celest/coordinates/transforms.py:_itrs_to_gcrs", "celest/coordinates/nutation_precession_matrices.py:precession_matrix", "celest/coordinates/nutation_precession_matrices.py:nutation_matrix", "celest/coordinates/astronomical_quantities.py:earth_rotation_angle"]}
{"id": "C135", "title": "The obliquity in the nutation matrix", "statement": "nutation_matrix turns by the mean obliquity and the apparent obliquity that mean_obliquity and apparent_obliquity return for the same instant.", "quantifier": "all instants from 1900 to 2100", "why_tests_cant": "an identity over a continuum of instants; the difference is too small for tolerances in tests", "anchors": ["celest/coordinates/nutation_precession_matrices.py:nutation_matrix", "celest/coordinates/astronomical_quantities.py:mean_obliquity", "celest/coordinates/astronomical_quantities.py:apparent_obliquity"]}
{"id": "C136", "title": "Directions seen from a station", "statement": "The azimuth and the elevation of a satellite are those of its direction from the station: elevation above the plane perpendicular to the normal of the ellipsoid, azimuth clockwise from the geographic north.", "quantifier": "all stations off the equator and the poles, all distances and all directions of the satellite", "why_tests_cant": "an agreement of angles over a continuum of stations and directions; tests compare a few values computed by the same formulas", "anchors": ["celest/coordinates/transforms.py:_azimuth", "celest/coordinates/transforms.py:_elevation", "celest/coordinates/transforms.py:_get_ang", "celest/coordinates/ground_location.py:GroundLocation.radius"]}
{"id": "C137", "title": "Windows and observations against the horizon", "statement": "At every sample in a window from generate_vtws, and during every observation from generate, the satellite is above the elevation mask as measured from the horizon of the station (the plane perpendicular to the normal of the ellipsoid) and the Sun on the requested side of that horizon; and every such sample is in a window.", "quantifier": "all inertial positions of the satellite and of the Sun, stations, sample times from 1900 to 2100, thresholds, lighting conditions, histories of calls and random draws; every machine arithmetic of double precision", "why_tests_cant": "a statement about every sample of every pass over every station; a test's tolerance hides a mask that is off by a fifth of a degree", "anchors": ["celest/encounter/window_generator.py:generate_vtws", "celest/coordinates/transforms.py:_elevation", "celest/schedule/scheduler.py:Scheduler.generate", "celest/coordinates/ground_location.py:GroundLocation.itrs_x"]}
{"id": "C138", "title": "Attitudes and look angles that are not numbers", "statement": "Satellite.attitude returns numbers for every state and target for which an attitude exists, and a request with a look angle is observed where the pitch passes the angle even if some attitudes of the series are NaN.", "quantifier": "all satellite states, targets, units and instants; all series of pitches with NaN at any samples, all windows, requests and schedules built so far", "why_tests_cant": "NaN arises only in degenerate states or from gaps in the data, which test data avoid; comparisons with NaN do not raise, they are silently false", "anchors": ["celest/satellite.py:Satellite.attitude", "celest/coordinates/transforms.py:_gcrs_to_lvlh_matrix", "celest/schedule/insertion_operators.py:_look_angle_time", "celest/schedule/insertion_operators.py:insert_first_n_requests"]}
{"id": "C139", "title": "The equation of the equinoxes is an angle", "statement": "The quantity returned by equation_of_equinoxes is the angle along the equator between the mean and the true equinox, in whatever unit it is read, and Greenwich apparent sidereal time exceeds mean sidereal time by that angle.", "quantifier": "all instants", "why_tests_cant": "a test compares the number with the example in the documentation, which is in seconds of time, and not with the unit it carries; the claim is about every instant", "anchors": ["celest/coordinates/astronomical_quantities.py:equation_of_equinoxes", "celest/coordinates/astronomical_quantities.py:nutation_components", "celest/time.py:Time.gast"]}
{"id": "C140", "title": "Satellites with missing positions", "statement": "If the positions of a satellite are missing (NaN) at some samples, generate_vtws returns the passes of the complete series cut at these samples: no window extends over a gap, passes without gaps keep their windows, no windows are added, and requests can be observed in what remains of a pass.", "quantifier": "all series of inertial positions and velocities with NaN at any samples, units, stations, thresholds, lighting conditions, positions of the Sun, requests and schedules built so far", "why_tests_cant": "where gaps lie relative to passes and requests is arbitrary; a test with one gap finds the two windows but not what the second one can be used for", "anchors": ["celest/encounter/window_generator.py:generate_vtws", "celest/satellite.py:Satellite.attitude", "celest/schedule/insertion_operators.py:_look_angle_time", "celest/coordinates/transforms.py:_elevation"]}
{"id": "C141", "title": "Compass directions in double precision", "statement": "Computed in double precision from the inertial position of a satellite and the geodetic coordinates of a station, the azimuth is the direction of the compass, clockwise from the geographic north, in which the satellite is seen from the station.", "quantifier": "all stations between 1 and 89 degrees north or south and from 1 km below to 10 km above the ellipsoid, all directions up to 87 degrees above or below the horizon, all distances from 131 km, all instants from 1900 to 2100, any correctly accurate arithmetic of double precision", "why_tests_cant": "the errors of precession, nutation, rotation and of the two projections compound, and near the meridian the azimuth jumps; samples do not bound this", "anchors": ["celest/coordinates/transforms.py:_azimuth", "celest/coordinates/frames/gcrs.py", "celest/coordinates/ground_location.py:GroundLocation", "celest/coordinates/nutation_precession_matrices.py"]}
{"id": "C142", "title": "The text of windows and of window collections", "statement": "The text of a window, and the text of a window collection, identify what is shown: two collections with the same repr, or the same str, hold equally many windows in the same order, of the same kinds, with the same times, durations, locations and attitudes; and windows that are equal are shown alike.", "quantifier": "all collections of visible time windows and observation windows, all times, durations, ground locations and attitudes", "why_tests_cant": "the texts of arbitrarily many windows are joined by the same separators that stand inside them; whether the joined text can be taken apart again is not settled by samples", "anchors": ["celest/encounter/window_handling.py:VisibleTimeWindow.__repr__", "celest/encounter/window_handling.py:ObservationWindow.__repr__", "celest/encounter/window_handling.py:WindowCollection.__repr__", "celest/encounter/window_handling.py:WindowCollection.__str__", "celest/coordinates/ground_location.py:GroundLocation.__str__"]}
{"id": "C143", "title": "Long searches in double precision", "statement": "ALNS.solve, run with an annealing coefficient in (0, 1], a decay in [0, 1), operators that do not raise and negative costs, returns a solution no worse than the initial one however many iterations are asked for.", "quantifier": "all problems, solutions, parameters, draws and numbers of iterations; every float operation rounded to the nearest double, with gradual underflow", "why_tests_cant": "the failures appear only after more than a thousand iterations, and depend on the coefficient, the decay and on which candidates happened to be rejected", "anchors": ["celest/schedule/alns.py:ALNS.solve", "celest/schedule/alns.py:ALNS._accept", "celest/schedule/alns.py:ALNS._get_probabilities", "celest/schedule/alns.py:ALNS._update_destroy_weights", "celest/schedule/alns.py:ALNS._update_repair_weights"]}
{"id": "C144", "title": "Windows and observations against the standard reduction", "statement": "At every sample in a window from generate_vtws, and during every observation from generate, the satellite is above the elevation mask as measured from the horizon of the station, and the Sun on the requested side of that horizon, with the Earth oriented as the standard reduction says (frame bias, precession, nutation about the ecliptic and Greenwich apparent sidereal time, for the values celest computes, polar motion apart); and every such sample is in a window.", "quantifier": "all inertial positions of the satellite and of the Sun at least 100 km from the station and at most 500 times as far from the centre of the Earth as from it, stations from 1 km below to 10 km above the ellipsoid, sample times from 1900 to 2100, thresholds, lighting conditions, histories of calls and random draws; every machine arithmetic of double precision", "why_tests_cant": "errors of the vertical, of the orientation of the Earth and of rounding add up differently at every instant, station and direction; a test compares a few of them, mostly with the output of the same formulas", "anchors": ["celest/encounter/window_generator.py:generate_vtws", "celest/coordinates/transforms.py:_gcrs_to_itrs", "celest/coordinates/transforms.py:_elevation", "celest/schedule/scheduler.py:Scheduler.generate", "celest/coordinates/nutation_precession_matrices.py:precession_matrix"]}
{"id": "C145", "title": "Pointing, distance and look angle against the standard reduction", "statement": "Turned by the roll, pitch and yaw that Satellite.attitude returns, a camera that looks at nadir before looks at where the target is, Satellite.distance is the distance to where the target is, and Satellite.look_angle is the angle at the satellite between the directions from there and from the centre of the Earth, with the Earth oriented as the standard reduction says (frame bias, precession, nutation about the ecliptic and Greenwich apparent sidereal time, for the values celest computes, polar motion apart).", "quantifier": "all instants from 1900 to 2100, inertial states with non-zero angular momentum (for attitudes), units, and targets closer to the centre of the Earth than the satellite (for attitudes); exact arithmetic, and for attitudes of states given in ITRS every machine arithmetic of double precision", "why_tests_cant": "the offset depends on the instant, the target and the direction it is seen from; a test compares a few of them, mostly with the output of the same formulas", "anchors": ["celest/satellite.py:Satellite.attitude", "celest/satellite.py:Satellite.distance", "celest/satellite.py:Satellite.look_angle", "celest/coordinates/transforms.py:_gcrs_to_itrs", "celest/coordinates/transforms.py:_itrs_to_gcrs"]}
