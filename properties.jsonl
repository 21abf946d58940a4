{"id": "C01", "title": "Coordinate normalisation keeps the point and lands in range", "statement": "normalize_coords returns a longitude in [-180,180) and a latitude in [-90,90], and the returned coordinates denote the same point of the sphere as the input.", "quantifier": "every pair of real longitude and latitude in degrees", "why_tests_cant": "The input domain is a continuum; tests sample a few points and miss the over-the-pole branch where the shifted longitude is not wrapped again.", "anchors": ["cratermaker/utils/general_utils.py:normalize_coords"]}
{"id": "C02", "title": "Random generator construction honours the documented precedence", "statement": "A generator passed in is used as is; otherwise an rng_state, when given, determines the generator and takes precedence over a seed; otherwise the seed determines it; otherwise a fresh generator is made. Wrong types are rejected.", "quantifier": "every combination of present, absent and ill-typed rng, rng_seed and rng_state", "why_tests_cant": "Tests exercise single arguments; the claim is about all combinations and about two objects built from equal arguments.", "anchors": ["cratermaker/core/base.py:_rng_init"]}
{"id": "C03", "title": "Interval file names are unambiguous", "statement": "Two different interval numbers never produce the same output file name, and the interval number read back from a file name is the one used to write it.", "quantifier": "every non-negative interval number, prefix and extension", "why_tests_cant": "Unbounded interval numbers, including those with more than six digits.", "anchors": ["cratermaker/core/base.py:output_filename", "cratermaker/core/base.py:get_saved_interval_numbers"]}
{"id": "C04", "title": "Reading interval k returns the data saved for interval k", "statement": "When outputs for a set of intervals are on disk, asking for interval k that was saved returns the file written for k; asking for a negative interval -j returns the j-th from last interval.", "quantifier": "every finite set of saved interval numbers and every requested interval", "why_tests_cant": "File lists are ordered as text while interval numbers are ordered as numbers; agreement has to hold for every set.", "anchors": ["cratermaker/core/base.py:read_saved_output", "cratermaker/core/base.py:get_saved_interval_numbers"]}
{"id": "C05", "title": "No file is removed without consent", "statement": "The overwrite check removes an existing file only if asking is switched off or the user answered y or a to that file or an a to an earlier one; a refusal stops all further removals and is reported as failure; success means none of the listed files remain.", "quantifier": "every list of paths, every directory state, every sequence of user answers, every asking mode", "why_tests_cant": "The history of prompts and answers is unbounded.", "anchors": ["cratermaker/core/base.py:_overwrite_check"]}
{"id": "C06", "title": "Simulation reset is all or nothing with respect to the first prompt", "statement": "Refusing the reset prompt raises and changes nothing. Accepting leaves interval 0, unset time and elapsed counters, the asking mode unchanged, every non-skipped component reset once in the documented order, and one saved state.", "quantifier": "every reachable simulation state, skip list and answer", "why_tests_cant": "Depends on every previous history of the simulation object.", "anchors": ["cratermaker/core/simulation.py:reset"]}
{"id": "C07", "title": "Run arguments resolve to exactly one well-formed time window", "statement": "Contradictory combinations of age, time_start, time_end, diameter/number pairs, ninterval and time_interval are rejected; every accepted combination yields time_start >= time_end >= 0 semantics, ninterval >= 1, and an interval length that covers the window.", "quantifier": "every combination of present and absent arguments and every numeric value", "why_tests_cant": "2^n combinations times a continuum of values.", "anchors": ["cratermaker/core/simulation.py:_validate_run_args"]}
{"id": "C08", "title": "A fresh run saves ninterval+1 states and its windows tile the requested period", "statement": "Starting from a new simulation, run saves interval 0 and then one state after each of ninterval populate calls; the interval numbers are 0..ninterval; the populate windows are adjacent, non-overlapping, start at time_start and end exactly at time_end.", "quantifier": "every window and every ninterval or time_interval accepted by validation", "why_tests_cant": "Loop of unbounded length with a clamped last step.", "anchors": ["cratermaker/core/simulation.py:run"]}
{"id": "C09", "title": "Elapsed time agrees with the simulated window", "statement": "After every saved state of a run, elapsed_time equals the starting time minus the current time.", "quantifier": "every accepted run and every step of it", "why_tests_cant": "Only wrong when the last interval is shorter than the others, which example runs avoid.", "anchors": ["cratermaker/core/simulation.py:run"]}
{"id": "C10", "title": "An interrupted run resumes where it stopped", "statement": "Calling run again with the same arguments after any number of completed intervals simulates exactly the windows that were still missing.", "quantifier": "every run and every crash point between intervals", "why_tests_cant": "Every crash point of every run.", "anchors": ["cratermaker/core/simulation.py:run"]}
{"id": "C11", "title": "Save actions run in order with the documented argument precedence", "statement": "A save runs every registered action once, in registration order, each with its own keyword arguments overridden by the call's arguments and by the interval; an invalid action list is rejected as a whole and leaves the previous list in place.", "quantifier": "every list of actions and every list offered to the setter", "why_tests_cant": "Unbounded action lists and validation histories.", "anchors": ["cratermaker/core/base.py:save", "cratermaker/core/base.py:add_save_action", "cratermaker/core/base.py:save_actions"]}
{"id": "C12", "title": "Component maker resolves names deterministically", "statement": "maker returns the first registered component for None, the registered class for a known name, the given instance unchanged for an instance, raises KeyError for unknown names and TypeError otherwise.", "quantifier": "every registration history and every request", "why_tests_cant": "Quantifies over registration histories.", "anchors": ["cratermaker/core/base.py:ComponentBase.maker", "cratermaker/core/base.py:ComponentBase.register"]}
{"id": "C13", "title": "Property sources have a fixed precedence", "statement": "When the same property is given by explicit argument, catalogue entry and configuration file, the explicit argument wins over the catalogue, which wins over the file; a None argument never overrides anything; properties nobody mentions are untouched.", "quantifier": "every set of settable names and every triple of sources", "why_tests_cant": "Arbitrary overlaps of three maps.", "anchors": ["cratermaker/utils/general_utils.py:_set_properties"]}
{"id": "C14", "title": "Configuration conversion is idempotent and total", "statement": "Converting a value for the configuration file always yields plain data, and converting the result again changes nothing; the written configuration contains exactly the user-defined parameters with non-null values.", "quantifier": "every nested value of dictionaries, lists, tuples, arrays, scalars, paths and other objects", "why_tests_cant": "Arbitrary nesting depth.", "anchors": ["cratermaker/core/base.py:_convert_for_yaml", "cratermaker/core/base.py:_to_config"]}
{"id": "C15", "title": "Power-law production is a valid cumulative distribution", "statement": "The number density is non-negative, does not increase with diameter, does not decrease with the age, vanishes for an empty time window, and a slope given with either sign means the same thing.", "quantifier": "every coefficient, slope, diameter and time window accepted by the constructor", "why_tests_cant": "Continuum of parameters.", "anchors": ["cratermaker/components/production/powerlaw.py:PowerLawProduction"]}
{"id": "C16", "title": "Neukum chronology is increasing and zero now", "statement": "The chronology is zero for age 0, strictly increasing with age and convex enough that older equal windows contain at least as many craters as younger ones.", "quantifier": "every age and window", "why_tests_cant": "Continuum of ages.", "anchors": ["cratermaker/components/production/neukum.py:chronology"]}
{"id": "C17", "title": "Production is additive over adjacent windows", "statement": "The expected number for a window equals the sum of the expected numbers over any split of it, so that running in many intervals produces the same expected total as running once.", "quantifier": "every production function, diameter and every finite chain of times", "why_tests_cant": "Chains of unbounded length.", "anchors": ["cratermaker/components/production/powerlaw.py:function", "cratermaker/components/production/neukum.py:function"]}
{"id": "C18", "title": "Quasi-Monte Carlo merge emplaces every prescribed crater once", "statement": "Merging keeps every prescribed crater whose time is in the window exactly once, adds none from outside, displaces only random craters that are not smaller than the prescribed one replacing them, keeps all other random craters, and returns the list ordered from oldest to youngest.", "quantifier": "every pair of crater lists and every window", "why_tests_cant": "Lists of unbounded length.", "anchors": ["cratermaker/components/production/__init__.py:quasimc_merge"]}
{"id": "C19", "title": "Setting a measured size reads back", "statement": "After setting measured_radius (or measured_diameter) to a positive value on a crater, reading it returns that value.", "quantifier": "every crater state and every positive value", "why_tests_cant": "Holds when growing and fails when shrinking; depends on the previous state.", "anchors": ["cratermaker/components/crater/__init__.py:CraterVariable.measured_radius", "cratermaker/components/crater/__init__.py:CraterVariable.measured_diameter"]}
{"id": "C20", "title": "Measured axes stay ordered and positive", "statement": "At every point of every history of measured size assignments the semiminor axis is positive and not larger than the semimajor axis, rejected assignments change nothing, and assigning one axis changes the pair to the same two lengths in sorted order.", "quantifier": "every sequence of assignments, valid or not", "why_tests_cant": "Histories of unbounded length.", "anchors": ["cratermaker/components/crater/__init__.py:CraterVariable.measured_semimajor_axis", "cratermaker/components/crater/__init__.py:CraterVariable.measured_semiminor_axis"]}
{"id": "C21", "title": "A crater is defined by exactly one size", "statement": "Crater.maker accepts exactly one size among final size, transient size, projectile size and projectile mass, and rejects none or several with an error.", "quantifier": "every subset of the size arguments", "why_tests_cant": "All subsets of arguments with aliases.", "anchors": ["cratermaker/components/crater/__init__.py:Crater.maker"]}
{"id": "C22", "title": "Crater geometry and projectile mass are mutually consistent", "statement": "For every crater, radius is the geometric mean of the axes and half the diameter, and the projectile density computed from mass and radius is the one the mass was computed from. The vertical velocity of the projectile is its velocity times the sine of the impact angle: zero at grazing and all of it at vertical incidence.", "quantifier": "every crater", "why_tests_cant": "Continuum of sizes.", "anchors": ["cratermaker/components/crater/__init__.py:CraterFixed", "cratermaker/components/crater/__init__.py:Crater.maker"]}
{"id": "C23", "title": "Tuple-valued crater attributes survive the trip to flat columns", "statement": "Splitting location, measured location, production time and production number into scalar columns and joining them again gives back the original record.", "quantifier": "every record with every combination of present and absent tuple attributes", "why_tests_cant": "All presence combinations.", "anchors": ["cratermaker/components/crater/__init__.py:_convert_tuple_vars"]}
{"id": "C24", "title": "Tagging a region marks every face and loses nobody else's tag", "statement": "After add_tag every face of the region carries the tag, faces outside are unchanged and, as long as each face of the region still has a free layer, every tag that was on a face is still on it.", "quantifier": "every layer content, region and tag", "why_tests_cant": "All layer contents; goes wrong only when no single layer is free over the whole region.", "anchors": ["cratermaker/components/surface/__init__.py:LocalSurface.add_tag"]}
{"id": "C25", "title": "Removing and sorting tags touch nothing else", "statement": "remove_tag deletes the tag from every face of the region and preserves every other tag and all faces outside; sort_tags preserves the tags on each face.", "quantifier": "every layer content, region and tag", "why_tests_cant": "All layer contents.", "anchors": ["cratermaker/components/surface/__init__.py:LocalSurface.remove_tag", "cratermaker/components/surface/__init__.py:LocalSurface.sort_tags"]}
{"id": "C26", "title": "A new crater never erases a larger one from the count", "statement": "Adding a crater removes from the observed list only craters strictly smaller than it, and only if none of their tags remain anywhere on the surface; the new crater is in the list iff it is tagged on the surface.", "quantifier": "every surface, observed list and new crater; every sequence of additions", "why_tests_cant": "Histories of additions.", "anchors": ["cratermaker/components/counting/__init__.py:add"]}
{"id": "C27", "title": "Tally leaves only visible, known craters", "statement": "After tally every crater id on the surface belongs to an observed crater whose degradation state is below its visibility limit, craters below the limit keep their tags, and a second tally with the same measurements changes nothing.", "quantifier": "every surface content, observed list and measurement", "why_tests_cant": "All surface contents.", "anchors": ["cratermaker/components/counting/__init__.py:tally", "cratermaker/components/counting/__init__.py:remove"]}
{"id": "C28", "title": "Degradation measure is monotone with a threshold on the depth ratio", "statement": "The degradation state is zero for an unaltered depth, strictly grows as the crater gets shallower, and a crater counts as visible exactly when its ratio of present to original depth is above a threshold that depends on its diameter only and lies strictly between 0 and 1.", "quantifier": "every crater of at least 1 m diameter and every depth ratio", "why_tests_cant": "Continuum.", "anchors": ["cratermaker/components/counting/depthcount.py"]}
{"id": "C29", "title": "Size scaling laws are monotone and mutually inverse", "statement": "Transient diameter increases with final diameter and with projectile diameter; converting final to transient and back with the same morphology gives the starting diameter.", "quantifier": "every positive diameter and every admissible scaling parameter", "why_tests_cant": "Continuum, non-linear root finding.", "anchors": ["cratermaker/components/scaling/montecarlo.py:final_to_transient", "cratermaker/components/scaling/montecarlo.py:transient_to_final", "cratermaker/components/scaling/montecarlo.py:projectile_to_transient"]}
{"id": "C30", "title": "Morphology class follows the transition diameter", "statement": "Craters below half the transition diameter are simple, above twice it are complex, and in between are transitional or the class on the same side, never the class of the opposite side; probabilities used are in [0,1].", "quantifier": "every diameter, transition diameter and random draw", "why_tests_cant": "Every random draw.", "anchors": ["cratermaker/components/scaling/montecarlo.py:_get_morphology_type"]}
{"id": "C31", "title": "Explicit scaling parameters win over the catalogue", "statement": "K1, mu, Ybar and density given explicitly to the scaling model are the ones used, and a target's own explicit density is not changed by building a scaling model for it.", "quantifier": "every combination of explicit and omitted parameters, materials and catalogues", "why_tests_cant": "All combinations.", "anchors": ["cratermaker/components/scaling/montecarlo.py:__init__", "cratermaker/components/scaling/montecarlo.py:material"]}
{"id": "C32", "title": "Projectile properties: explicit over sampled over default", "statement": "new_projectile uses an explicitly given value for a property, otherwise a fresh sample when sampling is on, otherwise the stored value; accepted values are never negative.", "quantifier": "every state and every subset of explicit values and every random draw", "why_tests_cant": "All combinations and draws.", "anchors": ["cratermaker/components/projectile/__init__.py:new_projectile"]}
{"id": "C33", "title": "Target derived quantities are consistent and positive", "statement": "A target that was constructed has positive radius and mass, diameter twice the radius, and escape velocity v with v^2 = 2 G M / R; radius and diameter together are rejected.", "quantifier": "every constructor input", "why_tests_cant": "Continuum and all combinations.", "anchors": ["cratermaker/components/target/__init__.py:Target"]}
{"id": "C34", "title": "Face size bins partition the mesh", "statement": "Every face is in exactly one bin, no bin is empty and within a bin areas differ by less than a factor of two.", "quantifier": "every non-empty list of positive face areas", "why_tests_cant": "All meshes; fails when the area ratio is an exact power of two.", "anchors": ["cratermaker/components/surface/__init__.py:_compute_face_bins"]}
{"id": "C35", "title": "Adding data to a region changes only that region", "statement": "add_data on a region leaves every value outside the region unchanged, adds or replaces inside as requested, and leaves all other variables alone; sizes that fit neither faces nor nodes are rejected without effect.", "quantifier": "every mesh data, region, array and flags; every sequence of calls", "why_tests_cant": "Histories of calls on overlapping regions.", "anchors": ["cratermaker/components/surface/__init__.py:LocalSurface.add_data"]}
{"id": "C36", "title": "Elevation updates dispatch on array size", "statement": "update_elevation with face data, node data, both concatenated or a scalar changes exactly the corresponding elevations, and any other length is rejected.", "quantifier": "every region and array length", "why_tests_cant": "All lengths, including coincidences of the counts.", "anchors": ["cratermaker/components/surface/__init__.py:LocalSurface.update_elevation"]}
{"id": "C37", "title": "Diffusion conserves volume", "statement": "apply_diffusion changes elevations so that the area-weighted sum of the changes is zero.", "quantifier": "every mesh, every diffusivity and elevation field, any number of internal sub-steps", "why_tests_cant": "All meshes and any number of substeps.", "anchors": ["crates/cratermaker-components/src/surface/mod.rs:apply_diffusion"]}
{"id": "C38", "title": "Diffusion never creates new extrema", "statement": "After apply_diffusion every elevation lies between the smallest and largest elevation before it, for non-negative diffusivity.", "quantifier": "every mesh with positive areas, distances and lengths, every field, any number of substeps", "why_tests_cant": "Stability for all meshes depends on the time-step bound.", "anchors": ["crates/cratermaker-components/src/surface/mod.rs:apply_diffusion", "crates/cratermaker-components/src/surface/mod.rs:compute_dt_max"]}
{"id": "C39", "title": "Slope collapse conserves volume and stops only when slopes are stable or the limit is hit", "statement": "slope_collapse conserves volume and bounds, leaves an already stable surface unchanged, and either returns a surface with no slope above the critical one or has used all 1000 rounds. The last part fails for a critical angle of 0, with which nothing is changed, however steep the surface is.", "quantifier": "every mesh, elevation field and critical slope", "why_tests_cant": "Unbounded state space.", "anchors": ["crates/cratermaker-components/src/surface/mod.rs:slope_collapse"]}
{"id": "C40", "title": "Node elevations are averages of their faces", "statement": "Every interpolated node elevation lies between the lowest and highest elevation of its adjacent faces, and a node without faces gets zero.", "quantifier": "every mesh and field", "why_tests_cant": "All meshes.", "anchors": ["crates/cratermaker-components/src/surface/mod.rs:interpolate_node_elevation_from_faces"]}
{"id": "C41", "title": "Distances are great-circle distances", "statement": "compute_distances is symmetric, zero exactly for the same point, at most half the circumference, independent of full turns in longitude, and its cosine is the inner product of the two unit vectors.", "quantifier": "every pair of locations and radius", "why_tests_cant": "Continuum.", "anchors": ["crates/cratermaker-components/src/surface/mod.rs:compute_one_distance"]}
{"id": "C42", "title": "Going a distance along a bearing ends at that distance, and back at the point it was taken to", "statement": "The location computed from a reference, a distance up to half the circumference and a bearing lies at exactly that distance from the reference, and its bearing is the one taken; computed bearings are in [0, 2 pi). Conversely, going the distance to any point along the bearing to it ends at that point.", "quantifier": "every reference (for bearings: not a pole), distance, bearing and target point", "why_tests_cant": "Continuum with polar special cases.", "anchors": ["crates/cratermaker-components/src/surface/mod.rs:compute_one_location_from_distance_bearing", "crates/cratermaker-components/src/surface/mod.rs:compute_bearings"]}
{"id": "C43", "title": "Crater profile meets floor and rim", "statement": "The interior profile equals the floor depth at the floor edge and the rim height at the rim, increases in between, never goes below the floor relative to the mean reference, and joins the exterior profile plus ejecta continuously.", "quantifier": "every crater dimension with floor inside the rim and every radial distance", "why_tests_cant": "Continuum.", "anchors": ["crates/cratermaker-components/src/morphology/basicmoon.rs:crater_profile"]}
{"id": "C44", "title": "Ejecta profile is zero inside and decays outside", "statement": "Ejecta thickness is zero inside the rim, equals the rim value at the rim, decreases outward, and beyond rmax is below the minimum thickness when the blanket is not truncated.", "quantifier": "every crater and distance", "why_tests_cant": "Continuum.", "anchors": ["crates/cratermaker-components/src/morphology/basicmoon.rs:ejecta_profile_function", "cratermaker/components/morphology/basicmoon.py:rmax"]}
{"id": "C45", "title": "Emplacing a crater conserves volume", "statement": "Forming a crater and its ejecta, including slope collapse and diffusion, leaves the total volume above datum unchanged whenever ejecta is deposited.", "quantifier": "every surface, crater and region", "why_tests_cant": "All surfaces and shapes.", "anchors": ["cratermaker/components/morphology/__init__.py:form_crater", "cratermaker/components/morphology/__init__.py:form_ejecta"]}
{"id": "C46", "title": "The queue emplaces every crater once, in order, in non-overlapping batches", "statement": "Processing the queue forms every queued crater exactly once in the order queued, empties the queue, and craters in the same batch affect disjoint sets of faces and nodes.", "quantifier": "every queue and overlap relation", "why_tests_cant": "Queues of unbounded length.", "anchors": ["cratermaker/components/morphology/__init__.py:CraterQueueManager", "cratermaker/components/morphology/__init__.py:_process_queue"]}
{"id": "C47", "title": "Saving surface data is crash safe", "statement": "A crash at any point while saving surface data leaves the file of every interval either as before or completely written, never missing or partial, and a completed save holds the new values plus older variables it did not mention.", "quantifier": "every directory state and every crash point, every sequence of saves", "why_tests_cant": "Every crash point.", "anchors": ["cratermaker/components/surface/__init__.py:_save_data"]}
{"id": "C48", "title": "Rewriting the grid file is crash safe", "statement": "A crash at any point while writing the grid leaves either the old or the new grid on disk, so that the next start does not discard the saved states.", "quantifier": "every directory state and every crash point", "why_tests_cant": "Every crash point.", "anchors": ["cratermaker/components/surface/__init__.py:_write_grid_file", "cratermaker/components/surface/__init__.py:_load_from_files", "cratermaker/components/surface/__init__.py:_regrid_if_needed"]}
{"id": "C49", "title": "Saving crater counts is crash safe", "statement": "A crash while saving crater lists leaves the previous list or the new one on disk.", "quantifier": "every directory state and every crash point", "why_tests_cant": "Every crash point.", "anchors": ["cratermaker/components/counting/__init__.py:save"]}
{"id": "C50", "title": "Superdomain face sizes grow to the requested factor", "statement": "The face size equals the local pixel size inside the local region, does not decrease with distance, and at the antipode equals the requested factor times the pixel size; ring generation terminates.", "quantifier": "every pixel size, local radius, body radius and factor accepted by the setters", "why_tests_cant": "Continuum; wrong only for large local regions or when the antipode is checked.", "anchors": ["cratermaker/components/surface/hireslocal.py:superdomain_function", "cratermaker/components/surface/hireslocal.py:superdomain_function_slope", "cratermaker/components/surface/hireslocal.py:_generate_face_distribution"]}
{"id": "C51", "title": "The local region is rotated to the requested location", "statement": "The mesh rotation moves the pole, where the local region is built, to the requested location and preserves all distances.", "quantifier": "every location", "why_tests_cant": "Continuum with a degenerate case at one pole.", "anchors": ["cratermaker/components/surface/hireslocal.py:_rotate_point_cloud"]}
{"id": "C52", "title": "Loading a surface leaves the asking mode as the user set it", "statement": "Building or loading a surface never changes whether the user is asked before overwriting.", "quantifier": "every combination of reset, regrid and grid state", "why_tests_cant": "All combinations.", "anchors": ["cratermaker/components/surface/hireslocal.py:_load_from_files", "cratermaker/components/surface/__init__.py:_load_from_files"]}
{"id": "C53", "title": "Selected DEM files cover the region", "statement": "Every point of the requested latitude and longitude range is covered by one of the selected DEM tiles, and every request that is covered by available data yields file names.", "quantifier": "every range and resolution", "why_tests_cant": "Continuum of ranges.", "anchors": ["cratermaker/components/surface/__init__.py:DataComposer.get_lola_cylindrical_files_from_pds", "cratermaker/components/surface/__init__.py:DataComposer.get_lola_polar_files_from_pds"]}
{"id": "C54", "title": "Ellipse coefficients convert to the right ellipse", "statement": "Center, semi-axes and orientation computed from conic coefficients describe the same ellipse as the coefficients.", "quantifier": "every ellipse", "why_tests_cant": "Continuum.", "anchors": ["crates/cratermaker-components/src/counting/mod.rs:ellipse_coefficients_to_parameters"]}
{"id": "C55", "title": "Circle fits minimise their objective", "statement": "The fixed-center fit returns the radius minimising the weighted squared residuals, and the free fit recovers a circle exactly when all weighted points lie on it.", "quantifier": "every point set and weights", "why_tests_cant": "Point sets of any size.", "anchors": ["crates/cratermaker-components/src/counting/mod.rs:fit_one_circle", "crates/cratermaker-components/src/counting/mod.rs:fit_one_circle_fixed_center"]}
{"id": "C56", "title": "Random locations are uniform on the chosen face", "statement": "A random location on a face is a convex combination of the face's nodes, for every random draw. For independent uniform draws the locations are uniformly distributed over the triangles that make up the face: the probability of any region is the share of the face that it covers.", "quantifier": "every polygon, every random draw and every measurable region", "why_tests_cant": "A test sees finitely many draws; the law is a statement about all of them and all regions.", "anchors": ["cratermaker/utils/montecarlo_utils.py:_get_one_random_location", "cratermaker/utils/montecarlo_utils.py:get_random_location_on_face"]}
{"id": "C57", "title": "Random sizes stay inside the distribution's range", "statement": "Sampled diameters lie between the smallest and largest diameter of the distribution (up to the documented relative noise), and a larger random number never gives a smaller crater count rank.", "quantifier": "every tabulated distribution and draw", "why_tests_cant": "All distributions and draws.", "anchors": ["cratermaker/utils/montecarlo_utils.py:get_random_size"]}
{"id": "C58", "title": "Random impact times lie in the window and are ordered", "statement": "Times assigned to craters lie between time_end and time_start and are returned from oldest to youngest.", "quantifier": "every window, count and draw", "why_tests_cant": "All draws.", "anchors": ["cratermaker/components/production/__init__.py:compute_time"]}
{"id": "C59", "title": "Random velocities respect the escape velocity", "statement": "When the mean velocity exceeds the escape velocity every sampled impact velocity is at least the escape velocity; otherwise every returned velocity is below it.", "quantifier": "every sample and random stream for which sampling ends", "why_tests_cant": "All draws.", "anchors": ["cratermaker/utils/montecarlo_utils.py:get_random_velocity"]}
{"id": "C60", "title": "Interval navigation stays inside the saved intervals", "statement": "Stepping through saved intervals never leaves the range of the simulation's intervals, stepping in one direction and back returns to the same interval away from the ends, and at the ends the interval shown does not change.", "quantifier": "all starting intervals, all sequences of key presses", "why_tests_cant": "ranges over unbounded sequences of key presses", "anchors": ["cratermaker/core/simulation.py:IntervalState", "cratermaker/core/simulation.py:pyvista_plotter"]}
{"id": "C61", "title": "Local connectivity tables refer to the same mesh elements", "statement": "Translating a connectivity table to a local region and back to global indices gives the original entries for elements inside the region and the fill value for the others.", "quantifier": "every table, region and fill value", "why_tests_cant": "All meshes.", "anchors": ["cratermaker/components/surface/__init__.py:LocalSurface._remap_connectivity_to_local"]}
{"id": "C62", "title": "Sub-pixel degradation covers the simulated time", "statement": "The time windows used for sub-pixel degradation while processing a queue are disjoint, lie within the time span of the queued craters, and together cover it.", "quantifier": "every queue of dated craters and every batching", "why_tests_cant": "Histories of batches.", "anchors": ["cratermaker/components/morphology/__init__.py:_process_queue"]}
{"id": "C63", "title": "Noise adds no net volume", "statement": "apply_noise changes elevations by a field whose area-weighted sum over the region is zero, and changes nothing outside the region.", "quantifier": "every region and noise field", "why_tests_cant": "All fields.", "anchors": ["cratermaker/components/surface/__init__.py:LocalSurface.apply_noise"]}
{"id": "C64", "title": "Location extents contain the region", "statement": "Every point within the region radius of the centre has latitude and longitude inside the returned extents.", "quantifier": "every centre, radius and body", "why_tests_cant": "Continuum; wrong away from the equator.", "anchors": ["cratermaker/components/surface/__init__.py:get_location_extents"]}
{"id": "C65", "title": "DEM composition picks the nearest pixel and applies data once", "statement": "When several DEMs cover a point the one whose pixel is closest supplies the elevation; the composed data is applied exactly once, never after cancel.", "quantifier": "every set of DEMs; every sequence of composer calls", "why_tests_cant": "Histories and continuum.", "anchors": ["cratermaker/components/surface/__init__.py:DataComposer"]}
{"id": "C66", "title": "Human-readable sizes denote the same quantity", "statement": "format_large_units chooses a unit so that the number times the unit equals the input and is in the expected range.", "quantifier": "every finite quantity", "why_tests_cant": "Continuum.", "anchors": ["cratermaker/utils/general_utils.py:format_large_units"]}
{"id": "C67", "title": "Region extraction is closed", "statement": "Every face within the radius is in the extracted region, the region contains all faces adjacent to those, and every node of a region face is in the region's node list; a region without faces is reported as absent.", "quantifier": "every mesh, location and radius", "why_tests_cant": "All meshes.", "anchors": ["cratermaker/components/surface/__init__.py:extract_region", "cratermaker/components/surface/__init__.py:LocalSurface.extract_subregion"]}
{"id": "C68", "title": "Crater identity does not depend on later measurements", "statement": "Fixed attributes and the id of a crater cannot change after construction, whatever is assigned; measured attributes can.", "quantifier": "every sequence of attribute assignments", "why_tests_cant": "Histories.", "anchors": ["cratermaker/components/crater/__init__.py:Crater.__setattr__"]}
{"id": "C69", "title": "Sampled craters respect the face size limits", "statement": "In populate, craters sampled for a bin of faces are at least as large as the smallest crater for that bin and the requested diameter range.", "quantifier": "every set of bins and limits", "why_tests_cant": "All bin orders.", "anchors": ["cratermaker/core/simulation.py:populate"]}
{"id": "C70", "title": "Reset clears memory only together with the files", "statement": "If the user declines the deletion of saved files, resetting a component leaves the in-memory state as it was.", "quantifier": "every state and answer", "why_tests_cant": "Histories.", "anchors": ["cratermaker/components/counting/__init__.py:reset", "cratermaker/components/surface/__init__.py:reset"]}
{"id": "C71", "title": "Locations are normalised element by element", "statement": "Validating a collection of locations returns as many locations, each being the normal form of the one given at the same position, and rejects the collection exactly when one of its members is rejected.", "quantifier": "every collection of locations", "why_tests_cant": "Collections of unbounded length.", "anchors": ["cratermaker/utils/general_utils.py:validate_and_normalize_location"]}
{"id": "C72", "title": "Neukum size distribution is a cumulative distribution for every diameter", "statement": "The Neukum size-frequency distribution is positive, continuous at both ends of its tabulated range, strictly decreasing over all positive diameters including both extrapolations, and below the range it is extrapolated with its own slope there.", "quantifier": "every positive diameter, versions Moon and Mars", "why_tests_cant": "Continuum of diameters, three branches.", "anchors": ["cratermaker/components/production/neukum.py:csfd"]}
{"id": "C73", "title": "Power law chronology is linear in age", "statement": "The chronology of a power law production function is the ratio of the cumulative number at the given age to that at 1 My, so doubling the age doubles it.", "quantifier": "every power law and age", "why_tests_cant": "Continuum of ages and parameters.", "anchors": ["cratermaker/components/production/powerlaw.py:chronology"]}
{"id": "C74", "title": "Impact times follow the chronology", "statement": "The probability that a sampled crater falls in a part of the window is the fraction of the expected number of craters that forms in that part.", "quantifier": "every production function, window and part of the window", "why_tests_cant": "A distribution cannot be read off finitely many draws.", "anchors": ["cratermaker/components/production/__init__.py:compute_time"]}
{"id": "C75", "title": "The version of the Neukum production function decides its constants", "statement": "After any history of assignments to the version and evaluations, an evaluation uses the size distribution and chronology constants of the current version.", "quantifier": "every history of assignments and evaluations", "why_tests_cant": "Histories of unbounded length; values are cached.", "anchors": ["cratermaker/components/production/neukum.py:version", "cratermaker/components/production/neukum.py:Clin", "cratermaker/components/production/neukum.py:Cexp"]}
{"id": "C76", "title": "Prescribed craters always get a usable time", "statement": "Every prescribed crater given with a time, a time range, or a production-sequence position receives a formation time that is non-negative and, unless it was given exactly, stays within the stated uncertainty, so it is emplaced by a run that goes from the beginning to the present.", "quantifier": "All lists of prescribed craters and all values drawn for their uncertain times", "why_tests_cant": "The time is drawn from an unbounded normal distribution, so a test with a fixed seed sees only one draw; the bad draws are rare.", "anchors": ["cratermaker/components/production/__init__.py:Production._process_quasimc_craters"]}
{"id": "C77", "title": "Impact angles are distributed as sin(2*theta)", "statement": "The impact angle drawn for a crater is between 0 and 90 degrees, and the fraction of draws at or below an angle t is sin(t) squared.", "quantifier": "All uniform draws in [0,1) and all angles", "why_tests_cant": "A sample histogram only approximates a distribution; a wrong density with nearly the same mean passes.", "anchors": ["cratermaker/utils/montecarlo_utils.py:get_random_impact_angle"]}
{"id": "C78", "title": "Random locations are uniform over the sphere", "statement": "The random longitude and latitude are inside their ranges, and the probability of falling into any longitude-latitude box is the area of the box divided by the area of the sphere.", "quantifier": "All pairs of uniform draws and all longitude-latitude boxes", "why_tests_cant": "Statistical tests cannot tell uniform from nearly uniform; the claim is about every box.", "anchors": ["cratermaker/utils/montecarlo_utils.py:get_random_location"]}
{"id": "C79", "title": "Age and diameter conversions invert the production function", "statement": "Given a number density computed by the production function for a diameter and an age, asking for the age of that number density returns that age, and asking for the diameter of that number density over that period returns that diameter; a returned age always reproduces the number density it was asked for.", "quantifier": "All diameters, ages and number densities inside the search brackets, for every root finder that meets its contract", "why_tests_cant": "Round trips at sample points do not show uniqueness of the root over the whole bracket.", "anchors": ["cratermaker/components/production/__init__.py:Production.age_from_D_N", "cratermaker/components/production/__init__.py:Production.D_from_N_age"]}
{"id": "C80", "title": "N(D) pairs mean the same everywhere", "statement": "An N(D) pair given to production.sample or to quasimc_merge stands for the same age as the same pair given to Simulation.run.", "quantifier": "All production functions, unit settings, surface areas and N(D) pairs", "why_tests_cant": "Tests of one entry point cannot compare its units with the other one for all unit settings.", "anchors": ["cratermaker/components/production/__init__.py:Production._validate_sample_args", "cratermaker/core/simulation.py:Simulation._validate_run_args"]}
{"id": "C81", "title": "Copied and loaded craters keep their attributes", "statement": "Copying a crater with some new attributes gives a crater with the new attributes and all other attributes of the original; loading a crater from a file gives all the attributes it was saved with, its name included.", "quantifier": "All craters and all sets of new attributes", "why_tests_cant": "Every subset of attributes can be given or missing.", "anchors": ["cratermaker/components/crater/__init__.py:Crater.maker"]}
{"id": "C82", "title": "Different craters have different identities", "statement": "The text from which the crater id is computed is different for craters that differ in any fixed attribute, so that ids collide only by chance in the hash.", "quantifier": "All pairs of attribute lists", "why_tests_cant": "All pairs of craters; a few random ones never collide.", "anchors": ["cratermaker/components/crater/__init__.py:Crater.maker"]}
{"id": "C83", "title": "Rim fitting options of tally apply to every crater", "statement": "tally(measure_rim=True, fit_center=..., fit_ellipse=...) measures the rim of each observed crater with the options that were given.", "quantifier": "every set of observed craters and every choice of options", "why_tests_cant": "Shows only with two or more observed craters, and the result for the others is a plausible fit.", "anchors": ["cratermaker/components/counting/__init__.py:tally"]}
{"id": "C84", "title": "A CSV row holds the whole crater", "statement": "The exported CSV file has a header and one line per crater in the order of the list, and each line contains every attribute of its crater (id, size and shape, measured size, all others), whatever the other craters of the list are.", "quantifier": "All lists of craters", "why_tests_cant": "Depends on the mixture of craters in the list and their order.", "anchors": ["cratermaker/components/counting/__init__.py:Counting.to_csv_file", "cratermaker/components/counting/__init__.py: Counting.to_csv_file", "cratermaker/components/crater/__init__.py: Crater.as_dict"]}
{"id": "C85", "title": "The axes of a crater are in order", "statement": "The semimajor axis of a crater is never smaller than its semiminor axis.", "quantifier": "All arguments with which a crater can be made", "why_tests_cant": "Continuum of sizes and all argument forms.", "anchors": ["cratermaker/components/crater/__init__.py:Crater.maker"]}
{"id": "C86", "title": "Exported craters can be loaded", "statement": "A CSV file written by the export function can be read with Crater.from_file.", "quantifier": "All exported crater lists", "why_tests_cant": "All columns that a crater can have.", "anchors": ["cratermaker/components/crater/__init__.py:Crater.from_csv_file", "cratermaker/components/counting/__init__.py:Counting.to_csv_file"]}
{"id": "C87", "title": "A crater keeps its id when saved and loaded", "statement": "The id of a crater computed again when it is loaded from a saved interval is the id under which its faces were tagged.", "quantifier": "All craters", "why_tests_cant": "The id is a hash of formatted values; the formatting depends on the number type that was passed in.", "anchors": ["cratermaker/components/crater/__init__.py:Crater.maker", "cratermaker/components/crater/__init__.py:Crater.from_xarray"]}
{"id": "C88", "title": "A rim fit is stored", "statement": "After fitting the rim of a crater, its measured axes are the fitted ones.", "quantifier": "All previous measurements and all fits", "why_tests_cant": "Depends on how the fit compares with the previous measurement.", "anchors": ["cratermaker/components/counting/__init__.py:Counting.fit_rim"]}
{"id": "C89", "title": "The outline of a crater is the ellipse with its axes and orientation", "statement": "Every vertex of the polygon exported for a crater lies, in distance and bearing from the crater's centre, on the ellipse whose semi-axes are those of the crater and whose first axis points along its orientation; it is the only point of that ellipse in its direction, its distance lies between the two axes, and the polygon closes after going round once in equal angular steps.", "quantifier": "all positive semi-axes, all orientations, all numbers of vertices and all vertices", "why_tests_cant": "A test draws a few ellipses; swapped axes or a wrong angle convention shows only for some orientation and axis ratio.", "anchors": ["cratermaker/components/crater/__init__.py: Crater.to_geoseries"]}
{"id": "C90", "title": "A copy with a new size has that size", "statement": "Copying a crater while giving one new size (final, transient or projectile) gives a crater whose diameter is the one that belongs to that size.", "quantifier": "All craters, sizes and scaling relations", "why_tests_cant": "All size arguments and all old craters.", "anchors": ["cratermaker/components/crater/__init__.py:Crater.maker"]}
{"id": "C91", "title": "The degradation state does not jump with crater size", "statement": "For a fixed ratio of present to original depth, the degradation state is a continuous function of the crater diameter.", "quantifier": "every depth ratio and every diameter", "why_tests_cant": "Continuum: tests look at single diameters.", "anchors": ["cratermaker/components/counting/depthcount.py:measure_degradation_state"]}
{"id": "C92", "title": "The count lists only craters that are still on the surface", "statement": "After any history of added craters and a tally, every crater in the observed list still has at least one tagged face and is below its visibility limit.", "quantifier": "every history of additions and every measurement", "why_tests_cant": "Goes wrong only once nine craters overlap on the same faces.", "anchors": ["cratermaker/components/counting/__init__.py:add", "cratermaker/components/counting/__init__.py:tally", "cratermaker/components/surface/__init__.py:LocalSurface.add_tag"]}
{"id": "C93", "title": "The transient crater is smaller than the final crater", "statement": "Converting a final diameter to a transient diameter always gives a transient diameter that is smaller than the final one.", "quantifier": "every final diameter, every morphology class (own or requested) and every drawn scaling parameter", "why_tests_cant": "Continuum of diameters and of random scaling parameters; fails only for a requested class far from the natural one.", "anchors": ["cratermaker/components/scaling/montecarlo.py:final_to_transient"]}
{"id": "C94", "title": "Unsampled projectiles use the documented defaults", "statement": "With sampling off and no angle, direction or location given, every projectile population produces a vertical impact (90 degrees) with direction 0 at location (0,0).", "quantifier": "every projectile type and every combination of omitted arguments", "why_tests_cant": "All types and argument subsets; the tests only use the generic type.", "anchors": ["cratermaker/components/projectile/__init__.py:Projectile.__init__", "cratermaker/components/projectile/asteroids.py", "cratermaker/components/projectile/comets.py"]}
{"id": "C95", "title": "Node elevations do not depend on the region used to update them", "statement": "A local elevation update that changes no face elevation leaves every node elevation as a global interpolation gives it, whatever the region used.", "quantifier": "all meshes, regions and elevations", "why_tests_cant": "Depends on the connectivity at the border of every possible region; tests use a few meshes and check interior values.", "anchors": ["cratermaker/components/surface/__init__.py:update_elevation", "cratermaker/components/surface/__init__.py:interpolate_node_elevation_from_faces", "cratermaker/components/surface/__init__.py:extract_region", "crates/cratermaker-components/src/surface/mod.rs:interpolate_node_elevation_from_faces"]}
{"id": "C96", "title": "Every crater that is excavated gets its ejecta", "statement": "form_crater, once it has changed the surface elevation for a crater, also deposits the ejecta blanket and finishes without an exception.", "quantifier": "all meshes, elevations and crater shapes", "why_tests_cant": "The exception needs an elevation change whose net volume is exactly zero, for example a crater whose reference surface equals its own shape; a sampled test does not meet it.", "anchors": ["cratermaker/components/morphology/__init__.py:form_crater", "cratermaker/components/morphology/__init__.py:form_ejecta", "cratermaker/components/morphology/basicmoon.py:form_ejecta"]}
{"id": "C97", "title": "Deposited ejecta is never negative", "statement": "The ejecta blanket deposited for a crater has non-negative thickness on every face.", "quantifier": "all meshes, excavated volumes and ejecta shapes", "why_tests_cant": "The sign depends on the net volume of the crater shape on the local topography, which tests only exercise on nearly level ground.", "anchors": ["cratermaker/components/morphology/__init__.py:form_ejecta"]}
{"id": "C98", "title": "Sub-pixel degradation is neither lost nor applied twice", "statement": "Over any sequence of contributions and applications, the diffusivity applied to a face plus the amount still pending equals the sum of all contributions; after a final application nothing is pending, and between calls no face holds back more than its own area.", "quantifier": "all meshes, all sequences of compute_subpixel_degradation and apply_subpixel_degradation calls", "why_tests_cant": "The property is about arbitrarily long histories of accumulation and threshold-triggered application.", "anchors": ["cratermaker/components/morphology/basicmoon.py:compute_subpixel_degradation", "cratermaker/components/morphology/basicmoon.py:apply_subpixel_degradation"]}
{"id": "C99", "title": "Larger craters degrade the surface more", "statement": "The degradation function is positive and strictly increasing in the crater diameter, and at a diameter of one kilometre has the value of the published mare law at 500 m divided by 1.4 squared.", "quantifier": "all diameters and size factors", "why_tests_cant": "Monotonicity over a continuum of diameters, across the break between the two power laws.", "anchors": ["cratermaker/components/morphology/basicmoon.py:degradation_function"]}
{"id": "C100", "title": "Ray intensity is a fraction", "statement": "Ray intensities are numbers between 0 and 1, zero inside the crater, and the strongest outside point has intensity 1; within a ray pattern, of two bearings at one distance the one nearer to every ray is at least as bright, so that the pattern is symmetric about a single ray and does not jump where bearings go from 2π to 0.", "quantifier": "all craters, random patterns and sets of points", "why_tests_cant": "The intensity is a sum over random patterns normalised by its own maximum; whether that maximum can vanish depends on the set of points asked for.", "anchors": ["crates/cratermaker-components/src/morphology/basicmoon.rs:ray_intensity", "crates/cratermaker-components/src/morphology/basicmoon.rs:ray_intensity_func", "crates/cratermaker-components/src/morphology/basicmoon.rs:ejecta_ray_func"]}
{"id": "C101", "title": "Ejecta truncation limits the blanket", "statement": "When a truncation factor is set, the extent of the ejecta blanket and of the crater is at most that factor times the crater radius.", "quantifier": "all truncation factors accepted by the setter, profiles and thicknesses", "why_tests_cant": "Boundary values of the factor (zero, below one) take different branches; the result of the root finder has to be bounded for all profiles.", "anchors": ["cratermaker/components/morphology/basicmoon.py:rmax", "cratermaker/components/morphology/basicmoon.py:ejecta_truncation"]}
{"id": "C102", "title": "Saved states are removed at start only with consent", "statement": "Loading a surface, with or without a reset, removes or replaces a saved state only if the user is not to be asked or has agreed.", "quantifier": "all disks, grids, reset and regrid flags, asking modes and answers", "why_tests_cant": "depends on every combination of what is on disk and what the user answers", "anchors": ["cratermaker/components/surface/__init__.py:_load_from_files", "cratermaker/components/surface/__init__.py:LocalSurface.read_saved_output", "cratermaker/components/surface/hireslocal.py:_load_from_files"]}
{"id": "C103", "title": "Resuming restores the crater lists of the last saved interval", "statement": "A counting object constructed on an existing folder without reset holds the observed and emplaced craters that were saved last.", "quantifier": "all histories of saves, including ones with empty lists and repeated craters", "why_tests_cant": "ranges over unbounded histories of saves", "anchors": ["cratermaker/components/counting/__init__.py:Counting.__init__", "cratermaker/components/counting/__init__.py:save", "cratermaker/components/crater/__init__.py:from_xarray"]}
{"id": "C104", "title": "Size limits set on a simulation read back and leave the other limit alone", "statement": "After setting one of smallest_crater, largest_crater, smallest_projectile or largest_projectile on a simulation, reading it returns that value, and the limit at the other end is unchanged.", "quantifier": "all existing limits, all scaling relations, all assigned values", "why_tests_cant": "Tests assign a few numbers; the claim ranges over all combinations of earlier limits and over any relation between crater and projectile size.", "anchors": ["cratermaker/core/simulation.py:Simulation.smallest_crater", "cratermaker/core/simulation.py:Simulation.largest_crater", "cratermaker/core/simulation.py:Simulation.smallest_projectile", "cratermaker/core/simulation.py:Simulation.largest_projectile"]}
{"id": "C105", "title": "Populating works for every mesh", "statement": "A population interval can be produced on any mesh: bins of faces whose smallest resolvable crater is above the largest crater get no craters, every other bin gets craters between its own smallest and the largest crater.", "quantifier": "all lists of face sizes and size limits", "why_tests_cant": "The failure depends on how the largest faces compare with the largest crater, and tests use one or two meshes.", "anchors": ["cratermaker/core/simulation.py:Simulation.populate", "cratermaker/core/simulation.py:Simulation._get_production_population_args"]}
{"id": "C106", "title": "Settings of a resumed simulation", "statement": "When a simulation is resumed, a setting given as a keyword wins over the saved one, a setting not given keeps the saved value, and a component replaced by a different one uses none of the settings saved for the old one.", "quantifier": "all saved configurations and all keyword arguments", "why_tests_cant": "The number of combinations of saved entries, keywords and components is unbounded.", "anchors": ["cratermaker/core/simulation.py:Simulation.__init__"]}
{"id": "C107", "title": "A resumed run continues the random sequence", "statement": "A simulation that is saved and resumed draws the same random numbers as one that was never interrupted; an explicitly given generator, seed or state is used.", "quantifier": "all generators, seeds and numbers of draws before the interruption", "why_tests_cant": "The claim compares whole sequences of draws for every interruption point.", "anchors": ["cratermaker/core/simulation.py:Simulation.__init__", "cratermaker/core/base.py:CratermakerBase.rng_state", "cratermaker/core/base.py:_rng_init"]}
{"id": "C108", "title": "An old run is discarded only with consent", "statement": "When output of an earlier run exists, it is removed only if the user asked for a reset explicitly or answered that it may be removed.", "quantifier": "all answers and all settings of the reset and asking options", "why_tests_cant": "Interactive answers are arbitrary strings.", "anchors": ["cratermaker/core/simulation.py:Simulation.__init__"]}
{"id": "C109", "title": "The reported orientation of a fitted rim is its bearing", "statement": "The orientation reported for a fitted elliptical rim is the bearing of its long axis: drawing the reported ellipse with the convention used for scoring rims gives the fitted curve.", "quantifier": "all coefficients of an ellipse", "why_tests_cant": "Whether the result is right depends on the quadrant and the aspect of the ellipse; the space of coefficients is continuous.", "anchors": ["crates/cratermaker-py/src/counting_bindings.rs:fit_rim", "crates/cratermaker-components/src/counting/mod.rs:ellipse_coefficients_to_parameters"]}
{"id": "C110", "title": "Sign of the distance to a rim", "statement": "The signed radial distance of a point to an elliptical rim is negative inside the ellipse, zero on it and positive outside.", "quantifier": "all points and all ellipses with positive axes", "why_tests_cant": "The claim ranges over a continuum of points, ellipses and orientations.", "anchors": ["crates/cratermaker-components/src/counting/mod.rs:radial_distance_to_crater_rim"]}
{"id": "C111", "title": "Measured floor and rim are the mean elevations of the crater's own faces", "statement": "The measured floor depth of a crater is the mean elevation of the faces that carry the crater's id and lie within a fifth of its measured radius, and the measured rim height is that of the faces that carry the id and lie between 0.95 and 1.2 radii; a missing (NaN) elevation is left out and changes nothing else. The measured depth does not depend on the height of the whole region and scales with its relief.", "quantifier": "all regions (any number of faces, elevations, distances, id layers, with or without missing values), all craters", "why_tests_cant": "which faces are averaged depends on the tags, the distances and the position of missing values in the arrays; a test sees a few layouts, almost always without missing values", "anchors": ["crates/cratermaker-components/src/counting/mod.rs: measure_floor_depth, measure_rim_height, filter_crater_faces, mask_crater_faces", "crates/cratermaker-py/src/counting_bindings.rs: measure_floor_depth, measure_rim_height", "cratermaker/components/morphology/__init__.py: measured_depth_to_diameter"]}
{"id": "C112", "title": "A crater that has lost its floor or its rim leaves the count", "statement": "When the faces near the centre of a crater, or all faces along its rim, no longer carry it (for instance because a larger crater has cut them out), no exception is raised and the next tally finds the crater not visible; a crater that has floor and rim is visible when it is as deep as it formed and not visible when its depth is less than 1/64 of that.", "quantifier": "all craters of at least a metre across, all regions, tags and finite elevations", "why_tests_cant": "the outcome rests on sentinel values passed through a formula with logarithms and powers, for every diameter", "anchors": ["crates/cratermaker-py/src/counting_bindings.rs: measure_floor_depth, measure_rim_height", "cratermaker/components/morphology/__init__.py: measured_depth_to_diameter", "cratermaker/components/counting/depthcount.py: measure_degradation_state, visibility_function", "cratermaker/components/counting/__init__.py: tally"]}
{"id": "C113", "title": "Measurements do not depend on the regional slope", "statement": "The elevations after subtraction of the reference plane, from which rim and floor of a crater are measured, do not change when the whole region is raised or tilted; a planar region comes out level, and nothing is added on balance. Every face of the region gets its height above the reference surface.", "quantifier": "all regions (number of faces, positions, elevations), all tilts, every least-squares solver", "why_tests_cant": "it ranges over all elevation fields and planes; numerical tests compare single fields within a tolerance", "anchors": ["cratermaker/components/surface/__init__.py: get_reference_surface, compute_desloped_face_elevation"]}
{"id": "C114", "title": "The rim fit ends and refines step by step", "statement": "Fitting a rim makes at least one pass and at most the number of loops asked for, stops at the first pass that changes both axes by less than the tolerance times the crater's radius, and every pass starts from the centre, the axes and the radius found by the one before.", "quantifier": "all craters, tolerances and numbers of loops, every behaviour of the single fit", "why_tests_cant": "the number of passes and the stopping point depend on the surface; termination is for every sequence of fits", "anchors": ["crates/cratermaker-py/src/counting_bindings.rs: fit_rim", "cratermaker/components/counting/__init__.py: fit_rim"]}
{"id": "C115", "title": "Rim scores are fractions and enough rim points are kept", "statement": "Scoring the rim gives every face either no score or one between 0 and 1. The best face of every sector keeps its score; at least three faces for each of the 9 to 18 sectors keep theirs, or all faces with a positive score if there are fewer. Within a sector a face is never dropped in favour of one with a lower score, and at least the fraction 1 - quantile of a sector is at or above its threshold.", "quantifier": "all numbers of faces, combined scores (with missing values), bearings and quantiles", "why_tests_cant": "the selection has three branches chosen by counts over all sectors, and ties and missing values matter; tests run it on single craters", "anchors": ["crates/cratermaker-components/src/counting/mod.rs: score_rim, nanquantile, nanmax, nanmin", "cratermaker/components/counting/__init__.py: score_rim"]}
{"id": "C116", "title": "Outlines across the antimeridian are cut without tearing", "statement": "When the outline of a crater crosses longitude 180, its vertices are first put on a continuous range of longitudes on the centre's side, so that neighbouring vertices stay neighbours, and the piece beyond the antimeridian is then moved back to the same points with longitudes between -180 and 180.", "quantifier": "all centre longitudes and all vertices of the outline", "why_tests_cant": "The cases that break lie at centre longitude zero or around a pole, which sampled craters rarely hit.", "anchors": ["cratermaker/components/crater/__init__.py: Crater.to_geoseries"]}
{"id": "C117", "title": "The slope of a plane is its gradient", "statement": "On a surface that is an inclined plane around a face, the computed slope of that face is the inclination of the plane; slope collapse acts where the slope exceeds the critical angle.", "quantifier": "all meshes, faces, neighbour layouts and planes", "why_tests_cant": "tests compare slopes on one mesh with themselves or with a wide tolerance; the claim is for every mesh geometry", "anchors": ["crates/cratermaker-components/src/surface/mod.rs: compute_one_face_gradient, compute_face_slope_squared, slope_collapse", "cratermaker/components/surface/__init__.py: compute_slope, slope_collapse"]}
{"id": "C118", "title": "Prescribed craters form in the order of their sequence numbers", "statement": "When a list of prescribed craters with sequence numbers is accepted, every crater with a lower sequence number gets a formation time at least as old as every crater with a higher sequence number. With one or two sequence numbers this holds; with three or more it can fail.", "quantifier": "all lists of sequence numbers, N values, times and uncertainties, all increasing chronologies and all draws within their bounds", "why_tests_cant": "the intervals are moved for up to ten rounds and the order depends on all of them and on random draws; tests look at a few well separated lists", "anchors": ["cratermaker/components/production/__init__.py: _process_quasimc_craters, _get_sequence_extents, _draw_quasimc_time, _sequence_is_consistent"]}
{"id": "C119", "title": "Processing a valid list of prescribed craters does not divide by zero", "statement": "Assigning prescribed craters whose first sequence number has production metadata either succeeds or is rejected with a message; it never ends in an arithmetic error. It does so as long as every number with metadata has an N value above its uncertainty.", "quantifier": "all lists of sequence numbers with N values, times, uncertainties or no metadata", "why_tests_cant": "the failing intervals arise only for particular combinations of uncertainties and missing metadata", "anchors": ["cratermaker/components/production/__init__.py: _process_quasimc_craters, _get_sequence_extents, _draw_quasimc_time"]}
{"id": "C120", "title": "Clearing the prescribed craters restores the size range", "statement": "Assigning prescribed craters limits the sampled diameters to those below the prescribed ones; assigning another list, or none, gives the same size range as if the first list had never been assigned.", "quantifier": "all size ranges and lists of prescribed craters, in any sequence of assignments", "why_tests_cant": "the claim is about histories of assignments", "anchors": ["cratermaker/components/production/__init__.py: quasimc_craters, _process_quasimc_craters, diameter_range"]}
{"id": "C121", "title": "Exporting writes the saved crater lists", "statement": "Exporting with a supported driver writes, for every list asked for and every saved interval of it, one file with exactly the craters saved for that interval, and leaves the asking mode as the user set it. An unknown kind of crater list is an error with every driver.", "quantifier": "all supported drivers in any spelling, crater types, saved lists and asking modes", "why_tests_cant": "the drivers, list types and saved histories combine freely; tests export one small list with one or two drivers", "anchors": ["cratermaker/components/counting/__init__.py: export, to_vector_file, to_vtk_file, to_csv_file, to_scc_file", "cratermaker/constants.py: VECTOR_DRIVER_TO_EXTENSION_MAP"]}
{"id": "C122", "title": "Crater lists are written in every documented form", "statement": "The file writing methods accept a dataset, a list of craters or a dictionary of craters, or none for the current list of the given type, and write exactly those craters.", "quantifier": "all lists in all documented forms", "why_tests_cant": "tests pass lists read from files; the other forms take other paths", "anchors": ["cratermaker/components/counting/__init__.py: _validate_export_args, to_csv_file, to_scc_file, to_vtk_file"]}
{"id": "C123", "title": "The crater style applies to exported meshes", "statement": "The mesh file shows the craters in the style, and with the measured or original properties, that were asked for.", "quantifier": "all crater lists and styles", "why_tests_cant": "the content of the file would have to be compared for every style", "anchors": ["cratermaker/components/counting/__init__.py: to_vtk_file, to_vtk_mesh"]}
{"id": "C124", "title": "Crater files are read by their extension", "statement": "Loading craters from a file reads it in the format of its extension, in any spelling, and reports an extension that is not supported.", "quantifier": "all file names", "why_tests_cant": "tests use the three extensions in lower case", "anchors": ["cratermaker/components/crater/__init__.py: from_file, from_scc_file"]}
{"id": "C125", "title": "Cumulative counts from R values cover the whole range once", "statement": "Converting a function R of diameter into a cumulative number always returns exactly one number; it is zero for diameters at or above the limit, otherwise it covers the diameters from the given one up to at least the limit and at most the limit times the square root of two, and it lies between 94% and 95% of the integral of R/D^3 for constant R (and correspondingly between bounds on R).", "quantifier": "all functions R, all diameters and all limits", "why_tests_cant": "The loop's length depends on the inputs without bound, and for non-positive diameters it never ends, which a test cannot observe.", "anchors": ["cratermaker/components/counting/__init__.py: R_to_CSFD"]}
{"id": "C126", "title": "Saturation and equilibrium curves fall as the inverse square of diameter", "statement": "The geometric saturation number times the square of the diameter is 1.54 for every diameter, the equilibrium number is the given fraction of it, never exceeds it for fractions up to one, and both decrease with diameter.", "quantifier": "all positive diameters and all fractions in [0,1]", "why_tests_cant": "A test checks a few diameters; the claim is an identity and an ordering over all of them.", "anchors": ["cratermaker/components/counting/__init__.py: csfd_geometric_saturation, csfd_equilibrium"]}
{"id": "C127", "title": "Measurements of a crater reflect the present surface", "statement": "Whenever rim height, floor depth or the depth to diameter ratio of a crater is read, the value is the one measured on the elevations the surface has at that moment, whatever edits and earlier readings came before.", "quantifier": "all histories of surface edits, tag changes and readings, for all surfaces", "why_tests_cant": "A stale value only appears for particular orders of readings and edits; tests fix one order.", "anchors": ["cratermaker/components/morphology/__init__.py: MorphologyCrater.measured_rim_height, measured_floor_depth, measured_depth_to_diameter, remove_complex_data", "cratermaker/components/surface/__init__.py: LocalSurface.compute_desloped_face_elevation, add_tag"]}
{"id": "C128", "title": "A saved mesh is recognised by its settings", "statement": "Two surfaces have the same mesh identity only if they are of the same kind, on a target of the same name and radius, and with the same settings of the mesh, so that equal identities mean equal meshes.", "quantifier": "all kinds of surfaces and all settings", "why_tests_cant": "Collisions of the identity string concern pairs of settings nobody thought of; a test compares only chosen pairs.", "anchors": ["cratermaker/components/surface/__init__.py: Surface._id, _hashvars", "cratermaker/components/surface/hireslocal.py: HiResLocalSurface._hashvars, set_superdomain, superdomain_function_slope", "cratermaker/components/surface/datasurface.py: DataSurface._hashvars"]}
{"id": "C129", "title": "A new mesh is made exactly when the saved one does not fit", "statement": "Opening a run makes a new mesh if and only if this is asked for or the grid file is missing, unreadable or made with other settings (for data surfaces also when the saved elevations are missing or do not fit); otherwise the grid file stays as it is, and in every case the mesh used was made with the present settings.", "quantifier": "all settings, all states of the grid file and of the saved elevations", "why_tests_cant": "Every combination of leftover files and changed settings must be covered; a wrong decision destroys a saved run.", "anchors": ["cratermaker/components/surface/__init__.py: Surface._regrid_if_needed, _is_same_grid", "cratermaker/components/surface/datasurface.py: DataSurface._regrid_if_needed"]}
{"id": "C130", "title": "Elevations outside the local region come from the file the user named", "statement": "When a file is named for the superdomain of a data surface, the elevations outside the local region are sampled from that file.", "quantifier": "all files, all scale factors (given, automatic or set later) and all leftover saved elevations", "why_tests_cant": "It needs large external files and depends on the order of initialisation steps; tests use the default file.", "anchors": ["cratermaker/components/surface/datasurface.py: DataSurface.__init__, superdomain_dem_file, _add_global_dem_elevation, reset", "cratermaker/components/surface/hireslocal.py: HiResLocalSurface.__init__, set_superdomain"]}
{"id": "C131", "title": "Missing pixels of elevation files are filled with the mean, in any unit", "statement": "Every missing pixel of an elevation file (NaN or the marker of the file) gets the mean of the other pixels, all others keep their elevation converted to metres, and files with the same unit are converted the same way inside and outside the local region.", "quantifier": "all lists of readings, all markers and all spellings of the unit", "why_tests_cant": "Depends on the combination of unit and marker in external files that tests do not have.", "anchors": ["cratermaker/components/surface/datasurface.py: DataSurface._get_local_dem_data, _add_global_dem_elevation"]}
{"id": "C132", "title": "A mesh of uniform resolution has the requested number of distinct points", "statement": "For every positive face size and body radius, the uniform-resolution surface has a number of faces that differs from (area of the body)/(face size squared) by no more than half the square root of that number plus three; its face centres are distinct points of the sphere and include both poles. Any positive face size gives a surface.", "quantifier": "all face sizes, all radii, all ways of breaking ties when rounding", "why_tests_cant": "A test checks a few resolutions; the number of points is a sum over rows of rounded trigonometric terms, and the bound on its error has to hold for every resolution.", "anchors": ["cratermaker/components/surface/arbitrary_resolution.py: ArbitraryResolutionSurface._distribute_points", "cratermaker/components/surface/arbitrary_resolution.py: ArbitraryResolutionSurface._generate_face_distribution"]}
{"id": "C133", "title": "Exporting a surface leaves the saved states alone", "statement": "Exporting a surface, or a simulation, writes the saved state of the interval asked for (all saved states if none is named, the present state for the default of a simulation), under that interval's number, changes no saved state, does not overwrite exported files without consent, and leaves the asking mode as it was. Every driver in the table of drivers writes something.", "quantifier": "all sets of saved states, all present states of the surface, all interval arguments, all drivers, writers that succeed or raise", "why_tests_cant": "Tests export the interval just saved; whether an export of any other interval damages the record depends on the whole history of saved states.", "anchors": ["cratermaker/components/surface/__init__.py: LocalSurface.export", "cratermaker/components/surface/__init__.py: LocalSurface.save", "cratermaker/components/surface/__init__.py: Surface._save_data", "cratermaker/core/simulation.py: Simulation.export"]}
{"id": "C134", "title": "Rasters are as fine as the mesh", "statement": "A raster made of a surface, or of a region of it, has pixels no wider than the faces of the mesh, and for a whole body more pixels than the mesh has faces.", "quantifier": "all numbers of faces, all radii, all region radii and face sizes", "why_tests_cant": "A test makes the raster of one mesh; the relation of ceilings and square roots has to hold for all sizes.", "anchors": ["cratermaker/components/surface/__init__.py: LocalSurface.get_raster_dims", "cratermaker/components/surface/__init__.py: LocalSurface.to_raster"]}
{"id": "C135", "title": "Noise added to a surface has the requested height", "statement": "Adding noise of a given height to a surface changes elevations by amounts bounded by a fixed multiple of that height and of that order, in proportion to the height, on a body of any radius.", "quantifier": "all noise fields with values in [-1, 1], all heights, radii, numbers of octaves, meshes", "why_tests_cant": "Tests check that the call succeeds; the size of the result for all noise fields and bodies is a statement about a bounded sum and its normalisation.", "anchors": ["cratermaker/components/surface/__init__.py: LocalSurface.apply_noise", "crates/cratermaker-components/src/surface/mod.rs: turbulence_noise"]}
{"id": "C136", "title": "Diffusion applies the whole amount asked for", "statement": "Applying diffusion with a given diffusivity per face changes the elevations by exactly N equal explicit time steps of length 1/N of the flow between neighbouring faces (mean diffusivity of the two faces times slope times edge length, over the area of the face), for some whole N of at least one: the steps add up to the whole unit of time, however small the stable time step is, and every step satisfies the stability limit of every face.", "quantifier": "every mesh with positive areas and distances, every field of non-negative diffusivities and every field of elevations", "why_tests_cant": "The number of steps depends on the smallest stable time step of the mesh and diffusivity; a test with a gentle diffusivity needs a single step and cannot tell a full loop from a truncated one, and no finite set of meshes covers all limits.", "anchors": ["crates/cratermaker-components/src/surface/mod.rs:apply_diffusion", "crates/cratermaker-components/src/surface/mod.rs:compute_dt_max", "cratermaker/components/surface/__init__.py:apply_diffusion"]}
{"id": "C137", "title": "Operations on a surface with a local region act on the local region only", "statement": "On a surface with a high-resolution local region, diffusion, slope collapse, noise and tagging of any region act on exactly the faces that are in both the region and the local region: faces outside either keep their elevation and tags, a per-face diffusivity is used for its own face, distances and bearings of the shared part belong to its own faces and nodes, and a tag for the superdomain marks all faces of the region. The masks of faces, nodes and edges mark exactly what is shared. This should happen whenever the two share a face.", "quantifier": "every region, every local region, every field of elevations and tags, every diffusivity (one value or one per face)", "why_tests_cant": "The masks depend on the order and overlap of two index arrays; wrong alignment or a lost margin shows only for partial overlaps in particular positions.", "anchors": ["cratermaker/components/surface/hireslocal.py:LocalHiResLocalSurface.local_overlap", "cratermaker/components/surface/hireslocal.py:LocalHiResLocalSurface.apply_diffusion", "cratermaker/components/surface/hireslocal.py:LocalHiResLocalSurface.add_tag", "cratermaker/components/surface/hireslocal.py:HiResLocalSurface._set_local_identifiers"]}
{"id": "C138", "title": "A plot label shows the numbers of the state that is plotted", "statement": "The label made for a plot shows, as far as they are asked for and stored, the interval number, time, age and number of craters above the given diameter (in kilometres) of the very state that is plotted: the present one, a saved one given by its number, or one counted from the end; an interval that was not saved gets no time.", "quantifier": "every simulation state, every set of saved states, every choice of label options and interval", "why_tests_cant": "The value shown depends on which of the saved states is found for a number, positive or negative, and on the units of the production function; a test sees a few labels only.", "anchors": ["cratermaker/core/simulation.py:Simulation.labelmaker", "cratermaker/core/base.py:CratermakerBase.get_time_variables", "cratermaker/core/base.py:CratermakerBase.read_saved_output"]}
{"id": "C139", "title": "A region shows its own part of the mesh data", "statement": "Reading a mesh variable through a local region gives exactly the values of the faces, nodes or edges of that region, in the order of the region; data written through a region is read back unchanged through it, and disjoint regions still show their old values. Unknown names and arrays that fit neither faces, nodes nor edges are errors.", "quantifier": "every mesh, region, variable and written data", "why_tests_cant": "The kind of data is guessed from array lengths; tests use meshes whose face, node and edge counts happen to differ.", "anchors": ["cratermaker/components/surface/__init__.py:LocalSurface.__getattr__", "cratermaker/components/surface/__init__.py:LocalSurface.add_data"]}
{"id": "C140", "title": "The production function belongs to the target body", "statement": "Unless asked for otherwise, craters are produced by the documented function of the target body: Neukum's crater function for the Moon and Mars, Neukum's projectile function for Mercury, Venus and Earth, a power law for all other bodies; a version that is given is used, and unknown names are errors. The user guide also promises Neukum's function for Vesta and Ceres, which never get it. Versions are accepted in any mixture of small and capital letters.", "quantifier": "every combination of production name, version and target body", "why_tests_cant": "Tests construct a few combinations; the claim is about every name, spelling, version and body.", "anchors": ["cratermaker/components/production/__init__.py:Production.maker", "cratermaker/components/production/neukum.py:NeukumProduction.version", "cratermaker/core/base.py:ComponentBase.maker", "docs/user-guide/production.rst"]}
{"id": "C141", "title": "The projectiles belong to the target body", "statement": "By default, asteroids hit Mercury, Venus, Earth, Moon, Mars, Ceres and Vesta and comets hit every other body; asteroids and comets have the mean velocity listed for the target (for an unlisted target that of the Moon or of Kuiper belt objects), which is positive; generic projectiles have the velocity given.", "quantifier": "every projectile model, velocity argument and target body", "why_tests_cant": "Ranges over every body name, also names that are in no catalogue.", "anchors": ["cratermaker/components/projectile/__init__.py:Projectile.maker", "cratermaker/components/projectile/asteroids.py:AsteroidProjectiles._set_mean_velocity", "cratermaker/components/projectile/comets.py:CometProjectiles._set_mean_velocity"]}
{"id": "C142", "title": "N(D) values are understood in the units of the object", "statement": "After construction and any history of assignments and uses, the conversion factors of a production object have one of the documented values, the printed units are those of the factors, rejected assignments change nothing, and prescribed craters given by a number are understood in the units of the object, also when both are given to the constructor.", "quantifier": "every constructor call and every later history of assignments, and every list of prescribed craters", "why_tests_cant": "Depends on the order of assignments inside and after the constructor; tests use the default units.", "anchors": ["cratermaker/components/production/__init__.py:Production.__init__", "cratermaker/components/production/__init__.py:N_conversion_factor", "cratermaker/components/production/__init__.py:quasimc_craters", "cratermaker/components/production/powerlaw.py:PowerLawProduction.__init__"]}
{"id": "C143", "title": "A table of craters is read as it is written", "statement": "Crater.from_csv_file gives one crater per row, in the order of the rows, and the arguments of each crater are exactly the filled cells of its row: numbers as the numbers written, id and production_sequence as integers, locations, production times and N(D) values from their columns (with spread 0 when none is given), and text as text; empty cells count as missing.", "quantifier": "every file, every set of columns, every row and cell, every behaviour of number parsing", "why_tests_cant": "The set of files and cell texts is unbounded; a test reads a few files that the program itself wrote.", "anchors": ["cratermaker/components/crater/__init__.py:Crater.from_csv_file", "cratermaker/components/crater/__init__.py:_convert_tuple_vars"]}
{"id": "C144", "title": "Reported face sizes describe the mesh", "statement": "For every mesh with at least one face: face_area is the face's area on the body, face_size the side of the square with that area, pix_min and pix_max are attained and bound all face sizes, pix_mean lies between them, and the reported area equals the number of faces times (pix_mean squared plus pix_std squared).", "quantifier": "every list of non-negative face areas and every body radius", "why_tests_cant": "Tests look at a few meshes with tolerances; the identities must hold for every mesh.", "anchors": ["cratermaker/components/surface/__init__.py:Surface._compute_face_size", "cratermaker/components/surface/__init__.py:Surface.pix_mean", "cratermaker/components/surface/__init__.py:Surface.area"]}
{"id": "C145", "title": "The level of an icosphere decides its mesh and nominal size", "statement": "A gridlevel is accepted exactly when it is a non-negative integer; a mesh of that level has 10*4^gridlevel+2 faces and 20*4^gridlevel nodes, and pix is the size at which that many equal faces cover the body, between pix_min and pix_max and never below pix_mean, whatever was read or assigned before. An arbitrary resolution surface keeps every positive pix, rejects others, and by default uses a size of which a million faces cover the body.", "quantifier": "every level, body radius, mesh covering the sphere, and every history of reads and assignments", "why_tests_cant": "Levels above a few cannot be meshed in a test, and the order of reads and assignments matters.", "anchors": ["cratermaker/components/surface/icosphere.py:IcosphereSurface", "cratermaker/components/surface/arbitrary_resolution.py:ArbitraryResolutionSurface.pix"]}
{"id": "C146", "title": "A local region is covered by a complete grid of points and surrounded by rings", "statement": "For a local region up to a hemisphere, the mesh points made for a surface with a local region are: inside, exactly the points at whole numbers of pixels from the centre whose grid distance is below the local radius in whole pixels, each once, all at a great circle distance below the local radius; outside, complete rings that begin beyond the local radius, follow each other at the face size of the superdomain, carry equally spaced distinct points about one face size apart, and end between one and two face sizes before the antipode. The construction ends, and the two parts share no point.", "quantifier": "every body radius, pixel size, local radius and positive face size function", "why_tests_cant": "A test meshes a few settings and looks at counts; completeness of the grid and termination concern every setting.", "anchors": ["cratermaker/components/surface/hireslocal.py:HiResLocalSurface._generate_face_distribution", "cratermaker/components/surface/datasurface.py:DataSurface._generate_face_distribution"]}
{"id": "C147", "title": "An ellipse fit finds the best ellipse", "statement": "Fitting an ellipse to weighted points returns the centre and semi-axes of the ellipse with the least weighted sum of squared algebraic residuals among all conics with the same value of 4ac - b². Points that lie on an ellipse and determine it give that ellipse. The fit reports an error exactly if all points with positive weight lie on one line, and it succeeds whenever the points determine a conic and no parabola or pair of parallel lines goes through all of them.", "quantifier": "all lists of points and weights (also weights that are zero, negative or not a number), every correct eigenvalue routine", "why_tests_cant": "the points are any number of real pairs; optimality is a claim about all other curves", "anchors": ["crates/cratermaker-components/src/counting/mod.rs: fit_one_ellipse", "crates/cratermaker-py/src/counting_bindings.rs: fit_one_ellipse"]}
{"id": "C148", "title": "An ellipse fit with a fixed centre finds the best ellipse around it", "statement": "Fitting an ellipse around a given centre returns the semi-axes of the ellipse with that centre and the least weighted sum of squared algebraic residuals among all conics around it with the same value of 4ac - b². Points on an ellipse around the centre that determine it give its semi-axes. The fit reports an error exactly if no point has a positive weight.", "quantifier": "all lists of points and weights, all centres, every correct eigenvalue routine", "why_tests_cant": "the points are any number of real pairs; optimality is a claim about all other curves", "anchors": ["crates/cratermaker-components/src/counting/mod.rs: fit_one_ellipse_fixed_center", "crates/cratermaker-py/src/counting_bindings.rs: fit_one_ellipse_fixed_center"]}
{"id": "C149", "title": "The error of an ellipse fit is the distance of the points from the ellipse", "statement": "The error that an ellipse fit reports is the weighted root mean square of the distances of the points from the fitted ellipse: it is zero if all points lie on the ellipse, and points without positive weight have no influence on it.", "quantifier": "all lists of points and weights", "why_tests_cant": "the points are any number of real pairs, and a test with noisy points cannot tell a wrong distance from noise", "anchors": ["crates/cratermaker-components/src/counting/mod.rs: geometric_distances, fit_one_ellipse, fit_one_ellipse_fixed_center", "crates/cratermaker-py/src/counting_bindings.rs: fit_one_ellipse"]}
{"id": "C150", "title": "A rim fit changes only what it is asked to fit", "statement": "Fitting the rim without fitting the centre leaves the centre where it is, and fitting a circle gives equal axes and orientation zero. Rim points that lie on one circle and determine it give that circle in all four modes, if the centre is either fitted or given rightly.", "quantifier": "all scored rim points, all four combinations of the two options, all centres", "why_tests_cant": "any number of points; four different solvers behind one call", "anchors": ["crates/cratermaker-components/src/counting/mod.rs: fit_one_rim", "cratermaker/components/counting/__init__.py: fit_rim"]}
{"id": "C151", "title": "A sample of a production function follows the production function", "statement": "Sampling a production function over a time window and a range of diameters (the one of the production function by default) gives as many craters as the Poisson generator draws for the area, all with diameters inside the range, and ages inside the window from oldest to youngest. The probability of a crater larger than a diameter is the fraction of the craters in the range that are larger, so that the expected number of craters of each size is the one that the production function predicts.", "quantifier": "every decreasing production function, window, range of diameters, area and random draw", "why_tests_cant": "The expected number and the law of the sizes cannot be read off finitely many random samples.", "anchors": ["cratermaker/components/production/__init__.py:Production.sample", "cratermaker/components/production/__init__.py:Production._validate_sample_args", "cratermaker/utils/montecarlo_utils.py:get_random_size"]}
{"id": "C152", "title": "Sampled impact velocities have the mean that is asked for", "statement": "The mean of the impact velocities sampled for a mean velocity is that mean velocity, without an escape velocity and with one.", "quantifier": "every mean velocity and escape velocity", "why_tests_cant": "The mean of a distribution is not the mean of a finite sample; the deviations depend on continuous parameters.", "anchors": ["cratermaker/utils/montecarlo_utils.py:get_random_velocity"]}
{"id": "C153", "title": "Velocities below the escape velocity follow the truncated Maxwell law", "statement": "When the escape velocity is not below the mean, sampling ends with probability one and the velocity has Maxwell's law under the condition that it is below the escape velocity.", "quantifier": "every mean velocity, escape velocity and measurable set of velocities", "why_tests_cant": "The loop has no bound on the number of draws and the law ranges over all sets of velocities.", "anchors": ["cratermaker/utils/montecarlo_utils.py:get_random_velocity"]}
{"id": "C154", "title": "The transition factors of a scaling model stay in their ranges", "statement": "Whatever numbers are drawn, a scaling model has a simple enlargement factor between 1/0.88 and 1/0.80, an exponent within 0.0001 of 0.079, positive transition diameters, and hence increasing conversions between transient and final diameters. Bounded normal numbers lie between their bounds, within one standard deviation of the mean by default. Without random factors no draw matters and transient craters are smaller than final ones on every body. The nominal transition diameter falls as gravity rises. The user guide calls the model \"ctem\" the model \"montecarlo\" with the variability turned off: this is false, on every body the two agree for exactly one final diameter of complex craters.", "quantifier": "every body, gravity, random draw and diameter, for both scaling models", "why_tests_cant": "All random draws and all real gravities and diameters.", "anchors": ["cratermaker/components/scaling/montecarlo.py:MonteCarloScaling.recompute", "cratermaker/components/scaling/ctem.py:CTEMScaling.recompute", "cratermaker/utils/montecarlo_utils.py:bounded_norm", "docs/user-guide/defaults.rst"]}
{"id": "C155", "title": "Populating samples the same period everywhere on the surface", "statement": "However the period of a populate call is given (age, start and end times, crater numbers or N(D) pairs), every group of faces of the surface is sampled over exactly that period, whatever its area and its range of diameters.", "quantifier": "every accepted combination of arguments, every production function with an age for each number, every area of a group of faces", "why_tests_cant": "All argument combinations, production functions and real areas.", "anchors": ["cratermaker/core/simulation.py:Simulation.populate", "cratermaker/components/production/__init__.py:Production._validate_sample_args"]}
{"id": "C156", "title": "Populating makes one crater for each sampled diameter, where it was sampled", "statement": "A populate call makes exactly one crater for each diameter sampled for a group of faces, with the time that was sampled with it, at a point of a face of that group, also if nothing was sampled for other groups; the craters are handed on from oldest to youngest.", "quantifier": "every mesh, every number of groups of faces, every sample and every random draw", "why_tests_cant": "All meshes, samples and draws.", "anchors": ["cratermaker/core/simulation.py:Simulation.populate", "cratermaker/utils/montecarlo_utils.py:get_random_location_on_face"]}
{"id": "C157", "title": "Craters form everywhere in proportion to area", "statement": "A crater of a group of faces falls on a face with a probability equal to the share of the face in the area of the group, and inside the face uniformly. With a Poisson number of craters, the number of craters of the group in any region is Poisson distributed, with a mean equal to the number density of craters times the area of the region; the numbers of craters in any number of regions without common points are independent of each other; how the faces are grouped does not matter.", "quantifier": "every mesh, every measurable region, every number density and every count", "why_tests_cant": "A law over all regions and counts cannot be settled by finitely many draws.", "anchors": ["cratermaker/core/simulation.py:Simulation.populate", "cratermaker/utils/montecarlo_utils.py:get_random_location_on_face"]}
{"id": "C158", "title": "The radial gradient is the outward rate of change", "statement": "The radial gradient that a local region reports for a quantity on its faces is the component of the quantity's gradient in the direction away from the centre of the region: it is never larger than the slope, it is linear in the quantity, and adding a constant changes nothing. For a quantity that grows at a constant rate with distance it is that rate on every face.", "quantifier": "every local region, every face with any number of edges, every field of values on faces", "why_tests_cant": "Every polygon shape, orientation and position around the centre is covered; a sign or factor error shows only for some bearings, regions or numbers of edges.", "anchors": ["cratermaker/components/surface/__init__.py:LocalSurface.compute_radial_gradient", "cratermaker/components/surface/__init__.py:LocalSurface.calculate_face_and_node_bearings", "crates/cratermaker-components/src/surface/mod.rs:compute_radial_gradient"]}
{"id": "C159", "title": "Lengths, areas and positions belong to the present body", "statement": "After any sequence of reading areas, sizes, edge lengths and positions of a surface and assigning a different target body, every quantity read is the one for the body now assigned.", "quantifier": "every sequence of reads and target assignments on a surface", "why_tests_cant": "What is kept from an earlier read depends on the whole history; only particular orders of reads and assignments give a mixture of two bodies.", "anchors": ["cratermaker/components/surface/__init__.py:Surface.target", "cratermaker/components/surface/__init__.py:Surface.face_area", "cratermaker/components/surface/__init__.py:Surface.edge_length"]}
{"id": "C160", "title": "Raised positions lie above the point of the surface", "statement": "Converting elevations to positions in space puts every face and node in the direction of its point on the sphere at the radius of the body plus its elevation from the centre, and the exported three-dimensional mesh has the same positions.", "quantifier": "every surface, every elevation above minus the radius, every longitude and latitude", "why_tests_cant": "Direction and distance must be right for every point of the sphere and every elevation, negative ones included.", "anchors": ["cratermaker/components/surface/__init__.py:Surface.elevation_to_cartesian", "cratermaker/components/surface/__init__.py:LocalSurface.elevation_to_cartesian", "cratermaker/components/surface/__init__.py:LocalSurface.to_vtk_mesh"]}
{"id": "C161", "title": "Every variable keeps its own column in a shapefile", "statement": "Exporting a surface as a shapefile shortens the names of its variables to at most ten characters in such a way that every variable and every layer of a layered variable has a column of its own and none takes the place of the geometry.", "quantifier": "every list of variables of a surface, with any number of layers", "why_tests_cant": "Collisions occur only for particular combinations of names and numbers of layers, and users can add variables with any name.", "anchors": ["cratermaker/components/surface/__init__.py:LocalSurface.to_vector_file"]}
{"id": "C162", "title": "Reading an interval gives the surface as it was saved", "statement": "After saving a surface for an interval, and whatever is done later to the surface or saved for other intervals, reading that interval gives exactly the variables the surface had at that moment, with their values, and the time variables given with the save. Saving never fails.", "quantifier": "every history of changes of the data, saves with any time variables, and variables added with save_to_file, on every mesh", "why_tests_cant": "The content of a file depends on all earlier saves to it, since a save merges with what is there; no finite set of histories covers that.", "anchors": ["cratermaker/components/surface/__init__.py:Surface.save", "cratermaker/components/surface/__init__.py:Surface._save_data", "cratermaker/components/surface/__init__.py:Surface._add_new_data", "cratermaker/components/surface/__init__.py:LocalSurface.save"]}
{"id": "C163", "title": "Saving a region leaves the saved surface usable", "statement": "Saving the data of a local region works at any time, and neither changes what is read for the whole surface nor prevents the whole surface from being saved.", "quantifier": "every region, dataset, interval and state of the output directory", "why_tests_cant": "Whether the save works depends on the sizes of the region and of the data already saved, in any combination.", "anchors": ["cratermaker/components/surface/__init__.py:LocalSurface.save", "cratermaker/components/surface/__init__.py:LocalSurface.uxds", "cratermaker/components/surface/__init__.py:Surface._save_data"]}
{"id": "C164", "title": "A file named by the user keeps all intervals saved to it", "statement": "Saving a surface to a file named with filename leaves the files of the intervals alone, and the file holds every interval that was saved to it.", "quantifier": "every dataset, interval, file name and earlier content of the file", "why_tests_cant": "It concerns every content the file may already have.", "anchors": ["cratermaker/components/surface/__init__.py:Surface.save", "cratermaker/components/surface/__init__.py:Surface._save_data"]}
{"id": "C165", "title": "A copy of a crater has the measured size it is given, or else that of the original", "statement": "When a crater is made as a copy of another one without a new size, its measured semiaxes are those of the original, unless a measured diameter, radius or pair of axes is given: then they are these. This holds for a measured diameter, and for all of them if the original is not a circle. It fails for a measured radius or measured axes given to a copy of a circle.", "quantifier": "every original crater with measured axes, every measured diameter, radius and axes given, with and without the check for redundant arguments", "why_tests_cant": "The outcome depends on the shape of the original and on which argument is given; tests try a few pairs, and the failing ones need a circle together with a radius or axes.", "anchors": ["cratermaker/components/crater/__init__.py: Crater.maker", "cratermaker/components/crater/__init__.py: CraterVariable.as_dict"]}
{"id": "C166", "title": "A crater made with a size is measured with this size", "statement": "The measured semiaxes of a new crater are its own unless a measured size is given, and those of a crater made from another one with a new size are the new ones. The latter fails exactly when the original was a circle with a radius above the new semimajor axis: then the old radius stays as the measured semimajor axis.", "quantifier": "every size of the original and of the new crater, every measured size", "why_tests_cant": "An exact characterisation over all pairs of sizes; tests try enlarging or shrinking one crater.", "anchors": ["cratermaker/components/crater/__init__.py: Crater.maker"]}
{"id": "C167", "title": "Assigned attributes of a crater read back, None clears them, others stay", "statement": "After an assignment of a measured orientation, location, rim height, floor depth, degradation state, production time, N(D) value, sequence number or name the attribute reads back as assigned (angles modulo full turns), None clears it, and all other attributes stay. None is ignored for production time, N(D), sequence number and name.", "quantifier": "every state of a crater and every value assigned", "why_tests_cant": "Ranges over all states and values.", "anchors": ["cratermaker/components/crater/__init__.py: CraterVariable"]}
{"id": "C168", "title": "A converted crater keeps all its variable attributes", "statement": "A crater converted into another type of crater through its dictionary of attributes has the same measured axes, orientation, location, heights, degradation, production time, N(D), sequence number and name, whatever was assigned before. It fails for a measured semiminor axis without a semimajor axis, which is lost; a location left out of range is normalised again to the same point.", "quantifier": "every history of assignments to the attributes of a crater", "why_tests_cant": "Ranges over all histories of assignments, including failed ones.", "anchors": ["cratermaker/components/crater/__init__.py: CraterVariable.as_dict", "cratermaker/components/crater/__init__.py: Crater.maker"]}
{"id": "C169", "title": "The ejecta layer is what all craters deposited minus what later craters removed", "statement": "After any sequence of craters, the ejecta thickness of a face is the initial thickness plus everything deposited on it, counting only what no later formed crater removed; a crater removes the ejecta inside its rim, leaves no ejecta there, and the thickness never gets negative if the deposits are not; no other data change. The code also removes all older ejecta from the faces outside the rim that touch a face inside.", "quantifier": "every mesh, every initial layer, every sequence of craters with any positions, sizes and deposits", "why_tests_cant": "An invariant over all histories of overlapping craters on all meshes.", "anchors": ["cratermaker/components/morphology/__init__.py: Morphology.form_crater", "cratermaker/components/morphology/__init__.py: Morphology.form_ejecta", "cratermaker/components/surface/__init__.py: LocalSurface.extract_subregion", "cratermaker/components/surface/__init__.py: LocalSurface.add_data"]}
{"id": "C170", "title": "Exactly the craters that are larger than the face at their centre are formed", "statement": "A crater is formed and recorded if it is large enough for the mesh and otherwise changes nothing. What the code requires is a face within one and a half times the radius and a face area below two and a quarter times that of the crater, so that craters smaller than their face are formed; and a crater whose nearest face is between the extent of the ejecta and one and a half times the radius ends in an error.", "quantifier": "every mesh, every crater", "why_tests_cant": "An exact characterisation over all meshes and positions; the failing positions are rare.", "anchors": ["cratermaker/components/morphology/__init__.py: Morphology.form_crater", "cratermaker/components/morphology/__init__.py: MorphologyCrater.crater_region", "cratermaker/components/morphology/__init__.py: MorphologyCrater.ejecta_region"]}
{"id": "C171", "title": "A crater shows the mesh it lies on", "statement": "The face index, the extent of the ejecta, the regions, the affected faces and nodes, and whether the crater is large enough for the mesh, are those that the mesh of the crater's surface gives, whatever was read or given up before and in whatever order; without surface data they are all unknown. The values follow the surface when it is replaced by one with another mesh.", "quantifier": "every mesh, every crater, every sequence of reads, of giving up data and of changes of the surface", "why_tests_cant": "All interleavings of lazily computed attributes.", "anchors": ["cratermaker/components/morphology/__init__.py:MorphologyCrater.face_index", "cratermaker/components/morphology/__init__.py:MorphologyCrater.ejecta_rmax", "cratermaker/components/morphology/__init__.py:MorphologyCrater.ejecta_region", "cratermaker/components/morphology/__init__.py:MorphologyCrater.affected_face_indices", "cratermaker/components/morphology/__init__.py:MorphologyCrater.emplaceable", "cratermaker/components/morphology/__init__.py:MorphologyCrater.remove_complex_data"]}
{"id": "C172", "title": "Emplacing changes the surface it is asked to change", "statement": "Emplacing a crater, a list or tuple of craters (also an empty one) or the crater described by keyword arguments returns all the craters in order, digs those that are large enough into the surface of the simulation, lists exactly those, in order, and changes no other surface.", "quantifier": "every argument, every mixture of plain craters and craters with surface data, every state of the surfaces", "why_tests_cant": "All mixtures and lengths of lists of craters from several simulations.", "anchors": ["cratermaker/components/morphology/basicmoon.py:BasicMoonMorphology.emplace", "cratermaker/components/morphology/__init__.py:Morphology.emplace", "cratermaker/components/morphology/__init__.py:Morphology.form_crater", "cratermaker/core/simulation.py:Simulation.emplace"]}
{"id": "C173", "title": "Rays become fewer and narrower with distance", "statement": "The rays of a crater have different lengths between the edge of the continuous ejecta and the greatest extent of the rays. The number of rays falls from five to one over that distance and is the number of rays that reach a distance. At the rim the rays together take half of the circle, and each becomes narrower all the way out.", "quantifier": "every crater size, every extent of the rays and every distance", "why_tests_cant": "The lengths, numbers and widths are functions of real distances and sizes.", "anchors": ["crates/cratermaker-components/src/morphology/basicmoon.rs:ray_intensity_func"]}
{"id": "C174", "title": "Populating with lunar elevation data covers the whole surface or region", "statement": "populate_with_lola_data adds elevation files that exist and that together cover every point of the surface, or of the local region it is called for, at every resolution.", "quantifier": "every pixel size, every local region and every point of it, and the whole surface", "why_tests_cant": "The points are a continuum and the files selected depend on the resolution and on the position of the region; the tests need network access and try single regions.", "anchors": ["cratermaker/components/surface/__init__.py:DataComposer.populate_with_lola_data", "cratermaker/components/surface/__init__.py:DataComposer.get_lola_dem_file_list", "cratermaker/components/surface/__init__.py:Surface.get_location_extents"]}
{"id": "C175", "title": "The local region consists of faces of the present mesh", "statement": "Whenever a surface with a local region has been made, its local region consists of the faces of its mesh that were determined for its settings, whatever surfaces were made in the directory before, whatever crashed, and also after loading again with other settings.", "quantifier": "every history of starts, crashes at any point, second loadings and other surfaces in a directory", "why_tests_cant": "The property quantifies over histories and crash points; tests make each surface once in an empty directory.", "anchors": ["cratermaker/components/surface/hireslocal.py:HiResLocalSurface._load_from_files", "cratermaker/components/surface/hireslocal.py:HiResLocalSurface.local", "cratermaker/components/surface/hireslocal.py:HiResLocalSurface.set_superdomain"]}
{"id": "C176", "title": "The data of a surface tell its local faces", "statement": "After a surface with a local region is made, its data have the marks is_local_face and is_local_node, beside all the data that was read.", "quantifier": "every state of the directory, with or without reset or new mesh", "why_tests_cant": "Depends on the order of marking and resetting for every combination of reset, new mesh and existing files; with the default options the marks are lost.", "anchors": ["cratermaker/components/surface/hireslocal.py:HiResLocalSurface._set_local_identifiers", "cratermaker/components/surface/__init__.py:Surface.reset"]}
{"id": "C177", "title": "Mesh files show the surface or region that was exported", "statement": "Exporting a surface or a region for viewing (to_vtk_file) writes, for every saved state asked for (all, one by its number, or one counted from the end), a file with that state on the mesh of that surface or region, and a geometry file of that mesh; files that the user declines to replace and all others stay as they are.", "quantifier": "all surfaces and regions, saved states, interval arguments, answers of the user and earlier contents of the export directory", "why_tests_cant": "what is written depends on the files left by earlier exports and on the history of regions exported", "anchors": ["cratermaker/components/surface/__init__.py: LocalSurface.to_vtk_file, LocalSurface.read_saved_output, LocalSurface.__init__"]}
{"id": "C178", "title": "A plot of an interval shows the saved state", "statement": "plot without an interval shows the data in memory; plot(interval=k) shows the state that was saved under number k, and files the picture under k; a negative interval counts back from the last saved one; other numbers are refused. The documented way of turning the minimum width off works.", "quantifier": "all saved states, all data in memory, all interval numbers", "why_tests_cant": "Tests plot right after saving, when the data in memory and the last saved state agree; the claim is about every history between saving and plotting.", "anchors": ["cratermaker/components/surface/__init__.py:LocalSurface.plot", "cratermaker/core/base.py:read_saved_output"]}
{"id": "C179", "title": "The scale bar states its length and covers nothing of the region", "statement": "In a plot of a region the scale bar is as long as its text says, lies inside the picture and outside the disc of the region, and is the longest of the round lengths that leaves it so; every region has one.", "quantifier": "all region radii", "why_tests_cant": "Pictures are not checked by tests, and the placement has to hold for every radius.", "anchors": ["cratermaker/components/surface/__init__.py:LocalSurface.plot"]}
{"id": "C180", "title": "The three-dimensional view shows the whole region", "statement": "The camera of the three-dimensional view of a region is placed so that every point of the region is in the picture and none is hidden behind the body.", "quantifier": "all bodies, regions, angles of view and points of the region", "why_tests_cant": "It is a statement about every point of a continuous region on a sphere, for every radius and angle of view.", "anchors": ["cratermaker/components/surface/__init__.py:LocalSurface.pyvista_plotter"]}
{"id": "C181", "title": "The key j cycles through all variables", "statement": "In the three-dimensional view the key for changing the variable goes round through the plain surface and all variables on the faces, in order, reaching each from each within one round.", "quantifier": "all sets of variables, all starting points, all numbers of presses", "why_tests_cant": "Interactive views are not tested, and the claim is about any number of presses for any set of variables.", "anchors": ["cratermaker/components/surface/__init__.py:LocalSurface.pyvista_plotter"]}
{"id": "C182", "title": "A raster shows the value of a face at each pixel", "statement": "to_raster gives, for a whole surface or a region, an image in which each pixel touched by a face with a value shows the value of such a face, and other pixels are empty.", "quantifier": "all meshes, values, pixels", "why_tests_cant": "It is about every pixel and every mesh, including faces across the antimeridian.", "anchors": ["cratermaker/components/surface/__init__.py:Surface.to_raster", "cratermaker/components/surface/__init__.py:LocalSurface.to_raster"]}
{"id": "C183", "title": "Profile functions take numbers, lists and arrays of any shape", "statement": "crater_profile, ejecta_profile, ejecta_distribution and ray_intensity accept any array-like distances, as documented, return an array of the same shape, and (without reference elevations and rays) give at each element what they give for that distance alone; with rays the thickness is the thickness without rays times the intensity.", "quantifier": "all craters, all numbers, lists and arrays of distances and bearings, of any shape and kind", "why_tests_cant": "Tests call the functions with one or two kinds of arguments; the claim is about all kinds, shapes and values.", "anchors": ["cratermaker/components/morphology/basicmoon.py:crater_profile", "cratermaker/components/morphology/basicmoon.py:ejecta_profile", "cratermaker/components/morphology/basicmoon.py:ejecta_distribution", "cratermaker/components/morphology/basicmoon.py:ray_intensity", "crates/cratermaker-py/src/morphology_bindings.rs"]}
{"id": "C184", "title": "The ray pattern does not depend on where it is evaluated", "statement": "With the same random numbers, the intensity of the rays at a point is the same whichever other points are asked for in the same call.", "quantifier": "all craters, random numbers, points and sets of other points", "why_tests_cant": "It compares all pairs of calls with different sets of points.", "anchors": ["crates/cratermaker-components/src/morphology/basicmoon.rs:ray_intensity", "cratermaker/components/morphology/basicmoon.py:ray_intensity"]}
{"id": "C185", "title": "A new crater replaces the ground within its rim and keeps the ground outside", "statement": "Forming a crater without slope collapse gives one new elevation for every face and node of its region. With at least five points and a node within the crater radius, each point within comes to the crater profile over the least-squares plane of the ground within, and nowhere lower than the floor depth below the mean elevation the ground within had before; so earlier relief within that has neither mean nor tilt leaves no trace. With fewer points the profile is laid over the ground as it is. Beyond the radius each point is raised above its own elevation by exactly (rim height - ejecta rim height) times (distance/radius) to the power -4.2. Raising all the ground by a height raises the result by the same height.", "quantifier": "all ground elevations and positions of faces and nodes, all crater dimensions, all least-squares solvers", "why_tests_cant": "A test forms one crater on one mesh, mostly on level ground. That old relief leaves no trace, and that the result moves with the level, are claims about every ground, including those with too few points to fit.", "anchors": ["cratermaker/components/morphology/basicmoon.py: BasicMoonMorphology.crater_shape", "cratermaker/components/surface/__init__.py: LocalSurface.get_reference_surface", "cratermaker/components/morphology/__init__.py: Morphology.form_crater", "crates/cratermaker-components/src/morphology/basicmoon.rs: crater_profile"]}
{"id": "C186", "title": "An exported spatial crater count holds every crater, its share in the region, and reads back", "statement": "Exporting craters to an SCC file writes one line per crater, in order, with its measured diameter and place, and reading the file gives the same diameters and places back. The fraction written is the share of the crater's measured outline that lies within the local region (one on a surface without a local region), always between zero and one, and the area written is that of the local region if there is one and otherwise that of the surface.", "quantifier": "all lists of craters, all surfaces with and without a local region, all outlines", "why_tests_cant": "A test exports a few craters that were measured where they were made. Whether the fraction fits the outline must hold for every position of the outline across the boundary, and for craters whose measured place has moved.", "anchors": ["cratermaker/components/counting/__init__.py: Counting.to_scc_file", "cratermaker/components/crater/__init__.py: Crater.from_scc_file"]}
{"id": "C187", "title": "Going by distance and bearing, and measuring again", "statement": "Going out from a location by distances (up to half the circumference) and bearings and then measuring, from the same location, the distances and bearings of the locations returned gives back the distances and bearings, in their order, for any number of locations. Locations are returned exactly when equally many distances and bearings are given, at least one; without a reference the centre of a local region is taken, and a whole surface refuses. Several locations are measured as each of them alone.", "quantifier": "all radii, all reference locations (given or the centre of the region), all numbers of locations, all distances and bearings", "why_tests_cant": "Tests measure a few points from a few places; the claim is about every list of distances and bearings, every reference location including poles and the date line.", "anchors": ["cratermaker/components/surface/__init__.py: LocalSurface.compute_distances", "cratermaker/components/surface/__init__.py: LocalSurface.compute_bearings", "cratermaker/components/surface/__init__.py: LocalSurface.compute_location_from_distance_bearing", "cratermaker/utils/general_utils.py: validate_and_normalize_location", "crates/cratermaker-components/src/surface/mod.rs: compute_location_from_distance_bearing"]}
{"id": "C188", "title": "Prescribed craters are emplaced once over interruptions", "statement": "Every prescribed crater whose formation time lies in the period covered by the rounds of a run is emplaced exactly once, and no other, also when the process ends and the simulation is opened again between rounds.", "quantifier": "all lists of prescribed craters with times or numbers and uncertainties, all sequences of rounds whose windows tile a period, all places where the simulation is closed and opened again, all random craters and draws", "why_tests_cant": "Tests run one session; the claim ranges over all histories of rounds and new starts and over all draws.", "anchors": ["cratermaker/core/simulation.py: Simulation.populate, Simulation.__init__, Simulation.do_quasimc", "cratermaker/components/production/__init__.py: quasimc_file, quasimc_craters, quasimc_merge, _process_quasimc_craters"]}
{"id": "C189", "title": "Prescribed craters are used whenever they were assigned", "statement": "Prescribed craters assigned to a simulation, as a list or by a file and at any moment, are emplaced by the rounds that follow, each once if its formation time is in their period.", "quantifier": "all states a simulation can be in when the craters are assigned, all lists of craters, all following rounds", "why_tests_cant": "Tests assign the craters when the simulation is made; the claim is about every earlier history.", "anchors": ["cratermaker/core/simulation.py: Simulation.do_quasimc, Simulation.populate", "cratermaker/components/production/__init__.py: quasimc_craters, quasimc_file"]}
{"id": "C190", "title": "A map of crater counts for an interval shows the craters saved for it", "statement": "`Counting.plot(interval=k)` draws exactly the observed craters saved for interval k and exactly the emplaced craters saved for interval k (nothing of a kind that has no craters saved for it), with any history of saves; without an interval it draws the lists in memory.", "quantifier": "all sets of saved intervals of both kinds, all intervals, all lists in memory", "why_tests_cant": "Which branch is taken depends on the history of saves of both kinds; a test of one save does not show intervals in the past or rounds without craters.", "anchors": ["cratermaker/components/counting/__init__.py:Counting.plot", "cratermaker/components/counting/__init__.py:Counting.save", "cratermaker/core/base.py:CratermakerBase.read_saved_output"]}
{"id": "C191", "title": "A three-dimensional view shows the kinds of craters asked for", "statement": "`Counting.pyvista_plotter` for observed, emplaced or both kinds of craters (or a list of craters) adds to the view exactly the craters of these kinds for the interval, observed ones in the first colour with their measured properties and emplaced ones in the last colour with the properties they were emplaced with, and leaves the rest of the view; in interactive views the key goes through all styles and then hides the craters.", "quantifier": "all sets of saved intervals, intervals, kinds, colours, styles and contents of the view; any number of key presses", "why_tests_cant": "The content of the view after replacement of actors depends on all combinations of kind, style, colour and interval; tests look at rendered images of a few of them.", "anchors": ["cratermaker/components/counting/__init__.py:Counting.pyvista_plotter"]}
{"id": "C192", "title": "Projected coordinates of faces and the region's coordinate system agree", "statement": "The projected coordinates of the faces and nodes of a region (`face_proj_x`, `face_proj_y`, ...) are their coordinates in the region's coordinate system (`crs`): `from_surface` turns the longitude and latitude of a face into them, and `to_surface` turns them back into its longitude and latitude, as the rim fit of the crater count assumes.", "quantifier": "all regions (centre, body radius) and all faces of them", "why_tests_cant": "Both coordinates agree at the centre and to third order in the distance, so that tests on small regions pass within tolerance; the difference grows with the region.", "anchors": ["cratermaker/components/surface/__init__.py:Surface.get_crs", "cratermaker/components/surface/__init__.py:LocalSurface.set_face_proj", "cratermaker/components/surface/__init__.py:LocalSurface.to_surface", "crates/cratermaker-py/src/counting_bindings.rs:fit_rim"]}
{"id": "C193", "title": "The projectile version of the Neukum production function is a cumulative distribution", "statement": "For every diameter that is accepted (not negative) the projectile version of the Neukum production function returns exactly one value; it is not negative, decreases strictly with the diameter below a million kilometres and is zero from there on, so that the number for a window is a valid cumulative distribution.", "quantifier": "all diameters, all windows of time", "why_tests_cant": "The distribution is a loop of geometric bins over a polynomial of degree 14 with two extrapolations; that it never increases anywhere, and for which diameters the loop ends, cannot be read off samples.", "anchors": ["cratermaker/components/production/neukum.py: NeukumProduction.csfd, NeukumProduction.function", "cratermaker/components/counting/__init__.py: R_to_CSFD"]}
{"id": "C194", "title": "The Neukum production function gives the chronology's number of 1 km craters", "statement": "For craters larger than 1 km the number per area that the Neukum production function gives for a window is the number of 1 km craters that its chronology gives for this window, and the chronologies of all versions differ by a constant factor only.", "quantifier": "all windows of time, all versions", "why_tests_cant": "It relates two functions over all windows of time; the tests compare the functions with themselves.", "anchors": ["cratermaker/components/production/neukum.py: NeukumProduction.function, NeukumProduction.chronology, NeukumProduction.csfd, Clin, Cexp"]}
{"id": "C195", "title": "Several diameters and ages at once give the table of the single calls", "statement": "A production function called with arrays of diameters and windows is accepted whenever the calls for the single diameters and windows are, and returns one number for every diameter and window, which is the result of the single call.", "quantifier": "all numbers of diameters and windows, all values, with or without ends", "why_tests_cant": "Array shapes and lengths are unbounded and mix with single numbers in every combination.", "anchors": ["cratermaker/components/production/__init__.py: Production._validate_age, Production._validate_csfd", "cratermaker/components/production/neukum.py: NeukumProduction.function", "cratermaker/components/production/powerlaw.py: PowerLawProduction.function"]}
{"id": "C196", "title": "A scaling model has the target and projectiles it is made with", "statement": "Scaling.maker gives a scaling model whose target is the one asked for (the Moon if none is), with the density asked for and used by the scaling, and whose projectiles are the ones asked for, with the mean velocity on that target (or the mean velocity given); this holds when target and projectile are objects or left out. It fails for names: with a target given by name an explicit density or material never reaches the target, with projectiles given by name their velocity is always that on the Moon, and generic projectiles given by name are always refused, even with their mean velocity. An existing scaling model given a new target keeps the material and constants of the old one.", "quantifier": "all targets and projectiles given by name, as objects or left out, all explicit parameters, catalogues and mean velocities", "why_tests_cant": "The outcome depends on every combination of name, object or nothing for two arguments with all other parameters; tests use the Moon, for which the wrong velocity is the right one.", "anchors": ["cratermaker/components/scaling/__init__.py: Scaling.maker, Scaling.__init__, Scaling.target, Scaling.projectile", "cratermaker/components/scaling/montecarlo.py: MonteCarloScaling.__init__", "cratermaker/components/projectile/__init__.py: Projectile.maker", "cratermaker/components/target/__init__.py: Target.maker"]}
{"id": "C197", "title": "The mesh made from elevation data resolves the whole local region", "statement": "When a local region (centred off the poles, up to 1.2 radii of the body) is meshed from elevation data, the pixels that become faces are exactly those whose image lies within the region enlarged by a quarter of the pixel size, the square that is read contains every place of the region, and every place farther inside that edge than the resolution of the data has a face centre at most half the resolution away in either coordinate of the region.", "quantifier": "all bodies, centres, region radii, pixel sizes, resolutions and places", "why_tests_cant": "It is about every place of regions of every size and resolution; tests would need elevation files and sample a few places.", "anchors": ["cratermaker/components/surface/datasurface.py: DataSurface._get_local_dem_data", "cratermaker/components/surface/datasurface.py: DataSurface._generate_face_distribution", "cratermaker/components/surface/__init__.py: Surface.get_crs"]}
{"id": "C198", "title": "Every place of a raster lies in exactly one pixel", "statement": "The raster of a whole surface reaches from -180 to 180 and -90 to 90 degrees and that of a local region four pixels beyond its edge on all sides; every place in it lies in exactly one pixel of its rows and columns, and the pixels of a local raster are square.", "quantifier": "all bodies, numbers of faces, region radii, pixel sizes and places", "why_tests_cant": "Rounding makes the grid depend on the sizes; tests look at a few shapes of arrays.", "anchors": ["cratermaker/components/surface/__init__.py: LocalSurface.get_raster_dims", "cratermaker/components/surface/__init__.py: LocalSurface.to_raster"]}
{"id": "C199", "title": "A crater lies where it is placed", "statement": "A new crater with a size lies at the location given, with the longitude brought between -180 and 180 degrees, whether it is written as location, as longitude and latitude or as the location of the projectile; its measured location is the same unless another is given. Placed by a distance and a bearing, it is at that distance and in that direction from the reference location, or from the centre of the local region. Two of these ways at once are refused when redundant arguments are checked; otherwise longitude and latitude count first, then the relative location, the location, and the location of the projectile. A crater made from another without a location stays there. It fails for copies that are moved: the measured location is not moved, and the longitude is not brought into range.", "quantifier": "every location, distance, bearing, reference location, combination of arguments, surface with or without a local region and pattern crater", "why_tests_cant": "There are many combinations of arguments and all places on a sphere; tests place a few craters.", "anchors": ["cratermaker/components/crater/__init__.py: Crater.maker", "cratermaker/components/morphology/__init__.py: MorphologyCrater.maker", "cratermaker/components/surface/hireslocal.py: compute_location_from_distance_bearing", "cratermaker/components/surface/__init__.py: Surface.compute_location_from_distance_bearing"]}
{"id": "C200", "title": "The count is kept up to date while craters are emplaced", "statement": "While emplace forms craters with counting on, the count is brought up to date after at least 2000 craters, and before 2000 craters and one more batch are formed, since the last time; the last count is made when all craters are formed. With fewer than 2000 craters there is this one count, and it measures rims if measure_rim says so. It fails with 2000 craters or more: only the first count measures rims, the final one never does.", "quantifier": "every number of craters, every division into batches and every value of measure_rim", "why_tests_cant": "Tests emplace few craters, so the counts in between, and what they do to the arguments of later counts, are not seen.", "anchors": ["cratermaker/components/morphology/__init__.py: Morphology.emplace", "cratermaker/components/morphology/__init__.py: Morphology._process_queue", "cratermaker/components/counting/__init__.py: Counting.tally"]}
{"id": "C201", "title": "A raster file holds the variable and interval asked for", "statement": "to_geotiff_file writes, for every saved interval that the call means (all, one by its number, one counted from the end), a file that holds the raster of the variable asked for in the state saved for that interval; it changes no other file, and rasters of different variables, and of the whole surface and the local region, are all kept.", "quantifier": "for all sets of saved intervals and variables, all intervals and variable names asked for, all contents of the export directory, and sequences of two exports", "why_tests_cant": "what is replaced depends on the whole history of exports and on every combination of saved intervals, variables and ways to call; a test sees one directory", "anchors": ["cratermaker/components/surface/__init__.py: LocalSurface.to_geotiff_file", "cratermaker/components/surface/__init__.py: Surface.to_geotiff_file", "cratermaker/core/base.py: CratermakerBase.read_saved_output"]}
{"id": "C202", "title": "Every pixel of a raster shows a face that reaches it", "statement": "A pixel of the raster of a surface or region shows the value of a face whose polygon reaches the pixel, and it is blank only if no face with a finite value reaches it.", "quantifier": "for all meshes, shapes of faces, values of the variable (with missing ones) and pixels", "why_tests_cant": "it concerns all meshes and all ways in which polygons and pixels can overlap", "anchors": ["cratermaker/components/surface/__init__.py: LocalSurface.to_raster"]}
{"id": "C203", "title": "Craters of different sizes and places occur independently", "statement": "In a population of a group of faces the numbers of craters in boxes of sizes and regions that have no crater in common are independent of each other, and each is Poisson distributed with a mean that is the density of craters of those sizes times the area of the region.", "quantifier": "for all production functions that fall with diameter, diameter ranges, meshes, and finite families of disjoint boxes (an interval of diameters times a measurable region)", "why_tests_cant": "it is a statement on the joint distribution for every family of boxes; samples only estimate single means", "anchors": ["cratermaker/components/production/__init__.py: Production.sample", "cratermaker/utils/montecarlo_utils.py: get_random_size", "cratermaker/core/simulation.py: Simulation.populate"]}
{"id": "C204", "title": "The files given for a data surface settle the size of its faces", "statement": "One or more files with elevations, in a list or alone, given as strings or paths, are accepted as dem_file_list; the faces of the local region then get the width in metres of the finest pixels among them, whatever size was asked for. Without files, files are looked up for the size asked for, or for 10^6 faces. Anything else is refused and changes nothing.", "quantifier": "all values assigned, all files on disk with any pixel sizes and units, all sizes asked for before, all results of the look-up", "why_tests_cant": "Tests use one list of files in metres; the claim is about every list, every unit and every way a file can fail to open.", "anchors": ["cratermaker/components/surface/datasurface.py:DataSurface.dem_file_list"]}
{"id": "C205", "title": "A data surface starts from the elevations of its files whatever happened in its directory", "statement": "Whenever a data surface is built or reset its elevations are those its files give on its mesh, whatever craters were emplaced before and whatever data surfaces were built in the same directory before.", "quantifier": "all histories of building (with or without new mesh, with given or automatic scale factor), changing the elevations and resetting, with any settings and any mesh sizes", "why_tests_cant": "Tests build a surface in a fresh directory; what a saved file of another mesh does shows only in histories with several settings.", "anchors": ["cratermaker/components/surface/datasurface.py:DataSurface.reset", "cratermaker/components/surface/datasurface.py:DataSurface._regrid_if_needed", "cratermaker/components/surface/datasurface.py:DataSurface._add_global_dem_elevation", "cratermaker/components/surface/__init__.py:Surface._save_data"]}
{"id": "C206", "title": "Craters are counted exactly when asked", "statement": "do_counting of a morphology model or simulation, given at construction or assigned later, decides whether craters formed afterwards are counted; they are listed as emplaced in any case. Without it, craters are counted exactly when a counting object was given. A resumed simulation keeps the choice it was saved with.", "quantifier": "all constructor arguments, all histories of assignments of do_counting and counting, all craters", "why_tests_cant": "Tests use the default or one flag; the claim is about every combination of arguments and every later history of assignments.", "anchors": ["cratermaker/components/morphology/__init__.py:Morphology.__init__", "cratermaker/components/morphology/__init__.py:Morphology.counting", "cratermaker/components/morphology/__init__.py:Morphology.do_counting", "cratermaker/components/morphology/__init__.py:Morphology.form_crater", "cratermaker/core/simulation.py:Simulation.__init__"]}
{"id": "C207", "title": "The outline of a local region can be written to a file", "statement": "export_region_polygon of a local region writes its outline and area to a file of the format asked for; for the whole surface it writes nothing, and unknown formats are refused.", "quantifier": "all regions, areas and drivers", "why_tests_cant": "The function is not called by any test; the claim is about every region and driver.", "anchors": ["cratermaker/components/surface/__init__.py:LocalSurface.export_region_polygon"]}
{"id": "C208", "title": "The number of intervals of a run does not change the statistics of its craters", "statement": "Dividing a period into more or fewer intervals, of equal or unequal length, does not change the joint distribution of the numbers of craters in boxes of diameters and regions: the craters of all intervals together have the same distribution as those of a single population for the whole period.", "quantifier": "for all divisions of a period without gap or overlap, production functions that are a size distribution times a chronology (Neukum's for the Moon and Mars and all falling power laws), diameter ranges, meshes, and finite families of disjoint boxes", "why_tests_cant": "it is an equality of joint distributions for every schedule; runs only sample from them", "anchors": ["cratermaker/components/production/__init__.py: Production.sample, Production.function", "cratermaker/core/simulation.py: Simulation.run, Simulation.populate", "cratermaker/utils/montecarlo_utils.py: get_random_size"]}
{"id": "C209", "title": "Results do not depend on how the work is shared between threads", "statement": "The compiled functions run their loops on several threads; their results (slopes, gradients, distances, bearings, noise, rim distances, ray intensities) are the same for every number of threads and every order in which the threads work, and the loops end.", "quantifier": "for all numbers of elements, all ways to divide the indices between threads, and all interleavings of their steps", "why_tests_cant": "A test sees one interleaving on one machine; the claim is about every schedule of the threads.", "anchors": ["crates/cratermaker-components/src/surface/mod.rs: compute_slope, compute_radial_gradient, compute_distances, compute_bearings, turbulence_noise", "crates/cratermaker-components/src/counting/mod.rs: radial_distance_to_crater_rim, measure_floor_depth, measure_rim_height, fit_one_circle", "crates/cratermaker-components/src/morphology/basicmoon.rs: ray_intensity, ray_intensity_func"]}
{"id": "C210", "title": "A generator, seed or state that is assigned is used from then on, by all parts of a simulation", "statement": "The parts of a simulation draw from one sequence of random numbers, none twice and none left out. Assigning rng, rng_seed or rng_state changes the numbers that are drawn afterwards, by the object and by its parts; assigning None makes a new generator from the seed.", "quantifier": "for all generators, seeds, states, and histories of draws by any number of objects in any order", "why_tests_cant": "The claim is about every order in which objects sharing a generator draw.", "anchors": ["cratermaker/core/base.py: CratermakerBase.rng, CratermakerBase.rng_seed, CratermakerBase.rng_state, CratermakerBase.common_args, _rng_init"]}
{"id": "C211", "title": "The volume of the surface is the same after any history", "statement": "However many craters with ejecta, sub-pixel degradations, slope collapses and noise a surface has gone through, on whatever regions and in whatever order, the sum of elevation times area over all faces is the one it had at the beginning, also if an exception ended the history; and faces outside all the regions keep their elevations.", "quantifier": "for all meshes, all regions, all finite histories of events whose shapes depend in any way on the surface at the time", "why_tests_cant": "An invariant over histories of unbounded length on all meshes.", "anchors": ["cratermaker/components/morphology/__init__.py: Morphology.form_crater, Morphology.form_ejecta", "cratermaker/components/morphology/basicmoon.py: BasicMoonMorphology.form_ejecta, apply_subpixel_degradation", "cratermaker/components/surface/__init__.py: LocalSurface.apply_diffusion, LocalSurface.slope_collapse, LocalSurface.apply_noise, LocalSurface.update_elevation"]}
{"id": "C212", "title": "Face sizes found automatically let ejecta just reach the local region", "statement": "When the face sizes outside a local region are found automatically (negative scale factor, or set_superdomain), the search ends for every law of ejecta; the sizes found never decrease with distance, cover the whole body, and at each distance are those of the smallest craters whose ejecta reach that far. The scale factor that is set or reported is the ratio of the largest face size to the pixel size, setting it or the pixel size again changes the face sizes accordingly, and a surface made again with the reported factor has the same face sizes.", "quantifier": "every body, every law of the extent of ejecta, every pixel size, local radius, scale factor and result of the fit", "why_tests_cant": "the search runs over an unknown function for as many steps as the body needs; one body and one law of ejecta say nothing about termination or order for others, and the kept slope matters only for sequences of settings", "anchors": ["cratermaker/components/surface/hireslocal.py:HiResLocalSurface.set_superdomain", "cratermaker/components/surface/hireslocal.py:HiResLocalSurface.superdomain_function", "cratermaker/components/surface/hireslocal.py:HiResLocalSurface.superdomain_function_slope", "cratermaker/components/surface/hireslocal.py:HiResLocalSurface.superdomain_scale_factor", "cratermaker/components/surface/hireslocal.py:HiResLocalSurface._hashvars"]}
{"id": "C213", "title": "All files of a simulation are in its directory", "statement": "The configuration of a simulation and the files of all its components are in (subdirectories of) the directory that was named when it was made, or in the working directory if none was named; this stays so when the process changes its working directory and when another directory is assigned, and a value that is no directory is refused. Saved files, exports and pictures of components never share a directory by accident.", "quantifier": "all working directories, all relative and absolute paths given as strings or Path objects, with any number of '..', all numbers of components", "why_tests_cant": "tests run in one working directory; the claim is about every path and about changes of the working directory and reassignments during the life of a simulation", "anchors": ["cratermaker/core/base.py:_simdir_init", "cratermaker/core/base.py:CratermakerBase.simdir", "cratermaker/core/base.py:CratermakerBase.output_dir", "cratermaker/core/base.py:CratermakerBase.export_dir", "cratermaker/core/base.py:CratermakerBase.plot_dir", "cratermaker/core/base.py:CratermakerBase.common_args", "cratermaker/core/simulation.py:Simulation.__init__", "cratermaker/core/simulation.py:Simulation.config_file"]}
{"id": "C214", "title": "Cleaning up removes what a simulation has written, and nothing else", "statement": "After cleanup(simdir) neither the configuration file nor any saved data, picture or exported file of the simulation in that directory is left, so that a new simulation begins as new; every other file, inside or outside that directory, is still there; and the clean-up does not end half done.", "quantifier": "every directory and every set of files on the disk", "why_tests_cant": "A test cleans one directory that holds only what one run has written; that nothing else is taken must hold for whatever other files a user keeps there.", "anchors": ["cratermaker/utils/general_utils.py: cleanup", "cratermaker/constants.py: _COMPONENT_NAMES, _CONFIG_FILE_NAME", "cratermaker/core/base.py: _export_dir_name"]}
{"id": "C215", "title": "Craters that are emplaced together do not influence each other", "statement": "Craters whose ejecta reach no common face or node are emplaced in one batch; the surface (elevations of faces and nodes, ejecta layer) and the count (marks on faces, list of observed craters) after a batch do not depend on the order in which its craters are formed, so that they may be formed at the same time.", "quantifier": "every mesh, surface, queue of craters, and every order of the craters within each batch; whatever the shapes, collapse, ejecta and diffusion compute", "why_tests_cant": "A test emplaces a few craters in one order; independence is about all orders, for all regions and all states of the surface.", "anchors": ["cratermaker/components/morphology/__init__.py: CraterQueueManager.peek_next_batch, Morphology.form_crater, Morphology.form_ejecta, MorphologyCrater.affected_face_indices", "cratermaker/components/morphology/basicmoon.py: overlap_function, form_ejecta", "cratermaker/components/counting/__init__.py: Counting.add"]}
{"id": "C216", "title": "Diffusion and slope collapse only smooth", "statement": "Diffusion with non-negative diffusivity and slope collapse never make a surface rougher (the area-weighted sum of squared heights above any level does not grow). Diffusion leaves the surface unchanged exactly if no edge that material can flow across has different heights on its sides, and makes it smoother otherwise. It is linear in the elevations, keeps the order of two surfaces, and does not enlarge differences between them. Repeated often enough with positive diffusivity, it brings every face of a connected surface as close to the mean height as one likes.", "quantifier": "every mesh with positive areas and distances, every diffusivity and elevation field, every critical slope and level", "why_tests_cant": "Tests diffuse a few surfaces; that no surface becomes rougher depends on the number of time steps the code chooses for every mesh and diffusivity.", "anchors": ["crates/cratermaker-components/src/surface/mod.rs: apply_diffusion, compute_dt_max, slope_collapse"]}
{"id": "C217", "title": "Every crater of the production acts on the surface once: it is made, or it is part of the degradation by craters below the resolution", "statement": "Craters that the mesh cannot resolve are not lost: between batches each face is degraded by the combined effect of all craters of the production that are too small to be made on it, and no others. The degradation of a period does not depend on the number of calls in which it is computed, is never negative, and grows with the size of the face and the length of the period. A crater is either made or within the range of diameters that is degraded, not both and not neither. A period that does not go forward raises ValueError, a missing production function RuntimeError.", "quantifier": "all meshes, all production functions, all periods and divisions of a period, all diameters and centers of craters", "why_tests_cant": "The claim is about an integral over all diameters and about every way of dividing a period; tests evaluate single faces and periods, and cannot see that each diameter is used once.", "anchors": ["cratermaker/components/morphology/basicmoon.py: BasicMoonMorphology.compute_subpixel_degradation, degradation_function", "cratermaker/components/morphology/__init__.py: Morphology.form_crater, MorphologyCraterVariable.crater_region, emplaceable", "cratermaker/components/surface/__init__.py: Surface.face_bin_indices, face_bin_max_sizes, extract_region", "cratermaker/core/simulation.py: Simulation.populate"]}
{"id": "C218", "title": "Distances, bearings and destinations do not depend on the prime meridian, and a mirrored surface behaves as the mirror image", "statement": "If all longitudes, including that of the reference point, change by the same angle, distances and bearings stay exactly the same and the places at given distances and bearings move by that angle, also across the date line, over the poles and for coordinates outside the usual ranges. If east and west are exchanged, distances stay, a bearing b becomes -b. If north and south are exchanged, distances stay and a bearing b becomes 180 - b for every place that is neither the reference point nor opposite to it. What was an error stays the same error.", "quantifier": "all locations in all accepted shapes, all reference points, all regions, distances and bearings, all angles", "why_tests_cant": "The relation is between two calls for every angle and every set of points; wrapping at the date line and reflection at the poles make it easy to break for points that no test uses.", "anchors": ["cratermaker/components/surface/__init__.py: Surface.compute_distances, compute_bearings, compute_location_from_distance_bearing", "crates/cratermaker-components/src/surface/mod.rs: compute_one_distance, compute_one_bearing, compute_one_location_from_distance_bearing, positive_mod", "cratermaker/utils/general_utils.py: normalize_coords, validate_and_normalize_location"]}
{"id": "C219", "title": "The intervals of a run with a time step, as computed in double precision", "statement": "Simulation.run(time_start=..., time_end=..., time_interval=...) accepts every time step that is not longer than the period, simulates as many intervals as are needed to cover the period, each beginning where the last one ended, the last one ending with the period, and a run that is resumed goes on with the first interval that was not simulated; this holds in spite of rounding.", "quantifier": "every start time, end time and time step in double precision, and every number of intervals after which a run is interrupted", "why_tests_cant": "whether rounding adds, drops, repeats or breaks an interval depends on the last bits of the arguments; tests use a few round numbers", "anchors": ["cratermaker/core/simulation.py:Simulation._validate_run_args", "cratermaker/core/simulation.py:Simulation.run", "cratermaker/components/production/__init__.py:Production._validate_age"]}
{"id": "C220", "title": "The intervals of a run with equal numbers of craters, as computed in double precision", "statement": "Simulation.run(..., ninterval=n) simulates n intervals, each beginning with the number of craters at which the last one ended, and the last one ending with the final number, for every number of craters and every n.", "quantifier": "every number of craters in double precision and every number of intervals up to 2^50", "why_tests_cant": "the number at the end of the last interval is the difference of two nearly equal numbers, and its sign depends on rounding; tests use a few numbers", "anchors": ["cratermaker/core/simulation.py:Simulation.run", "cratermaker/core/simulation.py:Simulation._validate_run_args", "cratermaker/components/production/__init__.py:Production._validate_csfd"]}
{"id": "C221", "title": "A run with equal numbers of craters resumes where it stopped", "statement": "After any number of completed intervals of Simulation.run(..., ninterval=n), calling run again with the same arguments simulates exactly the intervals that are missing, although the times that belong to numbers of craters are found by a root finder with a tolerance.", "quantifier": "every production function that is a product of a function of size and one of time, every number of craters and of intervals, every interruption between intervals, and every root finder with errors below a sixth of an interval", "why_tests_cant": "whether an interval is repeated depends on the sign of the error of the root finder at every interruption point", "anchors": ["cratermaker/core/simulation.py:Simulation.run", "cratermaker/components/production/__init__.py:Production.age_from_D_N"]}
{"id": "C222", "title": "Longitudes stay in their range in double precision", "statement": "With numbers of double precision, a normalised latitude is in [-90, 90] and a normalised longitude in [-180, 180) and equal, up to a rounding error far below a micrometre on the ground, to the one given up to full turns; a location over a pole is turned to the other side of it, up to such an error; longitudes that are multiples of a power of two are normalised without error; a normalised location stays as it is when normalised again, so that a crater read from a file has the location it had. It fails for longitudes just below -180, which become 180, and then -180 when normalised again.", "quantifier": "every longitude and latitude of double precision", "why_tests_cant": "Ranges over all 2^64 longitudes; the exceptions are single numbers next to the date line.", "anchors": ["cratermaker/utils/general_utils.py:normalize_coords"]}
{"id": "C223", "title": "A measured orientation lies in [0, 360)", "statement": "With numbers of double precision, an orientation assigned to a crater is reported as an angle of at least 0 and less than 360 degrees that equals the one given up to full turns and rounding, and stays as it is when assigned again. It fails for angles below a full turn by at most 2^-45 degrees, which are reported as 360 and then as 0.", "quantifier": "every orientation of double precision", "why_tests_cant": "Ranges over all numbers; the exceptions lie in an interval of 10^-14 degrees.", "anchors": ["cratermaker/components/crater/__init__.py:CraterVariable.measured_orientation"]}
{"id": "C224", "title": "A region given by a slice is the same region for numpy and for the compiled code, and reports its size", "statement": "For a region whose faces are given by a slice (any start, stop and step, negative ones counted from the end), the faces on which the compiled code works are the faces whose values numpy selects with the slice, in the same order, all of them faces of the surface and none twice; a slice is rejected only if its step is zero; and the number of faces that the region reports is the number of its faces, so that every compiled loop over the faces stays within the values.", "quantifier": "every slice, every number of faces, every array of values", "why_tests_cant": "The bounds, the step, its sign and the length are unbounded integers that two different implementations (numpy and a hand-written loop in Rust) must treat alike, and a wrong size shows only for slices that leave out faces.", "anchors": ["cratermaker/components/surface/__init__.py:LocalSurface.n_face", "crates/cratermaker-py/src/surface_bindings.rs:ensure_index_array", "crates/cratermaker-components/src/surface/mod.rs:compute_slope"]}
{"id": "C225", "title": "Diffusion keeps its properties under rounding", "statement": "In double precision, diffusion of a surface of equal elevations changes nothing, not even the last digit; in no round does a face that is nowhere lower than its neighbours rise or a face that is nowhere higher sink; and no volume is created or destroyed.", "quantifier": "every mesh, every elevation, every diffusivity that is not negative, every time step and number of rounds, all roundings", "why_tests_cant": "Rounding errors depend on every digit of every elevation, area and diffusivity, and add up over the edges of a mesh of any size.", "anchors": ["crates/cratermaker-components/src/surface/mod.rs:apply_diffusion", "crates/cratermaker-components/src/surface/mod.rs:extract_edge_faces"]}
{"id": "C226", "title": "Elevations of nodes are means of the faces around them under rounding", "statement": "In double precision, the elevation of a node is the mean of the elevations of the faces around it, weighted with their areas, up to a small multiple of the rounding error; faces at elevation zero give nodes at elevation zero, and faces of equal elevation give nodes of this elevation.", "quantifier": "every number of faces, every elevation and area, all roundings", "why_tests_cant": "The error depends on all digits of the areas and elevations; equal elevations come out right for most numbers a test would pick, and wrong for others.", "anchors": ["crates/cratermaker-components/src/surface/mod.rs:interpolate_node_elevation_from_faces"]}
{"id": "C227", "title": "A random point on a face is inside the face under rounding", "statement": "In double precision, for every number a generator can draw, one of the triangles of a face is chosen, the one that the exact areas give unless the number is within a few rounding errors of a border between triangles; and the weights of its three corners add up to one and none of them is negative, so that the point lies in the triangle.", "quantifier": "every number of triangles, all areas, all draws, all roundings", "why_tests_cant": "The failing draws are single numbers out of 2^53, so that no random test meets them, and which areas fail depends on their last digits.", "anchors": ["cratermaker/utils/montecarlo_utils.py:_get_one_random_location", "cratermaker/utils/montecarlo_utils.py:get_random_location_on_face"]}
{"id": "C228", "title": "A draw from a table of crater numbers always finds its place under rounding", "statement": "In double precision, for every table of cumulative crater numbers and every number a generator can draw, the drawn value lies between two neighbouring entries of the normalised table: the draw is not below the first entry and is below the last one, no index is outside the table, and nothing is divided by zero.", "quantifier": "every sorted table of positive numbers, every draw, every logarithm that keeps the order, all roundings", "why_tests_cant": "The draws that are rounded up to the end of the table are single numbers out of 2^53; no random test meets them.", "anchors": ["cratermaker/utils/montecarlo_utils.py:sample_from_sfd"]}
{"id": "C229", "title": "The grid of a local region is complete under rounding", "statement": "In double precision, the mesh points made for the inside of a local region are a complete grid: every point lies at whole numbers of pixels from the centre within the local radius, and every such place below the local radius in whole pixels gets exactly one point.", "quantifier": "every body radius, pixel size and local radius up to 16000 pixels and three body radii, every place of the grid, all roundings", "why_tests_cant": "Whether a place on the limit of two rings is taken by one, both or neither of them depends on the last digits of the body radius and the pixel size; a test tries a few.", "anchors": ["cratermaker/components/surface/hireslocal.py:HiResLocalSurface._generate_face_distribution"]}
{"id": "C230", "title": "Rounding the coordinates keeps the points of a mesh in place and apart", "statement": "When the coordinates of the points of a mesh with a local region are rounded and equal points are united, no point is lost, none occurs twice, every point stays within a pixel of where it was made, and points made one pixel apart stay one pixel apart.", "quantifier": "every body radius, pixel size and list of points, every way of breaking ties", "why_tests_cant": "How far points are moved, and whether two of them meet, depends on the pixel size relative to the last decimal kept and on the place of every point.", "anchors": ["cratermaker/components/surface/hireslocal.py:HiResLocalSurface._generate_face_distribution", "cratermaker/components/surface/datasurface.py:DataSurface._generate_face_distribution"]}
{"id": "C231", "title": "The spectrum of a crater surface is that of a real surface around the frequency zero", "statement": "The two-dimensional spectrum of the floor, wall or ejecta of a crater gives opposite waves the same power, gives the waves of each quadrant the power drawn for it, falls with the frequency from the drawn maximum before the noise, and what is returned are the waves up to the largest frequency asked for.", "quantifier": "every size of the grid, every drawn quadrant and coefficient, every largest frequency and width of the feature", "why_tests_cant": "The array is put together from thirteen slices with reversed order; whether it is symmetric at every index, for every size, and whether the slice that is returned lies around the frequency zero depends on the width of the feature.", "anchors": ["cratermaker/components/morphology/realisticmoon.py:RealisticMoonMorphology._get_2D_power_spectral_density"]}
{"id": "C232", "title": "The spectrum of a crater outline is the drawn broken line at the longest waves", "statement": "The one-dimensional spectrum of a crater outline returns the waves that go a whole number of times around the crater, from the shortest kept to the longest, with a power that before the noise follows the broken line through the drawn points; the means of the drawn numbers change continuously with the diameter of the crater.", "quantifier": "every set of drawn break points and slopes, every number of waves, every noise, every set of coefficients", "why_tests_cant": "Which wave falls on which side of the drawn break depends on the rounding of an index for every real break.", "anchors": ["cratermaker/components/morphology/realisticmoon.py:RealisticMoonMorphology._get_1D_power_spectral_density"]}
{"id": "C233", "title": "A crash during a save leaves a surface and crater lists that belong together", "statement": "Whatever the point at which a save of a simulation is interrupted, a simulation opened again on the directory starts from a surface and from lists of observed and emplaced craters of one and the same save, the one before or the new one.", "quantifier": "every history of saves and every crash point of one more save", "why_tests_cant": "The process must be stopped between any two of the writes of a save, after any history; tests run saves to their end.", "anchors": ["cratermaker/core/simulation.py:Simulation.save", "cratermaker/components/counting/__init__.py:Counting.save", "cratermaker/components/counting/__init__.py:Counting.__init__", "cratermaker/components/surface/__init__.py:Surface._load_from_files"]}
{"id": "C234", "title": "Face size bins partition the mesh under rounding", "statement": "With the rounding of the computer the bins of face sizes still hold every face exactly once, faces of a bin differ by less than a factor of two in area up to the rounding, and making the bins raises no error for a mesh whose areas are not exact powers of two apart.", "quantifier": "every list of face areas, every rounding of the division and of the logarithm that keeps the order", "why_tests_cant": "Whether a face falls beyond the last bin is decided by the last bit of a quotient and a logarithm; the areas for which it happens are a few among all meshes.", "anchors": ["cratermaker/components/surface/__init__.py:Surface._compute_face_bins"]}
{"id": "C235", "title": "The saved lists of emplaced craters tell every crater that was formed, once", "statement": "The files of emplaced craters that a simulation saves, taken over all intervals, contain every crater that was formed since the simulation began, by emplace, populate or a run, exactly as often as it was formed, and no other crater; no crater that is on a saved surface is missing from all of them. The first run of a new simulation saves the craters of its n-th interval under the number n, and no list for an interval without craters.", "quantifier": "Every history of emplace, populate, save and run calls on a new simulation, of any length, with any number of intervals and any craters in each", "why_tests_cant": "Whether a crater gets lost depends on the order of the calls since the last save, and on whether intervals are empty; tests run a few orders.", "anchors": ["cratermaker/core/simulation.py:Simulation.run", "cratermaker/core/simulation.py:Simulation.emplace", "cratermaker/core/simulation.py:Simulation.save", "cratermaker/components/counting/__init__.py:Counting.save", "cratermaker/components/morphology/__init__.py:Morphology.form_crater"]}
{"id": "C236", "title": "Looking at a simulation shows the state asked for and leaves the saved states alone", "statement": "A plot of a simulation without an interval shows the present state under the number of the present interval, with a label made from it; a plot of a saved interval shows the state saved for it with its times, and changes nothing. However often a simulation is plotted and exported, what is saved for each interval stays the state in which that interval ended.", "quantifier": "every simulation state, every set of saved states, every history of intervals of runs, saves, plots and exports, of any length", "why_tests_cant": "Ranges over histories of unbounded length and over all sets of saved states.", "anchors": ["cratermaker/core/simulation.py:Simulation.plot", "cratermaker/core/simulation.py:Simulation.save", "cratermaker/core/simulation.py:Simulation.export", "cratermaker/components/surface/__init__.py:LocalSurface.plot"]}
{"id": "C237", "title": "The mesh of craters has their outlines and marks in the right places", "statement": "`Counting.to_vtk_mesh(craters=..., crater_style=...)` gives for outlines exactly one line for each closed line of each crater's outline, going in order through the points with these longitudes and latitudes at the radius of the body, and no point of one line belongs to another; in the other styles it gives one point per crater, in order, in the direction of the crater (its measured location if measured properties are asked for) and above the surface by half the size the mark is shown with (by the radius for spheres). Other styles raise.", "quantifier": "all lists of craters, outlines of any number of parts and points, locations, elevations, face sizes, factors and styles", "why_tests_cant": "The positions of points in a line are counted over all outlines before it, so an error shows only for certain numbers of outlines and points; a test can look at a few craters.", "anchors": ["cratermaker/components/counting/__init__.py: Counting.to_vtk_mesh", "cratermaker/components/counting/__init__.py: Counting.pyvista_plotter"]}
{"id": "C238", "title": "A mesh of the surface is made of the state of the interval asked for", "statement": "`to_vtk_mesh` of a surface or region without arguments is made of the surface as it is, with an interval number of what was saved for that interval, and with a dataset of several intervals and a number of the state with that number in the dataset; it raises if there is no such state.", "quantifier": "all sets of saved intervals, datasets with any numbers of intervals, and interval numbers", "why_tests_cant": "Numbers and positions agree for datasets whose intervals begin with 0 and have no gaps, which are the ones a test usually makes.", "anchors": ["cratermaker/components/surface/__init__.py: LocalSurface.to_vtk_mesh", "cratermaker/components/surface/__init__.py: Surface.to_vtk_mesh"]}
{"id": "C239", "title": "The tables of a region form a complete mesh", "statement": "The connectivity tables read through a region (faces to nodes, edges and faces; edges and nodes to faces) say of its elements what those of the whole mesh say, with places in the region's own lists. In the mesh of a region every face has all its nodes and every edge both its faces; every face within the radius has all its edges and neighbours and its nodes have all their faces; and the tables agree with each other. The same holds for a region taken out of a region.", "quantifier": "all meshes with consistent tables, all locations, radii and regions", "why_tests_cant": "Whether an element is missing depends on the layout of the mesh around the border of the region, for every mesh and radius; tests look at a few regions of one mesh.", "anchors": ["cratermaker/components/surface/__init__.py: LocalSurface.face_node_connectivity", "cratermaker/components/surface/__init__.py: LocalSurface.edge_face_connectivity", "cratermaker/components/surface/__init__.py: LocalSurface._remap_connectivity_to_local", "cratermaker/components/surface/__init__.py: Surface.extract_region", "cratermaker/components/surface/__init__.py: LocalSurface.extract_subregion"]}
{"id": "C240", "title": "Reading all saved intervals at once gives every interval as it is read alone", "statement": "After any history of changes and saves of a surface, reading the saved output without naming an interval succeeds and gives a dataset with exactly the saved intervals, in order. Every variable has at every interval the values that reading this interval alone gives, and no variable has values at an interval where it was not saved. It is also possible after a region of the surface was saved.", "quantifier": "every mesh, every history of changes, saves and added variables, every set of saved intervals, every variable and interval", "why_tests_cant": "The files of the intervals may have different variables; whether they can be combined and what is filled in depends on the whole history of saves, of which a test shows only a few.", "anchors": ["cratermaker/core/base.py: CratermakerBase.read_saved_output, CratermakerBase._output_file_processor", "cratermaker/components/surface/__init__.py: LocalSurface.read_saved_output, Surface._save_data, LocalSurface.save"]}
{"id": "C241", "title": "A crater and its ejecta conserve volume under rounding", "statement": "In double precision, whatever the order in which volumes of faces are added up, the ejecta of a crater has exactly the volume that the crater takes away, the volume of the surface is the same before and after, no face loses elevation to the ejecta of an excavation, and a face that the ejecta profile does not reach gets nothing.", "quantifier": "every mesh, every crater shape and ejecta profile that reaches the region, every order and grouping of the sums, all roundings", "why_tests_cant": "The error depends on all values and on the order of the additions, which numpy chooses by the size of the array and the processor.", "anchors": ["cratermaker/components/morphology/__init__.py: Morphology.form_crater, Morphology.form_ejecta", "cratermaker/components/surface/__init__.py: LocalSurface.compute_volume"]}
{"id": "C242", "title": "A resumed simulation has the settings of the session that was saved", "statement": "Every setting of a component of a simulation (coefficient and slope of a power law, mass and kind of transition of the target, mean velocity and sampling of projectiles, Monte Carlo scaling, constants of the scaling) that was given at construction or assigned afterwards has the same value in a simulation resumed from the saved configuration without arguments; a setting given again has the value given again; and a simulation that could be made can be resumed.", "quantifier": "all arguments, all histories of assignments, all arguments of the resumed simulation, all targets", "why_tests_cant": "every combination of settings, assignments and later arguments is a case of its own, and a lost setting shows only as other statistics", "anchors": ["cratermaker/utils/general_utils.py: Parameter, parameter", "cratermaker/core/base.py: _to_config", "cratermaker/core/simulation.py: Simulation.__init__, to_config", "cratermaker/components/production/powerlaw.py: PowerLawProduction", "cratermaker/components/scaling/montecarlo.py: MonteCarloScaling.__init__, monte_carlo_scaling", "cratermaker/components/target/__init__.py: Target", "cratermaker/components/projectile/__init__.py: Projectile"]}
{"id": "C243", "title": "The components of a simulation belong to each other", "statement": "The target, projectiles, scaling model, surface, counting object, morphology model and production function of a simulation refer to each other: its craters are formed on the surface that it saves and plots, recorded in the counting object that it saves and shows, and scaled for its target. This holds when the components are given by name or left out, or when the objects given refer only to each other. It fails otherwise: a surface object keeps its own target, a counting object its own surface, a morphology object its own surface, counting object, scaling model and production function, and assigning a component later never changes the others.", "quantifier": "all combinations of components given as objects, by name or not at all, all objects made before, and all later assignments of objects", "why_tests_cant": "There are 128 combinations of components given as objects or not, with any earlier connections among the objects; tests use few of them.", "anchors": ["cratermaker/core/simulation.py: Simulation.__init__, target, surface, counting, morphology, scaling, projectile, production setters", "cratermaker/components/morphology/__init__.py: Morphology.__init__, counting setter", "cratermaker/components/scaling/__init__.py: Scaling.maker", "cratermaker/core/base.py: ComponentBase.maker"]}
{"id": "C244", "title": "A crater has the impact velocities, angle, direction and projectile density it is given", "statement": "Of velocity, vertical velocity and angle any two may be given to a new crater and the third follows from them; a mean velocity alone is the one for which a velocity is drawn; an orientation or a direction, not both, is the direction of the projectile; anything beyond is refused. A copy of a crater, with or without a new size, has the velocity, vertical velocity, angle, direction and projectile density that it is given, and otherwise those of the original.", "quantifier": "every combination of given velocity, vertical velocity, mean velocity, angle, orientation, direction and density, every original crater, every projectile population and every draw, with and without the check for redundant arguments", "why_tests_cant": "The arguments interact: which old values are dropped depends on how many velocities are given, and a test of one combination shows nothing about the others; a value that is silently ignored shows only where the result depends on it.", "anchors": ["cratermaker/components/crater/__init__.py:Crater.maker", "cratermaker/components/crater/__init__.py:CraterFixed", "cratermaker/components/projectile/__init__.py:Projectile.maker", "cratermaker/components/projectile/__init__.py:Projectile.new_projectile", "docs/user-guide/crater.rst"]}
{"id": "C245", "title": "The list of prescribed craters can be changed at any time", "statement": "Craters appended to quasimc_craters are part of the list from the next reading on: it then holds every crater with production metadata once, each with a formation time drawn from its own metadata, oldest first, and random craters are no larger than they are. Reading the list again changes nothing. While craters are appended between the rounds of a simulation, every prescribed crater is emplaced once if its time is in the period of the rounds. The last holds for craters without uncertainty; it fails for craters with an uncertain time, because appending any crater draws the times of all the others anew: they can be emplaced twice or never. Craters appended with a time of their own and without metadata are silently lost with the next crater that is appended.", "quantifier": "all lists, appended craters, draws and sequences of appending, reading and rounds", "why_tests_cant": "Which craters are lost or emplaced twice depends on the random draws and on when craters are appended relative to the rounds; a test sees one seed and one order.", "anchors": ["cratermaker/components/production/__init__.py:Production.quasimc_craters", "cratermaker/components/production/__init__.py:Production._process_quasimc_craters", "cratermaker/components/production/__init__.py:Production.quasimc_merge", "docs/user-guide/production.rst:Modifying the Quasi Monte Carlo crater list"]}
{"id": "C246", "title": "Prescribed craters with sequence numbers form at the age that is given for them", "statement": "Prescribed craters whose ages or crater numbers are given without uncertainty and do not contradict their sequence numbers form exactly at the age given, for any number of sequence numbers and of craters in each. It holds if all craters of a sequence number have the same number, also when the numbers of other sequence numbers are uncertain, as long as their ranges do not reach beyond it; if the uncertain range of the previous sequence number reaches below an exactly known number, that crater forms too late, by a quarter of the overlap; craters of one sequence number with different numbers all form at the same time, the age of the mean of their numbers. The mean lies between the least and the largest number, and its uncertainty decreases with the number of craters combined.", "quantifier": "all lists of sequence numbers with any craters, numbers and ages, all increasing chronologies", "why_tests_cant": "the range of each sequence number depends on all craters with that number and on its neighbours; tests look at a few lists with one crater per number", "anchors": ["cratermaker/components/production/__init__.py: _process_quasimc_craters, _get_sequence_extents, _draw_quasimc_time"]}
{"id": "C247", "title": "A crater without a time gets a time drawn for its own size", "statement": "Every crater handed to the merge without a time gets the time that was drawn for its own diameter, whatever its place in the list. (Fails: the drawn times are sorted before they are handed out in list order. Exactly: every crater gets its own time if and only if the drawn times happen to fall along the list, and of two craters without a time the earlier one in the list is never the younger.)", "quantifier": "every list of craters with and without times, every production function, window, random draw and list of prescribed craters", "why_tests_cant": "It is a statement about all draws and lists; a test with one crater or a fixed seed cannot see that the order of the list decides.", "anchors": ["cratermaker/components/production/__init__.py: Production.compute_time, Production.quasimc_merge"]}
{"id": "C248", "title": "What a surface says about its mesh is about the mesh it has now", "statement": "After any sequence of questions (areas and sizes of faces, total area, positions, lengths, bins of faces, nearest face, number of faces) and of loadings that make the mesh anew, every answer is the one for the present mesh. (Fails: when set_superdomain makes a new mesh for an existing surface, only areas, sizes and numbers of faces follow; total area, smallest length, positions, distances, edge lengths, bins and the nearest face stay for ever those of the mesh for which they were first asked, so that bins can name faces that do not exist.)", "quantifier": "every pair of meshes, every sequence of questions before and after", "why_tests_cant": "It depends on which quantities were read before the mesh was replaced, in any order; tests make a surface once.", "anchors": ["cratermaker/components/surface/__init__.py: Surface.area, Surface.face_bin_indices, Surface.face_tree, Surface.find_nearest_face, Surface._generate_grid, Surface._load_from_files", "cratermaker/components/surface/hireslocal.py: HiResLocalSurface.set_superdomain"]}
{"id": "C249", "title": "The mesh settings a surface reports are those of its mesh, and saved states survive opening the simulation again", "statement": "After any history of assigning gridlevel, pix, local_radius, local_location or superdomain_scale_factor to the surface of a simulation, saving, running and opening it again, the surface reports the settings its mesh was made with, and a simulation opened again without arguments still has every saved state. (Fails: an assignment changes neither the mesh nor the saved states but is reported and, in the process that made the simulation, written to the configuration file by the next save or run; opening the simulation again then makes a new mesh and removes all saved states without asking. In a simulation that was opened again the assignment has no lasting effect.)", "quantifier": "all settings, all histories of assignments, saves, runs and openings, all folders", "why_tests_cant": "Whether states survive depends on the order of assignments and writes over several processes; a test checks one history.", "anchors": ["cratermaker/core/simulation.py:Simulation.__init__", "cratermaker/core/simulation.py:Simulation.__setattr__", "cratermaker/core/simulation.py:Simulation.save", "cratermaker/core/simulation.py:Simulation.to_config", "cratermaker/components/surface/__init__.py:Surface._load_from_files", "cratermaker/components/surface/icosphere.py:IcosphereSurface.gridlevel", "cratermaker/components/surface/arbitrary_resolution.py:ArbitraryResolutionSurface.pix", "cratermaker/components/surface/hireslocal.py:HiResLocalSurface.pix"]}
{"id": "C250", "title": "Arrays of values that were read from a surface or a region are snapshots", "statement": "An array read from a surface or region (surface.face_elevation, region.face_elevation, ...) has the values of that moment. Later changes of the surface do not change it, so that a state kept for comparison stays what it was, and writing to the array does not change the surface. Asking for derived values, such as the reference surface of a region, changes nothing either.", "quantifier": "every variable, region and history of additions, overwrites, resets, deletions, reads and writes of the user to arrays they hold", "why_tests_cant": "Whether two arrays share memory shows only in histories in which one is changed after the other was read; there are unboundedly many such histories.", "anchors": ["cratermaker/components/surface/__init__.py: Surface.__getattr__, LocalSurface.__getattr__, LocalSurface.add_data, Surface._add_new_data, Surface.reset, LocalSurface.get_reference_surface"]}
{"id": "C251", "title": "A prescribed crater with a sequence number only forms around the number of craters interpolated between its neighbours", "statement": "When some sequence numbers have craters with known crater numbers (or ages) and others have craters with nothing but the sequence number, assigning the list succeeds and every crater gets a time. The number promised for a sequence number without metadata is the one on the straight line between the nearest sequence numbers with a number, zero for the last. Its craters form between the ages half way, in numbers, from the promised number to those of the neighbouring sequence numbers; with uncertain numbers whose ranges do not overlap, half way to the ends of the ranges. The centre of the range is the promised number only if the sequence number is half way between its neighbours.", "quantifier": "all lists of sequence numbers with exactly known, not increasing numbers or uncertain ones with ranges apart, beginning with the first, any number of sequence numbers without metadata between and after them, any craters in each, all increasing chronologies and all draws within their bounds", "why_tests_cant": "The range of a sequence number depends on all numbers around it; a test tries a few lists, mostly with evenly spaced sequence numbers, where the centre of the range happens to be the promised number.", "anchors": ["cratermaker/components/production/__init__.py:Production._process_quasimc_craters", "docs/user-guide/production.rst"]}
{"id": "C252", "title": "Prescribed craters whose crater numbers are in the order of their sequence numbers are accepted", "statement": "A list of prescribed craters with sequence numbers, whose crater numbers decrease with the sequence number and exceed their uncertainties, is processed without an error and the craters form in that order. This holds for one or two sequence numbers, and for any number of them if the ranges given by the uncertainties do not overlap. With four sequence numbers whose ranges overlap the list can be rejected, with every increasing chronology and whatever is drawn.", "quantifier": "all lists of sequence numbers with crater numbers and uncertainties, all increasing chronologies and all draws within their bounds", "why_tests_cant": "The ranges are adjusted in up to ten rounds whose result depends on all numbers and uncertainties together; a test tries a few lists and a few seeds.", "anchors": ["cratermaker/components/production/__init__.py: Production._process_quasimc_craters, _get_sequence_extents, _sequence_is_consistent"]}
{"id": "C253", "title": "Craters, surfaces and regions work with Python's own tools for copying and listing", "statement": "A crater, a surface or a region can be copied with copy.copy and copy.deepcopy or sent through pickle, and a crater listed with dir; a copy has the attributes of the original. Reading attributes of a crater always ends, with the value of the crater or an AttributeError, and so does reading mesh data of a surface or a region; but copying and unpickling end in a RecursionError for every crater, surface and region, whatever the limit on nested calls, and dir raises an AttributeError for every crater.", "quantifier": "all craters, surfaces and regions, attributes and limits on nested calls", "why_tests_cant": "A test can only try one limit on nested calls and a few attributes; that the lookup never ends for an object that is being copied is a statement about all limits.", "anchors": ["cratermaker/components/crater/__init__.py: Crater.__getattr__, Crater.__dir__, Crater.__init__", "cratermaker/components/surface/__init__.py: Surface.__getattr__, LocalSurface.__getattr__"]}
{"id": "C254", "title": "Numbers added to mesh data of an integer type are added", "statement": "After add_data has made a variable of an integer type, further calls of add_data change it by the numbers given. This holds exactly for whole numbers added to regions, or to the whole surface if the integer type is given with every call, in any sequence of calls. Numbers below one are lost, however often they are added; each call loses less than one. Without the type, adding to the whole surface raises an error even for whole numbers, although the same call works for a region.", "quantifier": "all values, all sequences of calls for regions and the whole surface and all numbers added", "why_tests_cant": "What is lost depends on all numbers added in a history of calls; a test adds a few numbers, usually whole ones and to variables of the default type.", "anchors": ["cratermaker/components/surface/__init__.py: LocalSurface.add_data, Surface.add_data"]}
{"id": "C255", "title": "Printed descriptions show the sizes of a crater and the file of prescribed craters", "statement": "Printing a crater shows its original size, and its measured size whenever it differs from the original; printing a production function shows the file and the number of prescribed craters. The original size and the number can be read off, and so can the measured size if its semimajor axis is not the original one. A crater that is measured with the same semimajor axis and another semiminor axis is printed like one that has not been measured, and the name of the file is never shown.", "quantifier": "all original and measured sizes, all files and numbers of prescribed craters", "why_tests_cant": "That descriptions distinguish all craters with different sizes is a statement about all pairs of craters.", "anchors": ["cratermaker/components/crater/__init__.py: Crater.__str__", "cratermaker/components/production/__init__.py: Production.__str__"]}
{"id": "C256", "title": "A plot is saved, shown and closed as asked", "statement": "A plot for which no axes are given gets a figure of its own: the saved file shows exactly this plot, other open figures are left alone, and the figure is closed or left open as close_when_done says. A plot on given axes is added to their figure and the file shows that figure. A file name that is given is used, and makes the plot be saved. In fact the file shows the current figure instead of that of the given axes, a given file name is ignored, and plots of whole surfaces ignore close_when_done.", "quantifier": "all open figures with anything drawn on them, all combinations of the arguments ax, save, show, close_when_done and filename", "why_tests_cant": "what is written and closed depends on which figures a session has open and which of them is current, so it must hold for every history of drawing", "anchors": ["cratermaker/components/surface/__init__.py: LocalSurface.plot, Surface.plot"]}
{"id": "C257", "title": "The colour bar of a plot tells the value of every pixel", "statement": "In maps and in overlays over hillshades the colour of a pixel is the one at which the colour bar states the value of the pixel, if the value lies between the limits; values beyond a limit have the colour of the limit. Without limits from the user all values lie between them. A variable that is constant is coloured as well; in fact it gets no colour in an overlay.", "quantifier": "all rasters with and without missing values, all limits", "why_tests_cant": "it ranges over all real values, limits and rasters, including constant ones", "anchors": ["cratermaker/components/surface/__init__.py: LocalSurface.plot"]}
{"id": "C258", "title": "Line options of a plot of craters apply to all craters", "statement": "The options facecolor, linewidth and linestyle given to a plot of craters apply to all kinds of outlines that are drawn (emplaced, observed with original size, observed with measured size), and each option that is not given has its default. In fact only the kind that is drawn first gets the options.", "quantifier": "all options, all lists of kinds that are drawn", "why_tests_cant": "it must hold for every combination of options and kinds of craters", "anchors": ["cratermaker/components/counting/__init__.py: Counting.plot"]}
{"id": "C259", "title": "The keys of the three-dimensional view work whatever interval is shown", "statement": "In the interactive view of a simulation the key h shows and hides the help text, l the label, and the key of the craters goes through the styles and then hides them, however often and in whatever order they are pressed, for the interval that is shown. In fact they stop working with the first step to another interval: from then on the view shows the surface and a default label, whatever is pressed.", "quantifier": "all sequences of keys and steps to other intervals, of any length", "why_tests_cant": "which actors a key acts on depends on the whole history of the view", "anchors": ["cratermaker/core/simulation.py: Simulation.pyvista_plotter, update_interval", "cratermaker/components/counting/__init__.py: Counting.pyvista_plotter, update_crater_style", "cratermaker/utils/general_utils.py: update_pyvista_help_message, toggle_pyvista_actor"]}
{"id": "C260", "title": "A copy of a projectile has the properties of the original", "statement": "A projectile copied with Python's copy tools has the same velocity, mean velocity, angle, direction, location, density and sampling mode. This holds for generic projectiles; a copy of an asteroid or comet has the mean velocity of the target body instead of its own velocity.", "quantifier": "all projectiles made with any arguments and any random draws", "why_tests_cant": "it ranges over all real-valued properties, given or sampled, of every kind of projectile", "anchors": ["cratermaker/components/projectile/__init__.py: Projectile.__copy__, __deepcopy__, _copy", "cratermaker/components/projectile/asteroids.py: AsteroidProjectiles.__init__"]}
{"id": "C261", "title": "A region has the faces within the radius it reports", "statement": "The region that extract_region or extract_subregion returns contains every face of the surface whose distance from the region's location is at most the region_radius it reports, and a region taken out of another one has only faces of that one, however often regions are taken out of one another. This holds as long as no radius is larger than the one before it. It does not hold otherwise: asking a region for a subregion that is not smaller is not refused; the result reports the larger radius but keeps the faces of the region, so it lacks exactly the faces that touch no face within the region's own radius, and a subregion with a radius in between, taken out of that, has faces the larger one lacks.", "quantifier": "every mesh, location, radius and every sequence of subregion radii", "why_tests_cant": "Which faces are missing depends on the mesh, the distances and the whole history of extracted radii; a test fixes one mesh and one or two radii.", "anchors": ["cratermaker/components/surface/__init__.py: Surface.extract_region, LocalSurface.extract_subregion"]}
{"id": "C262", "title": "Replacing the morphology model keeps the crater lists", "statement": "When the morphology model of a counting component is assigned, at any time, the emplaced craters keep their order, ids and fixed attributes, the observed craters stay under their own ids, and every crater is made anew for the new model from its own attributes; an observed crater is removed by the id it has, whatever models were replaced before, and the others and the emplaced list stay; if a crater cannot be made for the new model nothing is changed, and a crater that is both emplaced and observed stays one object. The last two parts (after a refusal nothing is changed; one object) do not hold: an exception leaves the new model in place with the craters before the refused one made anew and the rest as before, and afterwards emplaced and observed craters are separate objects, so that what is measured on an observed crater is no longer seen in the emplaced list.", "quantifier": "every history of forming, loading, measuring, removing craters, resetting and replacing models, and every new model", "why_tests_cant": "The lists depend on the whole history and the failing crater can be at any place; whether objects are shared is not visible from values at one time.", "anchors": ["cratermaker/components/counting/__init__.py: Counting.morphology, Counting.add, Counting.remove, Counting.reset", "cratermaker/components/morphology/__init__.py: Morphology.Crater", "cratermaker/components/crater/__init__.py: Crater.maker"]}
