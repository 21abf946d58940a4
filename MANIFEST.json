{
 "claims": [
  {
   "property": "C01",
   "status": "partial",
   "theorems": [
    "Verif.Location.C01_lat_range",
    "Verif.Location.C01_lon_range_partial",
    "Verif.Location.C01_lon_range_iff",
    "Verif.Location.C01_lon_range_fails",
    "Verif.Location.C01_same_point_partial",
    "Verif.Location.C01_same_point_fails",
    "Verif.Location.C01_same_point_iff",
    "Verif.Location.C01_idempotent_partial",
    "Verif.Location.C01_idempotent_iff",
    "Verif.Location.C01_idempotent_fails"
   ],
   "note": "Refuted: The documented range is not guaranteed: the point (-100, 95) is mapped to longitude -280. Refuted: Beyond ±270 the clip moves the point to a pole: latitude 360 is the equator, but the result is the south pole. Refuted: Over the pole, normalising is not idempotent. Proved part (C01_lon_range_partial): For inputs whose latitude is a latitude, the longitude is in [-180, 180). Missing from the full statement: latitudes beyond the poles (see `C01_lon_range_iff`). Proved part (C01_same_point_partial): Up to one trip over a pole (|lat| ≤ 270) the result is the same point of the sphere. Missing from the full statement: latitudes beyond ±270 (see `C01_same_point_fails`). Proved part (C01_idempotent_partial): Normalising twice is the same as normalising once, when the latitude is a latitude."
  },
  {
   "property": "C02",
   "status": "partial",
   "theorems": [
    "Verif.Base.C02_documented_partial",
    "Verif.Base.C02_differs_iff",
    "Verif.Base.C02_seed_and_state_fails",
    "Verif.Base.C02_reproducible",
    "Verif.Base.C02_assigning_state_is_ignored",
    "Verif.Base.C02_state_roundtrip_fails"
   ],
   "note": "Refuted: A seed together with any state is rejected, although the documentation says that the state takes precedence. Refuted: Hence the expected round trip \"assign a state, read that state\" fails, whatever state other than the present one is assigned. Proved part (C02_documented_partial): The code agrees with the documentation unless a seed and a state are both given without a generator. Missing from the full statement: that combination, see `C02_seed_and_state_fails`."
  },
  {
   "property": "C03",
   "status": "partial",
   "theorems": [
    "Verif.Files.C03_filename_injective",
    "Verif.Files.C03_parse_roundtrip",
    "Verif.Files.C03_listing",
    "Verif.Files.C03_single_file_digit_prefix_fails"
   ],
   "note": "Refuted: A single file whose prefix ends in a digit is misread: the digits of the prefix run into the interval number."
  },
  {
   "property": "C04",
   "status": "partial",
   "theorems": [
    "Verif.Files.C04_read_partial",
    "Verif.Files.C04_negative_partial",
    "Verif.Files.C04_absent",
    "Verif.Files.C04_fixed_file",
    "Verif.Files.C04_read_fails"
   ],
   "note": "Refuted: From one million on, text order and numeric order differ: with intervals 999999 and 1000000 on disk, asking for 999999 opens the file of 1000000. Proved part (C04_read_partial): With all saved intervals below one million, asking for a saved interval opens the file written for it, in whatever order the directory scan returned the files. Missing from the full statement: intervals from one million on, see `C04_read_fails`. Proved part (C04_negative_partial): Negative requests count from the last saved interval."
  },
  {
   "property": "C05",
   "status": "partial",
   "theorems": [
    "Verif.Base.C05_consent",
    "Verif.Base.C05_only_listed",
    "Verif.Base.C05_success",
    "Verif.Base.C05_refusal",
    "Verif.Base.C05_cancel_keeps_files_partial",
    "Verif.Base.C05_unchanged_iff",
    "Verif.Base.C05_cancel_keeps_files_fails"
   ],
   "note": "Refuted: Cancelling at the second file does not bring back the first one. Proved part (C05_cancel_keeps_files_partial): Cancelling leaves every file in place if no earlier listed path existed. Missing from the full statement (the documentation says that cancelling deletes nothing): files accepted before the refusal, see `C05_cancel_keeps_files_fails`."
  },
  {
   "property": "C06",
   "status": "partial",
   "theorems": [
    "Verif.SimReset.C06_refused",
    "Verif.SimReset.C06_bad_skip",
    "Verif.SimReset.C06_refuses_iff",
    "Verif.SimReset.C06_asked_iff",
    "Verif.SimReset.C06_accepted",
    "Verif.SimReset.C06_half_reset_fails",
    "Verif.SimReset.C06_deletes_partial",
    "Verif.SimReset.C06_keeps"
   ],
   "note": "Refuted: Accepting at the simulation's prompt, even for all files, does not mean that the files are deleted: each component asks again, and if the user declines there, the clock and the memory are reset while all the old files stay, in every simulation. The full statement \"accepting deletes the old output\" is false. Proved part (C06_deletes_partial): The output files of every component that is reset and has its own asking off are gone after an accepted reset, before the closing save writes interval 0 again. Missing from the full statement: components that ask again, see `C06_half_reset_fails`."
  },
  {
   "property": "C07",
   "status": "partial",
   "theorems": [
    "Verif.RunArgs.C07_wellformed",
    "Verif.RunArgs.C07_contradictions_partial",
    "Verif.RunArgs.C07_age",
    "Verif.RunArgs.C07_always_ignored_fails",
    "Verif.RunArgs.C07_ignored_fails",
    "Verif.RunArgs.C07_number_with_time_interval",
    "Verif.RunArgs.C07_other_diameter"
   ],
   "note": "Refuted: Some arguments are silently ignored, whatever their values are: `N_D` next to `time_end` without a start, which is accepted only if the simulation has been run before, and `N_D_end` next to an age, a start or an end. Refuted: Such combinations are accepted: `N_D` next to `time_end` on a simulation that has been run before, and `N_D_end` next to `time_start`. Proved part (C07_contradictions_partial): A combination that asks for two different things, or for nothing, is rejected. Missing from the full statement: `N_D` together with `time_end` on a simulation that has been run before, and `N_D_end` without `N_D`, see `C07_ignored_fails`."
  },
  {
   "property": "C08",
   "status": "proved",
   "theorems": [
    "Verif.Run.C08_fresh_run",
    "Verif.Run.C08_empty_period",
    "Verif.Run.C08_number_windows",
    "Verif.Run.C08_fresh_number"
   ],
   "note": ""
  },
  {
   "property": "C09",
   "status": "partial",
   "theorems": [
    "Verif.Run.C09_elapsed_partial",
    "Verif.Run.C09_last_state_fails",
    "Verif.Run.C09_number"
   ],
   "note": "Refuted: The full statement is false: running 10 My in steps of 3 My ends with an elapsed time of 12 My. Proved part (C09_elapsed_partial): In a fresh run every saved state except the last one has elapsed time `ts - time`, and the last one too if the step divides the period; otherwise its elapsed time is too large, by less than one step. Missing from the full statement: the last state, see `C09_last_state_fails`."
  },
  {
   "property": "C10",
   "status": "partial",
   "theorems": [
    "Verif.Run.C10_resume_partial",
    "Verif.Run.C10_repeats_last_window_fails",
    "Verif.Run.C10_one_resume",
    "Verif.Run.C10_second_resume_fails",
    "Verif.Run.C10_second_resume_duplicates",
    "Verif.Run.C10_crash_inside_round_fails"
   ],
   "note": "Refuted: Calling `run` again after it has finished repeats the last window whenever the step does not divide the period: those craters are emplaced twice. Refuted: A second interruption is not: a resumed process never updates the configuration, so a third process starts where the second one did, on a surface that already has the second one's craters, and emplaces them again. Refuted: A crash inside a round can lose a window: the configuration is written before the surface, so that after a crash between the two the resumed run skips craters that were never saved. Proved part (C10_resume_partial): A run stopped after `k` of its `n` intervals and called again with the same arguments does exactly the remaining ones: the windows of the two calls together are those of the uninterrupted run, and the final clock (time, elapsed time, counters, interval) is the same. Holds for `k < n`, and for `k = n` if the step divides the period. Missing from the full statement: repeating a finished run whose last window is shorter, see `C10_repeats_last_window_fails`; several processes, see `C10_second_resume_fails`."
  },
  {
   "property": "C11",
   "status": "proved",
   "theorems": [
    "Verif.Base.C11_rejected_changes_nothing",
    "Verif.Base.C11_accepted",
    "Verif.Base.C11_accepts_iff",
    "Verif.Base.C11_save_runs_all",
    "Verif.Base.C11_skip"
   ],
   "note": ""
  },
  {
   "property": "C12",
   "status": "proved",
   "theorems": [
    "Verif.Base.C12_named",
    "Verif.Base.C12_default",
    "Verif.Base.C12_others"
   ],
   "note": ""
  },
  {
   "property": "C13",
   "status": "proved",
   "theorems": [
    "Verif.Base.C13_precedence"
   ],
   "note": ""
  },
  {
   "property": "C14",
   "status": "proved",
   "theorems": [
    "Verif.Base.C14_plain",
    "Verif.Base.C14_plain_fixed",
    "Verif.Base.C14_idempotent",
    "Verif.Base.C14_config_contents",
    "Verif.Base.C14_numpy_bool_becomes_text",
    "Verif.Base.C14_values"
   ],
   "note": ""
  },
  {
   "property": "C15",
   "status": "partial",
   "theorems": [
    "Verif.Production.C15_valid",
    "Verif.Production.C15_sign_convention",
    "Verif.Production.C15_setter_sign_fails"
   ],
   "note": "Refuted: The sign convention does not hold for the setter: for every coefficient, assigning a positive slope, which the constructor accepts, gives a distribution that increases with diameter."
  },
  {
   "property": "C16",
   "status": "proved",
   "theorems": [
    "Verif.Production.C16_increasing",
    "Verif.Production.C16_zero_now",
    "Verif.Production.C16_older_windows"
   ],
   "note": ""
  },
  {
   "property": "C17",
   "status": "proved",
   "theorems": [
    "Verif.Production.C17_additive",
    "Verif.Production.C17_run"
   ],
   "note": ""
  },
  {
   "property": "C18",
   "status": "proved",
   "theorems": [
    "Verif.QuasiMC.C18_merge",
    "Verif.QuasiMC.C18_length",
    "Verif.QuasiMC.C18_once_per_run"
   ],
   "note": ""
  },
  {
   "property": "C19",
   "status": "partial",
   "theorems": [
    "Verif.Crater.C19_radius_iff",
    "Verif.Crater.C19_reads_back_partial",
    "Verif.Crater.C19_shrink_fails"
   ],
   "note": "Refuted: Full statement fails: shrinking a circle always leaves an ellipse with the old semimajor axis, and another radius is read back. Proved part (C19_reads_back_partial): Growing or first assignment: the radius and the diameter read back, and the crater is a circle."
  },
  {
   "property": "C20",
   "status": "proved",
   "theorems": [
    "Verif.Crater.C20_history",
    "Verif.Crater.C20_rejects_iff",
    "Verif.Crater.C20_sorted_pair"
   ],
   "note": ""
  },
  {
   "property": "C21",
   "status": "partial",
   "theorems": [
    "Verif.Crater.C21_accepts_iff",
    "Verif.Crater.C21_meaning",
    "Verif.Crater.C21_alias_fails",
    "Verif.Crater.C21_single_axis_fails"
   ],
   "note": "Refuted: Full statement fails: two different final diameters are accepted when one of them is given under the old name, which then wins in silence, whatever the two diameters are. Refuted: A single axis is always rejected, although the code announces that it is taken as a circle."
  },
  {
   "property": "C22",
   "status": "proved",
   "theorems": [
    "Verif.Crater.C22_geometry",
    "Verif.Crater.C22_new_crater",
    "Verif.Crater.C22_sizes",
    "Verif.Crater.C22_mass",
    "Verif.Crater.C22_vertical",
    "Verif.Crater.C22_accepts_iff"
   ],
   "note": ""
  },
  {
   "property": "C23",
   "status": "proved",
   "theorems": [
    "Verif.Crater.C23_round_trip"
   ],
   "note": ""
  },
  {
   "property": "C24",
   "status": "proved",
   "theorems": [
    "Verif.Tags.C24_marks",
    "Verif.Tags.C24_keeps",
    "Verif.Tags.C24_nothing_new",
    "Verif.Tags.C24_full_face"
   ],
   "note": ""
  },
  {
   "property": "C25",
   "status": "proved",
   "theorems": [
    "Verif.Tags.C25_remove",
    "Verif.Tags.C25_sort"
   ],
   "note": ""
  },
  {
   "property": "C26",
   "status": "proved",
   "theorems": [
    "Verif.Tags.C26_add",
    "Verif.Tags.C26_small",
    "Verif.Tags.C26_keeps_larger",
    "Verif.Tags.C26_history"
   ],
   "note": ""
  },
  {
   "property": "C27",
   "status": "proved",
   "theorems": [
    "Verif.Tags.C27_tally",
    "Verif.Tags.C27_idempotent"
   ],
   "note": ""
  },
  {
   "property": "C28",
   "status": "proved",
   "theorems": [
    "Verif.Degradation.C28_fresh",
    "Verif.Degradation.C28_monotone",
    "Verif.Degradation.C28_threshold",
    "Verif.Degradation.C28_unmeasured"
   ],
   "note": ""
  },
  {
   "property": "C29",
   "status": "proved",
   "theorems": [
    "Verif.Scaling.C29_final_monotone",
    "Verif.Scaling.C29_round_trip",
    "Verif.Scaling.C29_bracket",
    "Verif.Scaling.C29_back_succeeds",
    "Verif.Scaling.C29_range",
    "Verif.Scaling.C29_projectile_monotone",
    "Verif.Scaling.C29_projectile_round_trip",
    "Verif.Scaling.C29_projectile_back_iff"
   ],
   "note": ""
  },
  {
   "property": "C30",
   "status": "proved",
   "theorems": [
    "Verif.Scaling.C30_classes",
    "Verif.Scaling.C30_probability",
    "Verif.Scaling.C30_law"
   ],
   "note": ""
  },
  {
   "property": "C31",
   "status": "partial",
   "theorems": [
    "Verif.Scaling.C31_explicit",
    "Verif.Scaling.C31_target_density_fails",
    "Verif.Scaling.C31_target_density_partial",
    "Verif.Scaling.C31_no_material_fails"
   ],
   "note": "Refuted: A density set on the target is overwritten when a scaling model is built for it, unless the density is repeated there: for every material of the catalogue the density comes out as the catalogue's, whatever it was. Refuted: A target without a material makes it impossible to build a scaling model, even with all four parameters given. Proved part (C31_target_density_partial): The target's own density survives only when its material is not in the catalogue."
  },
  {
   "property": "C32",
   "status": "partial",
   "theorems": [
    "Verif.Bodies.C32_explicit_or_sampled",
    "Verif.Bodies.C32_stored_partial",
    "Verif.Bodies.C32_catalogued_fails",
    "Verif.Bodies.C32_velocity_lost_fails"
   ],
   "note": "Refuted: **C32 fails** for every asteroid or comet: whatever mean velocity was assigned to it, the next `new_projectile` has the mean velocity of the catalogue, and velocities are drawn for that; without sampling, whatever velocity was stored, the next one has the mean velocity of the catalogue unless a velocity is given. Refuted: An asteroid or comet projectile made without sampling with an explicit velocity forgets it in the next `new_projectile`, which falls back to the catalogue's mean velocity. Proved part (C32_stored_partial): Without sampling, generic projectiles keep every stored value that is not given explicitly."
  },
  {
   "property": "C33",
   "status": "proved",
   "theorems": [
    "Verif.Bodies.C33_target",
    "Verif.Bodies.C33_escape"
   ],
   "note": ""
  },
  {
   "property": "C34",
   "status": "partial",
   "theorems": [
    "Verif.SurfaceData.C34_partition_partial",
    "Verif.SurfaceData.C34_error_iff",
    "Verif.SurfaceData.C34_uniform_fails",
    "Verif.SurfaceData.C34_area"
   ],
   "note": "Refuted: The binning of a mesh of equal faces fails. Proved part (C34_partition_partial): Whenever the binning succeeds, the bins are a partition of all faces into non-empty bins of areas within a factor of two."
  },
  {
   "property": "C35",
   "status": "partial",
   "theorems": [
    "Verif.SurfaceData.C35_region_partial",
    "Verif.SurfaceData.C35_scalar",
    "Verif.SurfaceData.C35_rejects",
    "Verif.SurfaceData.C35_others",
    "Verif.SurfaceData.C35_wrong_kind_exact_partial",
    "Verif.SurfaceData.C35_wrong_kind_fails"
   ],
   "note": "Refuted: Face sized data given for an existing node variable is not rejected: it is written to the nodes that happen to have the numbers of the region's faces, even if those nodes are outside the region. Proved part (C35_region_partial): Adding data of the size of the region's faces (nodes) to a face (node) variable, or creating such a variable, changes exactly the region as requested and nothing else. What is missing for the full property: variables of the other kind (see `C35_wrong_kind_fails`) and regions with as many nodes as faces. Proved part (C35_wrong_kind_exact_partial): Data for a variable of the other kind, for every mesh and region: face (node) sized data for an existing node (face) variable is written to the nodes (faces) that have the numbers of the region's faces (nodes) if the mesh has nodes (faces) with all those numbers, and is refused otherwise."
  },
  {
   "property": "C36",
   "status": "partial",
   "theorems": [
    "Verif.SurfaceData.C36_dispatch_partial",
    "Verif.SurfaceData.C36_equal_fails",
    "Verif.SurfaceData.C36_one_face_fails"
   ],
   "note": "Refuted: A region with as many nodes as faces, such as the ten triangles around an edge: data for its faces changes the faces as asked, but the averages for its nodes go to the nodes that happen to have the numbers of its faces, and the region's own nodes keep their elevations unless they are among those. If a face has a number that no node has, the call fails. Refuted: Face data for a region of a single face is taken for a scalar: the same number is added to the nodes, which are not made averages of the faces. Proved part (C36_dispatch_partial): The effect of `update_elevation` for every accepted size. Nothing but the elevations changes. Missing from the full statement: regions with as many nodes as faces, see `C36_equal_fails`, and a one-face region with face data, see `C36_one_face_fails`."
  },
  {
   "property": "C37",
   "status": "proved",
   "theorems": [
    "Verif.Diffusion.C37_volume"
   ],
   "note": ""
  },
  {
   "property": "C38",
   "status": "proved",
   "theorems": [
    "Verif.Diffusion.C38_maximum_principle",
    "Verif.Diffusion.C38_level",
    "Verif.Diffusion.C38_flow"
   ],
   "note": ""
  },
  {
   "property": "C39",
   "status": "partial",
   "theorems": [
    "Verif.Diffusion.C39_stops",
    "Verif.Diffusion.C39_zero_fails",
    "Verif.Diffusion.C39_stable_unchanged",
    "Verif.Diffusion.C39_volume_and_bounds",
    "Verif.Diffusion.C39_level"
   ],
   "note": "Refuted: With a critical slope of 0 nothing collapses, however steep the surface."
  },
  {
   "property": "C40",
   "status": "proved",
   "theorems": [
    "Verif.Diffusion.C40_average"
   ],
   "note": ""
  },
  {
   "property": "C41",
   "status": "proved",
   "theorems": [
    "Verif.Sphere.C41_great_circle",
    "Verif.Sphere.C41_metric",
    "Verif.Sphere.C41_points"
   ],
   "note": ""
  },
  {
   "property": "C42",
   "status": "proved",
   "theorems": [
    "Verif.Sphere.C42_round_trip",
    "Verif.Sphere.C42_distance",
    "Verif.Sphere.C42_range",
    "Verif.Sphere.C42_bearing",
    "Verif.Sphere.C42_bearing_range"
   ],
   "note": ""
  },
  {
   "property": "C43",
   "status": "proved",
   "theorems": [
    "Verif.Profile.C43_interior",
    "Verif.Profile.C43_wall",
    "Verif.Profile.C43_continuous",
    "Verif.Profile.C43_exterior",
    "Verif.Profile.C43_floor",
    "Verif.Profile.C43_level",
    "Verif.Profile.C43_defaults"
   ],
   "note": ""
  },
  {
   "property": "C44",
   "status": "proved",
   "theorems": [
    "Verif.Profile.C44_profile",
    "Verif.Profile.C44_extent",
    "Verif.Profile.C44_beyond"
   ],
   "note": ""
  },
  {
   "property": "C45",
   "status": "proved",
   "theorems": [
    "Verif.Emplace.C45_volume",
    "Verif.Emplace.C45_succeeds"
   ],
   "note": ""
  },
  {
   "property": "C46",
   "status": "partial",
   "theorems": [
    "Verif.Emplace.C46_exactly_once",
    "Verif.Emplace.C46_maximal",
    "Verif.Emplace.C46_emplaceable",
    "Verif.Emplace.C46_exception_exact_partial",
    "Verif.Emplace.C46_exception_fails"
   ],
   "note": "Refuted: If forming a crater raises an exception, the craters of its batch stay in the queue although the earlier ones were formed: the next run of the queue forms those a second time. Proved part (C46_exception_exact_partial): What an exception leaves, for every queue. Processing fails exactly if forming one of the craters raises. Then all craters up to the first one that raises were formed (that one was begun), but the queue still starts with the craters `pre` of its batch that were already formed. Processing the queue again, now without exceptions, forms those a second time. The craters formed twice share no node or face with each other or with the crater that raised. The craters of earlier batches are not formed again."
  },
  {
   "property": "C47",
   "status": "partial",
   "theorems": [
    "Verif.Crash.C47_crash_partial",
    "Verif.Crash.C47_complete",
    "Verif.Crash.C47_other_device_fails"
   ],
   "note": "Refuted: If the temporary folder is on another device, the move is a copy, and a crash during the copy leaves a torn file in place of the saved state: for every readable file there is such a crash point. Proved part (C47_crash_partial): With the temporary folder on the same device as the simulation, a crash at any point of saving surface data leaves every file as it was, except that the file being saved may already be the complete new one; a completed save is the complete new one. Missing: temporary folders on another device, see `C47_other_device_fails`."
  },
  {
   "property": "C48",
   "status": "partial",
   "theorems": [
    "Verif.Crash.C48_crash_partial",
    "Verif.Crash.C48_crash_fails"
   ],
   "note": "Refuted: The old grid is removed before the new one is written: on every disk and for every grid there is a crash point at which no grid is left, and the next start then discards the saved data of every interval but the first, without asking, even if the old grid is asked for (the data of the first interval is replaced by the initial state). Proved part (C48_crash_partial): A crash at any point of writing the grid leaves all surface data on disk, and the next start keeps that data exactly if the grid file on disk is then complete and has the identifier asked for (or there is no data to lose). If the temporary folder is on the same device, the grid file is, at every crash point, the old one, absent, or the complete new one. Missing: the grid is absent after some crashes, see `C48_crash_fails`."
  },
  {
   "property": "C49",
   "status": "partial",
   "theorems": [
    "Verif.Crash.C49_complete_partial",
    "Verif.Crash.C49_crash_fails"
   ],
   "note": "Refuted: Saving a crater list over an existing file removes the old file first and writes the new one in place: there is always a crash point at which the list is gone, and one at which the file is torn. Proved part (C49_complete_partial): A completed save of the crater lists: every non-empty list is in its file, the file of an empty list is as before, and no other file is touched. Missing: crash safety, see `C49_crash_fails`."
  },
  {
   "property": "C50",
   "status": "partial",
   "theorems": [
    "Verif.HiRes.C50_size_partial",
    "Verif.HiRes.C50_antipode_fails",
    "Verif.HiRes.C50_hemisphere_fails",
    "Verif.HiRes.C50_terminates_partial",
    "Verif.HiRes.C50_full_sphere_fails",
    "Verif.HiRes.C50_large_region_fails"
   ],
   "note": "Refuted: At the antipode of the local region the faces are larger than the requested factor times the pixel size. Refuted: The slope is a division by zero exactly when the local region is a hemisphere, which is accepted. Refuted: With a local region that is the whole sphere, which the setter accepts, the inner loop never ends. Refuted: With a local region larger than a hemisphere the face size decreases with distance; when it reaches zero before the antipode the outer loop never ends. Proved part (C50_size_partial): With a local region smaller than a hemisphere, the face size is the pixel size inside the local region, never decreases with distance, and is the requested multiple at the circle opposite to the border of the local region. At the antipode itself it is larger, see `C50_antipode_fails`. Proved part (C50_terminates_partial): The ring loops end: the inner one if the local region is not the whole sphere, the outer one if the face size is bounded below by a positive number, as it is when it does not decrease."
  },
  {
   "property": "C51",
   "status": "partial",
   "theorems": [
    "Verif.HiRes.C51_rotation_partial",
    "Verif.HiRes.C51_south_pole_fails"
   ],
   "note": "Refuted: For a local region at the south pole nothing is rotated: the region is laid out at the north pole. Proved part (C51_rotation_partial): Where the axis is not tiny (that is, away from the poles) the rotation takes the pole, where the local region is laid out, to the requested location, and it preserves all distances and angles everywhere. Missing: the south pole, see `C51_south_pole_fails`."
  },
  {
   "property": "C52",
   "status": "partial",
   "theorems": [
    "Verif.Crash.C52_asking_partial",
    "Verif.Crash.C52_asking_fails"
   ],
   "note": "Refuted: Loading a high-resolution surface without a reset, when its grid or index file is not in place (as on its first construction), turns asking off for the rest of the session. Proved part (C52_asking_partial): Loading a surface that is not a high-resolution one leaves the asking mode as it was; so does loading a high-resolution one with a reset, or with the grid and index files in place. Missing: a high-resolution surface whose files are not in place, see `C52_asking_fails`."
  },
  {
   "property": "C53",
   "status": "partial",
   "theorems": [
    "Verif.Dem.C53_cylindrical_partial",
    "Verif.Dem.C53_polar_partial",
    "Verif.Dem.C53_selection_partial",
    "Verif.Dem.C53_span_fails",
    "Verif.Dem.C53_straddle_fails",
    "Verif.Dem.C53_edge_fails",
    "Verif.Dem.C53_polar_fails"
   ],
   "note": "Refuted: Regions wider than a tile are not covered: of a region from `b` south to `b` north, with `b` between 30° and 60°, no point between the equator and 30° north is in one of the files selected at 512 pixels per degree, whatever the longitudes. Refuted: Regions that reach across 60° at a resolution of more than 96 pixels per degree: no existing file with a point beyond 60° is selected, although polar files from 45° on are available. (At coarser resolutions the files are global.) Refuted: The edge 60° S itself is looked for in a tile that does not exist, at every longitude. Refuted: Close to the north pole at pixels of less than 7.5 m, the selection raises although the file with a resolution of 5 m covers the region. Proved part (C53_cylindrical_partial): Between 60° S (exclusive) and 60° N, a region that is no larger than 45° by 30° is covered by the files selected, all of which exist. Missing: larger or more extreme regions, see the `_fails` theorems. Proved part (C53_polar_partial): Polar files, if selected, cover the latitudes asked for; they are selected for every region beyond 60° that does not reach within 2.5° of the pole on its equatorward side. Missing: see `C53_polar_fails`. Proved part (C53_selection_partial): The selection as a whole, for regions of at most 45° by 30° that are within 60° of the equator, or beyond 60° and not within 2.5° of the pole, at a resolution for which polar files are used."
  },
  {
   "property": "C54",
   "status": "partial",
   "theorems": [
    "Verif.Fit.C54_shape_partial",
    "Verif.Fit.C54_orientation_partial",
    "Verif.Fit.C54_orientation_fails",
    "Verif.Fit.C54_aligned_partial",
    "Verif.Fit.C54_aligned_fails"
   ],
   "note": "Refuted: In the other half of the cases the orientation is wrong by a right angle: it is that of the semi-minor axis. Refuted: Every ellipse aligned with the axes that is longer in the x-direction gets an orientation that is wrong by a right angle. Proved part (C54_shape_partial): Center and semi-axes are right for every ellipse: with some orientation they describe the curve given by the coefficients. Proved part (C54_orientation_partial): The orientation is that of the semi-major axis, from the x-axis, if the coefficient of x² is at most that of y², that is if the ellipse is at least as long in the x-direction as in the y-direction, and it is not aligned with the axes. Proved part (C54_aligned_partial): For ellipses aligned with the axes it is the other way round: the orientation is that of the semi-major axis if the ellipse is at least as long in the y-direction as in the x-direction."
  },
  {
   "property": "C55",
   "status": "proved",
   "theorems": [
    "Verif.Fit.C55_fixed",
    "Verif.Fit.C55_free_minimises",
    "Verif.Fit.C55_free_exact",
    "Verif.Fit.C55_free_error"
   ],
   "note": ""
  },
  {
   "property": "C56",
   "status": "proved",
   "theorems": [
    "Verif.Sampling.C56_uniform",
    "Verif.Sampling.C56_inside",
    "Verif.Sampling.C56_area_weighted",
    "Verif.Sampling.C56_triangles"
   ],
   "note": ""
  },
  {
   "property": "C57",
   "status": "partial",
   "theorems": [
    "Verif.Sampling.C57_quantile",
    "Verif.Sampling.C57_range",
    "Verif.Sampling.C57_monotone",
    "Verif.Sampling.C57_constant_fails"
   ],
   "note": "Refuted: The sampling is not defined for every table the checks accept: if all numbers are equal, the only possible draw is 1 and the search runs off the end of the table (IndexError)."
  },
  {
   "property": "C58",
   "status": "proved",
   "theorems": [
    "Verif.Sampling.C58_times"
   ],
   "note": ""
  },
  {
   "property": "C59",
   "status": "partial",
   "theorems": [
    "Verif.Sampling.C59_above",
    "Verif.Sampling.C59_below",
    "Verif.Sampling.C59_from_draws",
    "Verif.Sampling.C59_kept",
    "Verif.Sampling.C59_equal_never_ends_fails"
   ],
   "note": "Refuted: Sampling need not end even with good draws: once a draw equals the escape velocity it is neither replaced nor accepted, whatever is drawn later. In particular an escape velocity of zero loops for ever, the initial value being twice the escape velocity."
  },
  {
   "property": "C60",
   "status": "partial",
   "theorems": [
    "Verif.Display.C60_in_range",
    "Verif.Display.C60_back",
    "Verif.Display.C60_first_fails",
    "Verif.Display.C60_negative_fails"
   ],
   "note": "Refuted: At the first interval, stepping back shows the last one (and leaves the position at the first). Refuted: A plot opened on interval -1, which elsewhere denotes the last one, steps forward to the first interval."
  },
  {
   "property": "C61",
   "status": "proved",
   "theorems": [
    "Verif.Diffusion.C61_round_trip"
   ],
   "note": ""
  },
  {
   "property": "C62",
   "status": "partial",
   "theorems": [
    "Verif.Emplace.C62_ordered_partial",
    "Verif.Emplace.C62_cover_fails"
   ],
   "note": "Refuted: Craters that overlap one another are processed one at a time, and then there is no degradation at all, however long the time between them. Proved part (C62_ordered_partial): With the craters in the queue from old to young, the windows are ordered: each ends before the next starts, so no time is used twice, and all lie within the time span of the queue. They need not cover the time span, see `C62_cover_fails`."
  },
  {
   "property": "C63",
   "status": "partial",
   "theorems": [
    "Verif.SurfaceData.C63_noise_partial",
    "Verif.SurfaceData.C63_equal_fails"
   ],
   "note": "Refuted: In a region with as many nodes as faces the volume is kept as well, but the noise of the nodes goes to the nodes that have the numbers of its faces, also when these are outside the region. Proved part (C63_noise_partial): For every noise field, `apply_noise` changes the elevation of the region's faces without changing its volume, and changes nothing outside the region. Missing from the full statement: regions with as many nodes as faces, see `C63_equal_fails`."
  },
  {
   "property": "C64",
   "status": "partial",
   "theorems": [
    "Verif.Sphere.C64_extents_partial",
    "Verif.Sphere.C64_longitude_fails",
    "Verif.Sphere.C64_longitude_always_fails"
   ],
   "note": "Refuted: Away from the equator the longitude span is too small: a region of half a radian around 60° N, 0° E contains the point 75° N, 60° E, but the extents only reach 57.3° E. Refuted: It is too small for every region that neither contains a pole nor is centred on the equator: some point of the region is always outside the extents. Proved part (C64_extents_partial): Latitudes of the region are within the extents, and so are the longitudes if the region contains a pole or is centred on the equator. Missing: longitudes of other regions, see `C64_longitude_always_fails`."
  },
  {
   "property": "C65",
   "status": "partial",
   "theorems": [
    "Verif.Dem.C65_composed_partial",
    "Verif.Dem.C65_nearest_to",
    "Verif.Dem.C65_nearest_fails",
    "Verif.Dem.C65_once",
    "Verif.Dem.C65_open",
    "Verif.Dem.C65_released"
   ],
   "note": "Refuted: Of two data sets, one with a pixel exactly at the point and one with a pixel 90° away, the second is used. Proved part (C65_composed_partial): The composed elevation is that of a data set that covers the point if there is one, and zero otherwise; if only one covers the point, it is that one. Missing: with several, not necessarily the nearest, see `C65_nearest_fails`."
  },
  {
   "property": "C66",
   "status": "proved",
   "theorems": [
    "Verif.Display.C66_same_quantity"
   ],
   "note": ""
  },
  {
   "property": "C67",
   "status": "partial",
   "theorems": [
    "Verif.Region.C67_region",
    "Verif.Region.C67_absent",
    "Verif.Region.C67_subregion_faces_partial",
    "Verif.Region.C67_subregion_nodes_exact_partial",
    "Verif.Region.C67_subregion_nodes_fails"
   ],
   "note": "Refuted: The node list of a subregion lacks nodes of its buffer faces: of the two triangles, the region of radius 2 around the first is complete, its subregion of radius 1 has both faces but not the far node of the second. Proved part (C67_subregion_faces_partial): A smaller region taken out of a region has the same faces as that smaller region taken directly. Proved part (C67_subregion_nodes_exact_partial): Which nodes of its faces a smaller region taken out of a region has: exactly those of the faces within the radius. So a node of one of its faces that lies only on faces beyond the radius is always missing, whereas the same region taken directly has it."
  },
  {
   "property": "C68",
   "status": "proved",
   "theorems": [
    "Verif.Crater.C68_fixed",
    "Verif.Crater.C68_variable",
    "Verif.Crater.C68_unknown_ignored"
   ],
   "note": ""
  },
  {
   "property": "C69",
   "status": "proved",
   "theorems": [
    "Verif.Limits.C69_limits",
    "Verif.Limits.C69_exact"
   ],
   "note": ""
  },
  {
   "property": "C70",
   "status": "partial",
   "theorems": [
    "Verif.SimReset.C70_declined_reset_fails",
    "Verif.SimReset.C70_files_partial"
   ],
   "note": "Refuted: The full claim fails for every component: declining the deletion keeps the files, but the memory is as at the start. Proved part (C70_files_partial): The claim holds in the weaker form that nothing is deleted without consent; the memory part is missing, see `C70_declined_reset_fails`."
  },
  {
   "property": "C71",
   "status": "partial",
   "theorems": [
    "Verif.Location.C71_array_elementwise",
    "Verif.Location.C71_list_elementwise_partial",
    "Verif.Location.C71_single",
    "Verif.Location.C71_rejected",
    "Verif.Location.C71_list_of_two_fails"
   ],
   "note": "Refuted: A list of exactly two locations is taken for one pair and fails with a TypeError. Proved part (C71_list_elementwise_partial): Lists of pairs are normalised pair by pair, except lists of exactly two pairs. Missing from the full statement: the two-element list, see `C71_list_of_two_fails`."
  },
  {
   "property": "C72",
   "status": "partial",
   "theorems": [
    "Verif.Inverse.C72_continuous",
    "Verif.Production.C72_positive",
    "Verif.Production.C72_branches_meet",
    "Verif.Production.C72_moon_decreasing",
    "Verif.Production.C72_moon_valid",
    "Verif.Production.C72_mars_decreasing",
    "Verif.Production.C72_mars_valid",
    "Verif.Production.C72_tangent_slope_fails"
   ],
   "note": "Refuted: Documented: outside the range the distribution is extrapolated with its slope at the end of the range. The exponent used is the polynomial with the shifted coefficients, without the factors of differentiation, so it is not the slope: at the lower lunar limit it is -3.3281 where the slope of the distribution is -3.1554."
  },
  {
   "property": "C73",
   "status": "partial",
   "theorems": [
    "Verif.Production.C73_chronology_linear_fails",
    "Verif.Production.C73_number_linear_partial",
    "Verif.Production.C73_rate_partial"
   ],
   "note": "Refuted: Documented (`powerlaw.py:162-166`): the chronology is the ratio of the cumulative number at the given age to that at 1 My, hence linear in the age. The code returns a constant that does not depend on the age at all, so that for every power law the documented value is returned for a single age only: the number of craters of at least 1 km made per My, read as an age in My. Proved part (C73_number_linear_partial): What does hold: the number itself is linear in the age. Proved part (C73_rate_partial): What the constant is: the number of craters of at least 1 km made per My, so that multiplied by the length of the window it is the number made in the window."
  },
  {
   "property": "C74",
   "status": "partial",
   "theorems": [
    "Verif.Sampling.C74_actual_partial",
    "Verif.Sampling.C74_follows_chronology_fails"
   ],
   "note": "Refuted: Full statement: the probability of a part of the window is the fraction of the expected craters that form in it. False already for a constant rate: the oldest of the 999 parts gets no crater, although a fraction 1/999 of all craters is expected there. Proved part (C74_actual_partial): The actual probability that a crater gets a time in the `j`-th of the `n - 1` parts of the window: the cumulative number at the end of that part over the sum of all these, and zero for the oldest part."
  },
  {
   "property": "C75",
   "status": "partial",
   "theorems": [
    "Verif.Production.C75_exact",
    "Verif.Production.C75_version_partial",
    "Verif.Production.C75_version_fails"
   ],
   "note": "Refuted: Full statement: after any history, evaluating uses the constants of the current version. It is false: assigning the version after an evaluation keeps the chronology of the old version. Proved part (C75_version_partial): Hence an evaluation uses the constants published for the version that is set exactly if the version at the first evaluation was the same. Missing from the full statement: all other histories."
  },
  {
   "property": "C76",
   "status": "partial",
   "theorems": [
    "Verif.QuasiMC.C76_number_partial",
    "Verif.QuasiMC.C76_exact_time",
    "Verif.QuasiMC.C76_time_partial",
    "Verif.QuasiMC.C76_time_fails"
   ],
   "note": "Refuted: Full statement: the time drawn for a prescribed crater is never negative. It fails for every time with an uncertainty, because the clipped value is discarded: for every draw far enough below the mean the time is negative, and the crater is in no interval of any run, however long. Proved part (C76_number_partial): The time drawn from an N(D) value is never negative, whatever the draw. Proved part (C76_time_partial): A time given with an uncertainty comes out as it was drawn: it is usable exactly if the draw is not too far below the mean."
  },
  {
   "property": "C77",
   "status": "proved",
   "theorems": [
    "Verif.Sampling.C77_law",
    "Verif.Sampling.C77_angle"
   ],
   "note": ""
  },
  {
   "property": "C78",
   "status": "proved",
   "theorems": [
    "Verif.Sampling.C78_law",
    "Verif.Sampling.C78_location"
   ],
   "note": ""
  },
  {
   "property": "C79",
   "status": "proved",
   "theorems": [
    "Verif.Inverse.C79_age",
    "Verif.Inverse.C79_neukum_age",
    "Verif.Inverse.C79_powerlaw_age",
    "Verif.Inverse.C79_diameter"
   ],
   "note": ""
  },
  {
   "property": "C80",
   "status": "partial",
   "theorems": [
    "Verif.Inverse.C80_per_square_metre_partial",
    "Verif.Inverse.C80_factor_partial",
    "Verif.Inverse.C80_units_fails"
   ],
   "note": "Refuted: Full statement: the same N(D) pair means the same time for `Production.sample`, `quasimc_merge` and for `Simulation.run`. It fails for the default unit (per 10⁶ km², factor 1e12): the simulation divides by the factor, the production function multiplies by it. With a linear chronology the times differ by a factor 1e24. Proved part (C80_per_square_metre_partial): The two readings of an N(D) pair agree when numbers are given per square metre, the only unit with conversion factor 1. Proved part (C80_factor_partial): What a pair means to the production function is what the pair with its number multiplied by the square of the conversion factor means to a simulation."
  },
  {
   "property": "C81",
   "status": "partial",
   "theorems": [
    "Verif.Crater.C81_copy_partial",
    "Verif.Crater.C81_name_fails"
   ],
   "note": "Refuted: Full statement fails: a new name given to a copy is lost together with the old one, and a crater loaded from a file has no name. Proved part (C81_copy_partial): A copy without arguments equals the original; given attributes other than the name replace the old ones and nothing else changes."
  },
  {
   "property": "C82",
   "status": "partial",
   "theorems": [
    "Verif.Crater.C82_same_width_partial",
    "Verif.Crater.C82_text_fails"
   ],
   "note": "Refuted: Full statement fails: the time 1.0 with semimajor axis 12.0 and the time 1.01 with semimajor axis 2.0 give the same text, whatever follows, so these two craters have the same id for every hash. Proved part (C82_same_width_partial): Two lists of attributes with the same lengths of the formatted values give the same text only if they are equal: collisions need values of different width."
  },
  {
   "property": "C83",
   "status": "partial",
   "theorems": [
    "Verif.Tags.C83_options_fails",
    "Verif.Tags.C83_options_partial"
   ],
   "note": "Refuted: The rim options given to `tally` reach its first crater only. Proved part (C83_options_partial): With both options off, or a single crater, every crater gets what was asked for."
  },
  {
   "property": "C84",
   "status": "partial",
   "theorems": [
    "Verif.Crater.C84_columns_partial",
    "Verif.Crater.C84_lost_fails",
    "Verif.CsvWrite.C84_table",
    "Verif.CsvWrite.C84_attributes_partial",
    "Verif.CsvWrite.C84_shape_partial",
    "Verif.CsvWrite.C84_shape_fails",
    "Verif.CsvWrite.C84_measured_partial",
    "Verif.CsvWrite.C84_measured_fails"
   ],
   "note": "Refuted: Full statement fails: two craters that differ only in an attribute that the first crater of the list does not have get the same row. Refuted: If the first crater is a circle, the file has no column for the axes, and the line of every ellipse is the line of the circle of the same area: its shape is lost. Refuted: If the first crater has not been measured, the measured sizes of all others are left out. Proved part (C84_columns_partial): Every attribute that the first crater of the list has is written for every crater, in the column of that name: the row has as many entries as the header, and two craters with equal rows agree in all of these attributes. Proved part (C84_attributes_partial): Each line has the id and the diameter of its crater, and every other attribute for which the first crater has a column. Proved part (C84_shape_partial): If the first crater is an ellipse, the size and shape of every crater can be read from its line. Proved part (C84_measured_partial): When a crater and the first crater of the list have been measured, both as circles or both as ellipses, the measured size is in the file: the measured diameter of a circle, twice its radius, or both measured axes. Missing for the full property: craters measured while the first is not (next theorem), or measured as another shape than the first."
  },
  {
   "property": "C85",
   "status": "partial",
   "theorems": [
    "Verif.Crater.C85_circle_partial",
    "Verif.Crater.C85_order_iff_partial",
    "Verif.Crater.C85_order_fails"
   ],
   "note": "Refuted: Full statement fails: axes given in the wrong order stay in the wrong order. Proved part (C85_circle_partial): The axes are in order, unless a pair of axes was given in the wrong order. Proved part (C85_order_iff_partial): Exactly when the axes are in order: unless a pair of axes was given in the wrong order. Sizes other than a pair of axes give a circle."
  },
  {
   "property": "C86",
   "status": "partial",
   "theorems": [
    "Verif.Crater.C86_without_id_partial",
    "Verif.Crater.C86_id_fails"
   ],
   "note": "Refuted: Full statement fails: a row with an id column, which every exported file has, always raises. Proved part (C86_without_id_partial): Without an id among the leftover columns a crater is made, with all attributes and leftover columns, and an id computed from its attributes alone."
  },
  {
   "property": "C87",
   "status": "partial",
   "theorems": [
    "Verif.Crater.C87_same_text_partial",
    "Verif.Crater.C87_integer_time_fails"
   ],
   "note": "Refuted: Full statement fails: a time given as the integer 3000 is read back as the float 3000.0, and the text of the id differs. Proved part (C87_same_text_partial): If the text of every attribute is the same before and after (as for floats, which are written exactly), the id is the same, however many attributes are missing."
  },
  {
   "property": "C88",
   "status": "partial",
   "theorems": [
    "Verif.Crater.C88_fit_partial",
    "Verif.Crater.C88_shrinking_fit_fails"
   ],
   "note": "Refuted: Full statement fails: whenever the fit is smaller than the old semiminor axis, the old semiminor axis is kept as the new semimajor axis. Proved part (C88_fit_partial): The fitted axes are stored exactly when the new semimajor axis is not smaller than the old semiminor axis."
  },
  {
   "property": "C89",
   "status": "proved",
   "theorems": [
    "Verif.Outline.C89_ellipse",
    "Verif.Outline.C89_closed"
   ],
   "note": ""
  },
  {
   "property": "C90",
   "status": "partial",
   "theorems": [
    "Verif.Crater.C90_final_size_partial",
    "Verif.Crater.C90_accepts_iff",
    "Verif.Crater.C90_other_size_fails"
   ],
   "note": "Refuted: Full statement fails for every other size (transient diameter, projectile diameter or mass): unless the old semiminor axis happened to be the new radius, the copy is an ellipse with the old semiminor axis and a diameter other than the one that belongs to the new size. Proved part (C90_final_size_partial): A copy that is given a new final size has the diameter of that size."
  },
  {
   "property": "C91",
   "status": "partial",
   "theorems": [
    "Verif.Degradation.C91_jump_fails",
    "Verif.Degradation.C91_continuous_partial"
   ],
   "note": "Refuted: The degradation state of a crater of given depth ratio jumps at a diameter of 10 km. Proved part (C91_continuous_partial): Away from 10 km it is continuous in the diameter."
  },
  {
   "property": "C92",
   "status": "partial",
   "theorems": [
    "Verif.Tags.C92_ghost_fails",
    "Verif.Tags.C92_on_surface_partial",
    "Verif.Tags.C92_ghost_reachable_fails"
   ],
   "note": "Refuted: A crater whose tags have all been overwritten (by C24 this happens on full faces) stays in the list for ever: tally never looks at it. Refuted: The first of nine craters is still listed as observed after them, with or without a tally, although none of its tags is left; the other eight are on the surface. Proved part (C92_on_surface_partial): As long as no face runs out of layers, after any history of additions and a tally every observed crater is still on the surface and below its visibility limit."
  },
  {
   "property": "C93",
   "status": "partial",
   "theorems": [
    "Verif.Scaling.C93_smaller_partial",
    "Verif.Scaling.C93_iff",
    "Verif.Scaling.C93_forced_class_fails"
   ],
   "note": "Refuted: With an explicit class that does not belong to the size, the transient crater can come out larger than the final one: a crater of one thousandth of the transition diameter called complex. Proved part (C93_smaller_partial): Without random factors (s > 1, c ≥ 1, nominal transition, and the exponents of the code), the transient crater is smaller than the final one for every diameter, with the class of that diameter."
  },
  {
   "property": "C94",
   "status": "partial",
   "theorems": [
    "Verif.Bodies.C94_defaults_partial",
    "Verif.Bodies.C94_defaults_fails"
   ],
   "note": "Refuted: Asteroid and comet projectiles cannot be made without sampling unless angle, direction and location are all given: the documented defaults are never used. Proved part (C94_defaults_partial): Without sampling, a generic projectile that is made at all gets for each of angle, direction and location that is neither stored nor given the documented default: a vertical impact towards north at the origin; and it is made whenever a velocity is stored and nothing is given."
  },
  {
   "property": "C95",
   "status": "partial",
   "theorems": [
    "Verif.Diffusion.C95_exact",
    "Verif.Diffusion.C95_interior_partial",
    "Verif.Diffusion.C95_border_iff",
    "Verif.Diffusion.C95_border_fails"
   ],
   "note": "Refuted: At the border of a region the node elevation depends on the region: a node between face 0 (elevation 0) and face 1 (elevation 1) has elevation 1/2 on the mesh, but 0 when it is interpolated in a region that contains only face 0. So a local update that changes nothing still moves border nodes. Proved part (C95_interior_partial): A node whose faces all belong to the region gets the same elevation from the region as from the whole mesh."
  },
  {
   "property": "C96",
   "status": "partial",
   "theorems": [
    "Verif.Emplace.C96_no_volume_fails",
    "Verif.Emplace.C96_volume_partial"
   ],
   "note": "Refuted: A crater whose elevation change happens to have no net volume is excavated, but then an exception is raised: no ejecta, no degradation. Proved part (C96_volume_partial): If there is any ejecta to scale and the degradation is not negative, forming the crater succeeds exactly if the change is not of zero volume."
  },
  {
   "property": "C97",
   "status": "partial",
   "theorems": [
    "Verif.Emplace.C97_ejecta_nonneg_partial",
    "Verif.Emplace.C97_ejecta_fails"
   ],
   "note": "Refuted: When the crater shape adds volume (as on a steep slope, where the floor is raised to the mean level), ejecta of negative thickness is deposited: every face of the blanket is lowered. Proved part (C97_ejecta_nonneg_partial): The deposited ejecta is nowhere negative when the crater is a net excavation."
  },
  {
   "property": "C98",
   "status": "proved",
   "theorems": [
    "Verif.Profile.C98_total",
    "Verif.Profile.C98_bounded"
   ],
   "note": ""
  },
  {
   "property": "C99",
   "status": "proved",
   "theorems": [
    "Verif.Profile.C99_degradation",
    "Verif.Profile.C99_anchor"
   ],
   "note": ""
  },
  {
   "property": "C100",
   "status": "partial",
   "theorems": [
    "Verif.Profile.C100_unit_partial",
    "Verif.Profile.C100_far_fails",
    "Verif.Profile.C100_around",
    "Verif.Profile.C100_wrap"
   ],
   "note": "Refuted: If all points are beyond 101 crater radii, the intensities are all undefined (NaN), not zero. Proved part (C100_unit_partial): Ray intensities lie between zero and one and vanish inside the crater, and if any point outside is reached by ejecta the largest is one and none is undefined."
  },
  {
   "property": "C101",
   "status": "partial",
   "theorems": [
    "Verif.Profile.C101_truncated_partial",
    "Verif.Profile.C101_small_fails",
    "Verif.Profile.C101_zero_fails"
   ],
   "note": "Refuted: With any smaller factor the extent is larger than the factor times the radius if the feature is thinner than the smallest thickness just outside the rim: it is then 1.0001 radii, whatever the factor. Refuted: A truncation factor of zero is taken as no truncation at all, so the blanket may reach the antipode. Proved part (C101_truncated_partial): With a truncation factor of at least 1.0001 the extent of a feature is at most the factor times the radius, provided the root finder returns a point of its bracket. Missing: smaller factors, see below."
  },
  {
   "property": "C102",
   "status": "partial",
   "theorems": [
    "Verif.Crash.C102_declined_partial",
    "Verif.Crash.C102_first_interval_fails",
    "Verif.Crash.C102_other_grid_fails",
    "Verif.Crash.C102_hires_fails"
   ],
   "note": "Refuted: On a reset the file of the first interval is removed before the user is asked, and the initial state written in its place even if they decline. Refuted: If the grid file does not match, all saved states are removed without asking, even without a reset. Refuted: A high-resolution surface whose index file is missing: the user is asked, declines, and the saved states are removed all the same. Proved part (C102_declined_partial): A user who is asked and declines keeps the saved states of every interval but the first, provided the grid is the same and no new grid is requested (and, for a high-resolution surface, the index file is in place); and without reset nothing is removed. Missing: the other cases, see the `_fails` theorems."
  },
  {
   "property": "C103",
   "status": "partial",
   "theorems": [
    "Verif.CountFiles.C103_resume_partial",
    "Verif.CountFiles.C103_exact",
    "Verif.CountFiles.C103_stale_fails",
    "Verif.CountFiles.C103_emplaced_fails",
    "Verif.CountFiles.C103_duplicate_fails"
   ],
   "note": "Refuted: If no observed craters were left at the last save, but there were some at an earlier one, resuming always brings back observed craters, those of the last interval that had any. Refuted: As long as nothing was observed, all emplaced craters are lost. Refuted: If two emplaced craters of the last save have the same identifier (the same crater emplaced twice), its emplaced craters are never restored. Proved part (C103_resume_partial): After any history of saves with increasing interval numbers, starting from an empty folder, resuming gives the observed and emplaced craters of the last save, up to order, provided the last observed list is not empty and neither list contains two craters with the same identifier. Missing: the other cases, see the `_fails` theorems."
  },
  {
   "property": "C104",
   "status": "partial",
   "theorems": [
    "Verif.Limits.C104_smallest_partial",
    "Verif.Limits.C104_largest_partial",
    "Verif.Limits.C104_smallest_projectile_partial",
    "Verif.Limits.C104_largest_projectile_partial",
    "Verif.Limits.C104_projectiles_of_craters",
    "Verif.Limits.C104_largest_projectile_fails",
    "Verif.Limits.C104_smallest_projectile_all_fails",
    "Verif.Limits.C104_smallest_projectile_fails",
    "Verif.Limits.C104_contradiction_fails"
   ],
   "note": "Refuted: Limiting the projectiles of a crater production function does not do what it says: any assignment of the largest projectile makes the smallest crater as large as the target. Refuted: With a crater production function an assigned smallest projectile is never what is read back, as long as a projectile is smaller than the crater it makes: the value assigned is taken as a crater diameter. If it is at least as large as the smallest crater before and within the allowed range of craters, the value read back is the smaller projectile that makes a crater of that size, and every crater smaller than the value is dropped. Refuted: Assigning the smallest projectile of a crater production function takes the value as a crater diameter: with a slow projectile making craters twice its size, asking for projectiles of at least 10 reads back as 5. Refuted: With a projectile production function, reachable limits can be contradictory even though the smallest crater is well below the largest: every sample is then rejected. Proved part (C104_smallest_partial): After construction and any sequence of assignments, assigning the smallest crater reads back as the value assigned, clamped to the smallest face, and does not change the largest crater. Proved part (C104_largest_partial): Likewise for the largest crater, which is clamped to the target's diameter. Proved part (C104_smallest_projectile_partial): With a projectile production function, after construction and any sequence of assignments, assigning the smallest projectile reads back as the value assigned, but at least the projectile that can make the smallest allowed crater, and does not change the largest projectile. Proved part (C104_largest_projectile_partial): Likewise for the largest projectile."
  },
  {
   "property": "C105",
   "status": "partial",
   "theorems": [
    "Verif.Limits.C105_populate_iff_partial",
    "Verif.Limits.C105_large_face_fails"
   ],
   "note": "Refuted: A single face whose area is at least twice the square of the largest crater makes populating raise, whatever the other faces are, instead of giving no craters to the larger faces. Proved part (C105_populate_iff_partial): Populating raises exactly when the requested limits exclude each other or some bin only has faces larger than the largest crater (only the converse part of the property holds)."
  },
  {
   "property": "C106",
   "status": "partial",
   "theorems": [
    "Verif.Startup.C106_keyword_partial",
    "Verif.Startup.C106_saved_partial",
    "Verif.Startup.C106_replaced_fails",
    "Verif.Startup.C106_top_level_fails"
   ],
   "note": "Refuted: A component that the user replaces when resuming still receives every setting of the old one which is not overridden, although the code says that these are to be dropped. Refuted: A top-level entry of the file wins over the same keyword argument. Proved part (C106_keyword_partial): A keyword argument given to the simulation reaches every component, whatever the file says about that component. Proved part (C106_saved_partial): Without one, the component keeps its saved settings, and a component not named by the user keeps its kind."
  },
  {
   "property": "C107",
   "status": "partial",
   "theorems": [
    "Verif.Startup.C107_ignores_file_fails",
    "Verif.Startup.C107_repeats_fails",
    "Verif.Startup.C107_argument_partial",
    "Verif.Startup.C107_seed"
   ],
   "note": "Refuted: The generator of a resumed simulation is the one a new simulation with the same arguments has: nothing in the configuration file can change it. Refuted: So a script with a fixed seed that is run again to resume draws the same numbers again from the start, rather than continuing from the state that was saved. Proved part (C107_argument_partial): What does work: giving the saved state (and no seed) as an argument restores it."
  },
  {
   "property": "C108",
   "status": "proved",
   "theorems": [
    "Verif.Startup.C108_consent",
    "Verif.Startup.C108_explicit"
   ],
   "note": ""
  },
  {
   "property": "C109",
   "status": "partial",
   "theorems": [
    "Verif.Fit.C109_bearing_partial",
    "Verif.Fit.C109_bearing_fails"
   ],
   "note": "Refuted: In the other half of the cases it is wrong by a right angle. Proved part (C109_bearing_partial): The orientation reported for a fitted rim is the bearing of its semi-major axis, clockwise from north, if the ellipse is longer in the north-south direction than in the east-west direction and not aligned with these."
  },
  {
   "property": "C110",
   "status": "proved",
   "theorems": [
    "Verif.Fit.C110_sign"
   ],
   "note": ""
  },
  {
   "property": "C111",
   "status": "partial",
   "theorems": [
    "Verif.Measure.C111_mean_partial",
    "Verif.Measure.C111_relative_partial",
    "Verif.Measure.C111_missing_fails"
   ],
   "note": "Refuted: A missing elevation shifts the elevations against the distances: if the first face of the crater has none, its floor and its rim are measured as if every other face were at the distance of the face before it. Proved part (C111_mean_partial): The floor is the mean elevation of the faces that carry the crater and lie within a fifth of its radius; the rim is that of the faces that carry it and lie between 0.95 and 1.2 radii. Proved part (C111_relative_partial): Raising the whole region does not change the measured depth, and stretching its relief stretches the depth by the same factor."
  },
  {
   "property": "C112",
   "status": "proved",
   "theorems": [
    "Verif.Measure.C112_lost",
    "Verif.Measure.C112_present"
   ],
   "note": ""
  },
  {
   "property": "C113",
   "status": "partial",
   "theorems": [
    "Verif.Measure.C113_tilt",
    "Verif.Measure.C113_plane",
    "Verif.Measure.C113_balance",
    "Verif.Measure.C113_small_fails",
    "Verif.Measure.C113_outside_fails"
   ],
   "note": "Refuted: With fewer than five faces in the circle everything comes out at height zero, whatever the elevations: the depth of a crater that small cannot be told. Refuted: Faces outside the circle come out at height zero, whatever their elevation."
  },
  {
   "property": "C114",
   "status": "partial",
   "theorems": [
    "Verif.Measure.C114_ends",
    "Verif.Measure.C114_chain_partial",
    "Verif.Measure.C114_extent_fails"
   ],
   "note": "Refuted: The region that is looked at never grows or shrinks with the fit: in every pass it has the same extent, although the code says that it surrounds the best-fit radius. Proved part (C114_chain_partial): The first pass starts from the crater itself, and every other from the centre and axes that the pass before has found and from the orientation found, in degrees; the weights are those of the number of the pass."
  },
  {
   "property": "C115",
   "status": "proved",
   "theorems": [
    "Verif.RimScore.C115_quantile",
    "Verif.RimScore.C115_sectors",
    "Verif.RimScore.C115_range",
    "Verif.RimScore.C115_enough",
    "Verif.RimScore.C115_order"
   ],
   "note": ""
  },
  {
   "property": "C116",
   "status": "partial",
   "theorems": [
    "Verif.Outline.C116_shift_partial",
    "Verif.Outline.C116_flip_partial",
    "Verif.Outline.C116_pole_fails"
   ],
   "note": "Refuted: **C116 fails** for outlines around a pole. For a centre on the prime meridian no vertex is moved, so vertices close to each other on both sides of the antimeridian stay up to 360 degrees apart; and for any other centre vertices on both sides of the prime meridian, however close to each other, end up on the other side of the globe from each other. Proved part (C116_shift_partial): **C116, part.** A vertex whose longitude, counted continuously from the centre, keeps the sign of the centre's longitude (that is, the outline does not also reach across the prime meridian) is moved from its representative in [-180, 180] to that continuous longitude, so neighbouring vertices stay neighbours. Missing: outlines around a pole, see `C116_pole_fails`. Proved part (C116_flip_partial): **C116, part.** The piece beyond the antimeridian is moved back to the same points with longitudes in [-180, 180]."
  },
  {
   "property": "C117",
   "status": "partial",
   "theorems": [
    "Verif.Slope.C117_slope_partial",
    "Verif.Slope.C117_isotropic_fails",
    "Verif.Slope.C117_every_mesh_fails",
    "Verif.Slope.C117_collapse_fails",
    "Verif.Slope.C117_polygon_fails"
   ],
   "note": "Refuted: If the directions of the neighbours have no preferred axis, the computed slope of a plane is exactly half its slope. Refuted: On no mesh whatever are all slopes right: around every face with at least two neighbours there is a direction in which the plane of slope 1 has a computed slope of at most 1/2. Refuted: Hence slope collapse does not act on planes up to twice the critical slope. Refuted: On a face that is a regular polygon of any number of sides, in particular a hexagon, the computed slope of every plane is half its slope. Proved part (C117_slope_partial): The computed slope of a plane is never larger than its slope."
  },
  {
   "property": "C118",
   "status": "partial",
   "theorems": [
    "Verif.Sequence.C118_settled_partial",
    "Verif.Sequence.C118_checked_partial",
    "Verif.Sequence.C118_fails",
    "Verif.Sequence.C118_two_partial"
   ],
   "note": "Refuted: **C118 fails.** Three prescribed craters with sequence numbers 1, 2, 3 and N values 1 ± 0, 9 ± 2, 9 ± 1: the ten rounds end before the extents decrease, processing succeeds, and the crater with the last number is older than the others. The check of the order takes the last number out of the comparison; with two sequence numbers nothing is compared. Proved part (C118_settled_partial): **C118, part.** If the lower and the upper ends of the extents decrease with the sequence number — which is what the ten rounds of adjustment look for — every time drawn for a sequence number is at least every time drawn for a later one: for any number of sequences, any metadata and any draws that keep to their bounds, including the last number, which is never checked. Missing: the rounds can end without reaching that, see `C118_fails`. Proved part (C118_checked_partial): **C118, part.** Whatever the extents and the draws: if processing succeeds, the craters of all sequence numbers but the last are in order. Proved part (C118_two_partial): **C118, part.** With one or two sequence numbers the times are always in order, whatever their metadata and uncertainties, even when the number of the later one is the larger: four rounds are enough for the extents to decrease. With three they may not be, see `C118_fails`."
  },
  {
   "property": "C119",
   "status": "partial",
   "theorems": [
    "Verif.Sequence.C119_partial",
    "Verif.Sequence.C119_fails"
   ],
   "note": "Refuted: **C119 fails.** When the first of two sequence numbers has an N value with an uncertainty that reaches or exceeds it, and the second, the last one, has no metadata and so is anchored at zero, the extent of the second is empty at zero: processing ends in a division by zero, whatever the draws. By `C119_partial` it does not when the uncertainty is smaller. Proved part (C119_partial): **C119, part.** No division by zero occurs if every sequence number with metadata has an N value that exceeds its uncertainty: the other numbers, the last one included, may have metadata or not. Ages of positive numbers are positive, and that of zero is not negative. Missing: uncertainties that reach the value, see `C119_fails`."
  },
  {
   "property": "C120",
   "status": "partial",
   "theorems": [
    "Verif.Sequence.C120_partial",
    "Verif.Sequence.C120_history",
    "Verif.Sequence.C120_fails"
   ],
   "note": "Refuted: **C120 fails.** Taking the prescribed craters away again, or replacing them by larger ones, does not give the size range back. Proved part (C120_partial): **C120, part.** While prescribed craters are set, the sampled size range ends at or below each of them and not above where it ended before."
  },
  {
   "property": "C121",
   "status": "partial",
   "theorems": [
    "Verif.Export.C121_files_partial",
    "Verif.Export.C121_vector_fails",
    "Verif.Export.C121_nothing",
    "Verif.Export.C121_second",
    "Verif.Export.C121_asking_fails",
    "Verif.Export.C121_type",
    "Verif.Export.C121_mixed_case_fails"
   ],
   "note": "Refuted: **C121 fails** for the vector formats: the driver is listed as valid, the export ends without an error, and nothing is written. Refuted: **C121 fails** after an error: an unknown crater type is reported only after the asking mode has been set to the one asked for in the call, which then stays. Refuted: A driver listed in mixed case can never be asked for: names are compared in upper case. Proved part (C121_files_partial): **C121, part.** With an SCC, VTK, VTP or CSV driver, in any spelling, an export writes for every list asked for and every saved interval of it one file with exactly the craters of that interval, and leaves the asking mode as it was. Missing: the vector formats, see `C121_vector_fails`, and the asking mode after an error, see `C121_asking_fails`."
  },
  {
   "property": "C122",
   "status": "partial",
   "theorems": [
    "Verif.Export.C122_partial",
    "Verif.Export.C122_fails"
   ],
   "note": "Refuted: **C122 fails** for the current observed craters and for dictionaries, which are among the documented forms: whatever craters they hold, none of them is written. A dictionary of craters, such as the observed list, ends in an error about an unset variable; from a dictionary of datasets the datasets come back in place of craters. Proved part (C122_partial): **C122, part.** Craters are written exactly for a list of craters, for a dataset, and without an argument for the emplaced list; and then they are those given, in the same order. Missing: the other documented forms, see `C122_fails`."
  },
  {
   "property": "C123",
   "status": "partial",
   "theorems": [
    "Verif.Export.C123_partial",
    "Verif.Export.C123_fails"
   ],
   "note": "Refuted: **C123 fails.** Whatever style is asked for, the file is the same; so wherever the style matters, some request is not honoured. Proved part (C123_partial): **C123, part.** With the default style and measured properties the file holds the mesh asked for."
  },
  {
   "property": "C124",
   "status": "partial",
   "theorems": [
    "Verif.Export.C124_partial",
    "Verif.Export.C124_fails"
   ],
   "note": "Refuted: **C124 fails.** A crater count file in another spelling is refused although the extension was recognised, and for any other extension an unset variable is returned, not an error about the format. Proved part (C124_partial): **C124, part.** A file is read in the format of its extension, whatever the case of `nc` and `csv` and for `scc` in lower case."
  },
  {
   "property": "C125",
   "status": "partial",
   "theorems": [
    "Verif.Sfd.C125_positive_partial",
    "Verif.Sfd.C125_fails"
   ],
   "note": "Refuted: **C125 fails** for diameters that are not positive: with a positive limit the conversion then never returns. Proved part (C125_positive_partial): **C125, part.** (Missing: diameters that are not positive, see `C125_fails`.) For every positive diameter the conversion ends with exactly one number of craters; it covers the diameters from `D` up to some `E` that lies between the limit and the limit times the square root of two (for `D` at or above the limit it is zero); and if R lies between `m` and `M` over these diameters, the number is at least 94% of the integral of `m / D³` and at most 95% of the integral of `M / D³` from `D` to `E`."
  },
  {
   "property": "C126",
   "status": "proved",
   "theorems": [
    "Verif.Sfd.C126_curves"
   ],
   "note": ""
  },
  {
   "property": "C127",
   "status": "partial",
   "theorems": [
    "Verif.Cache.C127_ratio_partial",
    "Verif.Cache.C127_since_partial",
    "Verif.Cache.C127_stale_fails"
   ],
   "note": "Refuted: **C127 fails.** Once rim height or floor depth has been read, they stay those of the elevations at that time, whatever edits of the surface follow, until the crater is tagged, stripped of its region or has its ratio read. Proved part (C127_ratio_partial): **C127, part.** The depth to diameter ratio is always that of the present surface, after any history of edits and readings. Proved part (C127_since_partial): **C127, part.** Rim height and floor depth are those of the present surface when the elevations have not changed since the crater was last tagged, stripped of its region, or had its depth to diameter ratio read. Missing: any other history, see `C127_stale_fails`."
  },
  {
   "property": "C128",
   "status": "partial",
   "theorems": [
    "Verif.GridId.C128_injective_partial",
    "Verif.GridId.C128_layout_fails",
    "Verif.GridId.C128_given"
   ],
   "note": "Refuted: **C128 fails** for what is not part of the identity: every mesh whose superdomain was laid out automatically carries the same factor into the identity as one that was given this factor, but near the antipode the cells of the latter are larger by more than the size of the local cells in metres. Proved part (C128_injective_partial): **C128.** Two sets of settings have the same identity only if they are the same: same kind of mesh, same target name and radius, and the same settings of that kind. It is required that printing is faithful, the hash has no collision and target names contain no colon."
  },
  {
   "property": "C129",
   "status": "proved",
   "theorems": [
    "Verif.GridId.C129_regrid",
    "Verif.GridId.C129_settings"
   ],
   "note": ""
  },
  {
   "property": "C130",
   "status": "partial",
   "theorems": [
    "Verif.DataSurface.C130_deferred_partial",
    "Verif.DataSurface.C130_unnamed",
    "Verif.DataSurface.C130_ignored_fails",
    "Verif.DataSurface.C130_reused_fails"
   ],
   "note": "Refuted: **C130 fails.** When the scale factor is given, or found automatically at once (the default), a new mesh gets the elevations of the default file outside the local region, whatever file the user named. Refuted: **C130 fails** also when a saved mesh is used again: the saved elevations stay, whatever file is named now. Proved part (C130_deferred_partial): **C130, part.** When the scale factor is left open at first and found later, and no elevations were saved before or a new mesh is made, the elevations outside the local region come from the file the user named. Missing: every other way of building the surface, see `C130_ignored_fails` and `C130_reused_fails`."
  },
  {
   "property": "C131",
   "status": "partial",
   "theorems": [
    "Verif.DataSurface.C131_metres_partial",
    "Verif.DataSurface.C131_exterior_partial",
    "Verif.DataSurface.C131_no_reading",
    "Verif.DataSurface.C131_kilometres_fails",
    "Verif.DataSurface.C131_units_fails"
   ],
   "note": "Refuted: **C131 fails** for files in kilometres: the marker is compared after the conversion to metres, so that a missing pixel comes out as 1000 times the marker, for every marker other than zero; inside and outside the local region. Refuted: **C131 fails** for the units: whenever the unit of the file's only band, in any case, contains the word for kilometres but is not this very word in capitals, the elevations are converted to metres outside the local region but not inside. Proved part (C131_metres_partial): **C131, part.** In files in metres every missing pixel gets the mean of the others, which stay as they are, provided there is at least one pixel that is not missing. Missing: files in kilometres, see `C131_kilometres_fails`. Proved part (C131_exterior_partial): The same for the elevations outside the local region, with or without marker."
  },
  {
   "property": "C132",
   "status": "partial",
   "theorems": [
    "Verif.Uniform.C132_count",
    "Verif.Uniform.C132_sphere",
    "Verif.Uniform.C132_fits_partial",
    "Verif.Uniform.C132_coarse_fails"
   ],
   "note": "Refuted: C132 (no bound is checked): the size of a face may be set to any positive number, but a surface whose faces are wider than about two and a half radii of the body cannot be made: either not one point fits and None is indexed, or two coordinates of the points agree and one of them is dropped, so that the poles no longer fit. Proved part (C132_fits_partial): C132 (which sizes give a mesh): exactly those for which at least two squares of side `pix` fit on the surface."
  },
  {
   "property": "C133",
   "status": "partial",
   "theorems": [
    "Verif.SurfaceExport.C133_all_partial",
    "Verif.SurfaceExport.C133_latest_partial",
    "Verif.SurfaceExport.C133_same_partial",
    "Verif.SurfaceExport.C133_overwrites_fails",
    "Verif.SurfaceExport.C133_negative_fails",
    "Verif.SurfaceExport.C133_ask_fails",
    "Verif.SurfaceExport.C133_names_partial",
    "Verif.SurfaceExport.C133_silent_fails",
    "Verif.SurfaceExport.C133_raster_fails"
   ],
   "note": "Refuted: C133 (an earlier interval is lost): exporting an earlier interval by its number first saves the present surface under that number. The saved state of the interval is gone, its times stay, and what is exported is the present surface. Refuted: C133 (a negative interval makes a new state): given to the surface, a negative number does not only count from the end: the present surface is also saved as an interval of that number, which comes before all others. Refuted: C133 (an error changes the asking mode): if the writer raises an error, the asking mode given for one export stays. Refuted: C133 (silence): a driver that is none of these writes nothing, reports nothing and is no error, although with an interval given the present surface is saved. The names of two drivers of the table are not in upper case, and the short name for shapefiles, which `to_vector_file` accepts, is not in the table. Refuted: C133 (rasters replace files): the default export of a simulation writes a raster, and an existing raster is overwritten whatever the user answers. Proved part (C133_all_partial): C133 (all intervals): exporting without naming an interval changes no saved state, writes every saved state with its own data, and leaves the asking mode as it was. Proved part (C133_latest_partial): C133 (the present interval): exporting a simulation without naming an interval writes the present state under the present interval number, and saves that state with its times; all other saved states stay as they were. Proved part (C133_same_partial): C133 (an interval named): the saved states of the other intervals stay as they were; if the surface is in the state that was saved for the interval, so does that one, and the export is made of it. Proved part (C133_names_partial): C133 (names of drivers): the name of a driver is accepted in any mixture of upper and lower case, and then all saved states are exported."
  },
  {
   "property": "C134",
   "status": "partial",
   "theorems": [
    "Verif.SurfaceExport.C134_global",
    "Verif.SurfaceExport.C134_region_partial",
    "Verif.SurfaceExport.C134_border_fails"
   ],
   "note": "Refuted: C134 (regions are blurred): the border of four faces is added to the extent of the raster but not to its number of pixels, so that every pixel is wider than a face whenever the region is a whole number of faces across; for a region ten faces across it is 1.8 faces wide. Proved part (C134_region_partial): C134 (regions): a pixel of the raster of a region is at most wider than a face by the part four faces have of the radius of the region."
  },
  {
   "property": "C135",
   "status": "partial",
   "theorems": [
    "Verif.Noise.C135_bound_partial",
    "Verif.Noise.C135_linear",
    "Verif.Noise.C135_amplitude_fails"
   ],
   "note": "Refuted: C135 (far too low): the height is divided by the radius of the body, as the coordinates are, but the noise is added to the elevations without multiplying by the radius again. On every body of more than four kilometres radius, noise of any height changes no elevation by as much as a thousandth of that height; on the Moon noise of one kilometre is less than three millimetres high. Proved part (C135_bound_partial): C135 (bound): no elevation changes by more than four times the height of the noise over the radius of the body."
  },
  {
   "property": "C136",
   "status": "proved",
   "theorems": [
    "Verif.Diffusion.C136_whole_time"
   ],
   "note": ""
  },
  {
   "property": "C137",
   "status": "partial",
   "theorems": [
    "Verif.Overlap.C137_shared",
    "Verif.Overlap.C137_masks",
    "Verif.Overlap.C137_aligned",
    "Verif.Overlap.C137_diffusion",
    "Verif.Overlap.C137_uniform_diffusion",
    "Verif.Overlap.C137_collapse_noise",
    "Verif.Overlap.C137_tags",
    "Verif.Overlap.C137_identifiers",
    "Verif.Overlap.C137_margin_fails"
   ],
   "note": "Refuted: C137, the gap: regions keep the edges of their inner faces only, so a region and the local region can share faces of their margins without an edge; those faces are then left out of every operation, for example they are not tagged. The witness is a chain of faces with the edge `i` before face `i`: the region around face 0 and the local region around face 2, which share face 1."
  },
  {
   "property": "C138",
   "status": "partial",
   "theorems": [
    "Verif.Label.C138_present_partial",
    "Verif.Label.C138_saved_partial",
    "Verif.Label.C138_not_saved",
    "Verif.Label.C138_from_end_fails",
    "Verif.Label.C138_diameter",
    "Verif.Label.C138_units_exact_partial",
    "Verif.Label.C138_metres_fails"
   ],
   "note": "Refuted: C138, the gap: a state counted from the end, as in `plot(interval=-1)`, is read and drawn, but its label has neither time nor age, whatever was stored. Refuted: C138, another gap: the diameter of the N(D) piece is documented in kilometres, but with diameters in metres (`D_conversion_factor = 1`) it is taken in metres: here N(1) is 1000 times as large as it should be. Proved part (C138_present_partial): C138, for the present state: with diameters in kilometres the label shows the present interval, time, age and number of craters, as far as they are asked for and known. Proved part (C138_saved_partial): C138, for a saved state given by its number: the label shows what was stored with it. Proved part (C138_units_exact_partial): C138, exactly when the number shown is the one for the diameter in kilometres, for every unit of diameter: the label gives the number of craters above `d` of the production function's own units, which is the number above `d` kilometres exactly if the production function has equally many craters above both."
  },
  {
   "property": "C139",
   "status": "partial",
   "theorems": [
    "Verif.Attr.C139_slice_partial",
    "Verif.Attr.C139_other",
    "Verif.Attr.C139_read_back_partial",
    "Verif.Attr.C139_kind_fails"
   ],
   "note": "Refuted: On a mesh with as many nodes as faces the values of nodes are not available: the numbers of the region's faces are used to pick nodes, without any error, whatever the region and the values. Such a mesh, with three edges at each node, has four faces. Proved part (C139_slice_partial): On every such mesh, a variable on faces, nodes or edges read through a region has exactly the values of the region's faces, nodes or edges, in the order of the region. What is missing: meshes of other shape, see `C139_kind_fails`. Proved part (C139_read_back_partial): What is put in through a region is what is read through it: after an overwrite with data of the size of the region's faces (nodes) the region shows exactly these data, whether the variable existed (of this kind) or not, and another region shows the old values wherever it does not overlap. `hd`: the region has not as many nodes as faces."
  },
  {
   "property": "C140",
   "status": "partial",
   "theorems": [
    "Verif.Defaults.C140_named_partial",
    "Verif.Defaults.C140_default_fails",
    "Verif.Defaults.C140_guide_fails",
    "Verif.Defaults.C140_version_default_fails",
    "Verif.Defaults.C140_version_fails",
    "Verif.Defaults.C140_case",
    "Verif.Defaults.C140_version_partial",
    "Verif.Defaults.C140_valid"
   ],
   "note": "Refuted: Without a production function the lunar one of Neukum is used for every target body, also for Mars, for the bodies documented to have a function of projectiles, and for those documented to have a power law. Refuted: The user guide promises Neukum's function for Vesta and Ceres as well; they never get it, whatever is asked for by this name: always a power law. Refuted: A version given with the default production function is an error. Refuted: The version is not obeyed: for every target body, any version other than the exact word `projectile` is ignored, also if it names another body or is the documented spelling `Projectile`; and without a target, any version other than this word and the names of the two bodies gives the lunar function. Proved part (C140_named_partial): Asked for by the name `neukum` (in any case) and without a version, the documented function of the body is used, whatever the body. What is missing: the default, see `C140_default_fails`. Proved part (C140_version_partial): The version is obeyed when it is `projectile` and the body one of the five, and when it is `Moon` or `Mars` and no target is given."
  },
  {
   "property": "C141",
   "status": "partial",
   "theorems": [
    "Verif.Defaults.C141_default_partial",
    "Verif.Defaults.C141_default_fails",
    "Verif.Defaults.C141_velocity",
    "Verif.Defaults.C141_main_belt",
    "Verif.Defaults.C141_generic"
   ],
   "note": "Refuted: For Phobos, Deimos and Arrokoth, which are in the catalogue of targets, neither asteroids nor comets are used but generic projectiles of 20 km/s. Proved part (C141_default_partial): Without a projectile model, asteroids are used for the documented rocky bodies, and comets for every other body that the comets know. What is missing: bodies of neither list, see `C141_default_fails`."
  },
  {
   "property": "C142",
   "status": "partial",
   "theorems": [
    "Verif.Units.C142_units",
    "Verif.Units.C142_accepted",
    "Verif.Units.C142_reading",
    "Verif.Units.C142_assigned",
    "Verif.Units.C142_constructor_partial",
    "Verif.Units.C142_constructor_fails",
    "Verif.Units.C142_powerlaw_fails"
   ],
   "note": "Refuted: Craters given to the constructor with other units are understood in the default units all the same: for numbers per km², one million times too low. Refuted: A power law cannot be constructed with a prescribed crater given by a number: the coefficients of the function are not set yet. Proved part (C142_constructor_partial): Craters given to the constructor are understood in the units given to it if these are the default ones and the function is Neukum's. What is missing: other units and the power law, see `C142_constructor_fails` and `C142_powerlaw_fails`."
  },
  {
   "property": "C143",
   "status": "partial",
   "theorems": [
    "Verif.CsvRead.C143_cells_partial",
    "Verif.CsvRead.C143_location",
    "Verif.CsvRead.C143_measured_location",
    "Verif.CsvRead.C143_time",
    "Verif.CsvRead.C143_number",
    "Verif.CsvRead.C143_rows",
    "Verif.CsvRead.C143_arguments",
    "Verif.CsvRead.C143_name_fails",
    "Verif.CsvRead.C143_unreadable",
    "Verif.CsvRead.C143_incomplete_fails",
    "Verif.CsvRead.C143_integer_fails"
   ],
   "note": "Refuted: C143 refuted (text): a name that reads like a number, such as that of the asteroid or crater \"1054\", does not come back as the text that was written: every such name is turned into a number. Refuted: C143 refuted (pairs): a row with a longitude and an empty latitude is accepted without an error, and the longitude is dropped: the crater gets no location from the file. Refuted: C143 refuted (integers): a sequence number in a cell that `int` rejects (for instance `3.0`, as spreadsheets may write it) makes reading the whole file fail, whatever the other rows hold. Proved part (C143_cells_partial): C143 (numbers): a filled cell with a number gives that number under the column's name, for every column other than the integer columns and the tuples; the integer columns give the integer; an empty or missing cell gives nothing."
  },
  {
   "property": "C144",
   "status": "proved",
   "theorems": [
    "Verif.MeshSize.C144_faces",
    "Verif.MeshSize.C144_statistics",
    "Verif.MeshSize.C144_total"
   ],
   "note": ""
  },
  {
   "property": "C145",
   "status": "partial",
   "theorems": [
    "Verif.MeshSize.C145_counts",
    "Verif.MeshSize.C145_nominal",
    "Verif.MeshSize.C145_level_partial",
    "Verif.MeshSize.C145_level_fails",
    "Verif.MeshSize.C145_read_partial",
    "Verif.MeshSize.C145_history",
    "Verif.MeshSize.C145_read_fails",
    "Verif.MeshSize.C145_arbitrary"
   ],
   "note": "Refuted: C145 (setting) refuted: a value that is not a whole number is not rejected, although the message says that the level must be a non-negative integer; it is cut down to the whole number below. Refuted: C145 (histories) refuted: a new level takes effect or not depending on whether the size was read before. After reading it, the new level leaves it unchanged; without reading it, the size changes although the mesh is still the old one. Proved part (C145_level_partial): C145 (setting): a level is accepted exactly when it is not negative, and a whole number is kept. Proved part (C145_read_partial): C145 (histories): as long as the level is not assigned again, the nominal size is that of the mesh, however often it has been read."
  },
  {
   "property": "C146",
   "status": "proved",
   "theorems": [
    "Verif.Rings.C146_grid",
    "Verif.Rings.C146_grid_ends",
    "Verif.Rings.C146_inside",
    "Verif.Rings.C146_distinct",
    "Verif.Rings.C146_rings",
    "Verif.Rings.C146_rings_end",
    "Verif.Rings.C146_outside",
    "Verif.Rings.C146_spacing",
    "Verif.Rings.C146_antipode",
    "Verif.Rings.C146_separate"
   ],
   "note": ""
  },
  {
   "property": "C147",
   "status": "proved",
   "theorems": [
    "Verif.Fit.C147_least",
    "Verif.Fit.C147_error",
    "Verif.Fit.C147_succeeds",
    "Verif.Fit.C147_exact",
    "Verif.Fit.C147_parabola"
   ],
   "note": ""
  },
  {
   "property": "C148",
   "status": "proved",
   "theorems": [
    "Verif.Fit.C148_least",
    "Verif.Fit.C148_error",
    "Verif.Fit.C148_succeeds",
    "Verif.Fit.C148_exact"
   ],
   "note": ""
  },
  {
   "property": "C149",
   "status": "partial",
   "theorems": [
    "Verif.Fit.C149_zero_partial",
    "Verif.Fit.C149_rms_fails",
    "Verif.Fit.C149_nan_fails"
   ],
   "note": "Refuted: Points that lie exactly on the fitted circle are given an error above zero: the distance of a point is computed from the radius of the ellipse in its direction and does not depend on the distance of the point. Refuted: One weight that is no number makes the error no number, although the point has no part in the ellipse. Proved part (C149_zero_partial): Leaving out points of weight zero changes nothing, neither the ellipse nor the error."
  },
  {
   "property": "C150",
   "status": "proved",
   "theorems": [
    "Verif.Fit.C150_flags",
    "Verif.Fit.C150_circle"
   ],
   "note": ""
  },
  {
   "property": "C151",
   "status": "partial",
   "theorems": [
    "Verif.Sampling.C151_between",
    "Verif.Sampling.C151_power_law",
    "Verif.Sampling.C151_sample",
    "Verif.Sampling.C151_law",
    "Verif.Sampling.C151_expected_partial",
    "Verif.Sampling.C151_overcount_fails",
    "Verif.Sampling.C151_no_range_fails",
    "Verif.Sampling.C151_single_fails"
   ],
   "note": "Refuted: The number of craters is drawn for all craters larger than the smallest diameter, but all of them are then given diameters up to the largest: of every size too many craters are expected, by the fraction of craters above the range. Refuted: The documentation says that without a range of diameters the one of the production function is used, but every such call ends in a TypeError. Refuted: A range of a single diameter passes the checks, but no crater can be drawn from it: every sample that is not empty ends in an IndexError. Proved part (C151_expected_partial): The expected numbers are right up to a common factor, which is close to one when few of the craters larger than the smallest diameter are larger than the largest."
  },
  {
   "property": "C152",
   "status": "partial",
   "theorems": [
    "Verif.Sampling.C152_mean_partial",
    "Verif.Sampling.C152_escape_fails",
    "Verif.Sampling.C152_truncated_fails"
   ],
   "note": "Refuted: With an escape velocity below the mean, the mean of the sampled velocities is larger than the mean that was asked for. Refuted: With an escape velocity at or above the mean, the mean of the velocities below the escape velocity, which are the ones that are returned, is smaller than the mean that was asked for. Proved part (C152_mean_partial): The mean of the sampled velocities is the mean velocity that is asked for, when there is no escape velocity (missing: with an escape velocity it is not, as the next two theorems show)."
  },
  {
   "property": "C153",
   "status": "proved",
   "theorems": [
    "Verif.Sampling.C153_law",
    "Verif.Sampling.C153_maxwell"
   ],
   "note": ""
  },
  {
   "property": "C154",
   "status": "partial",
   "theorems": [
    "Verif.Scaling.C154_bounds",
    "Verif.Scaling.C154_deviation",
    "Verif.Scaling.C154_recompute",
    "Verif.Scaling.C154_ctem",
    "Verif.Scaling.C154_off",
    "Verif.Scaling.C154_same_fails",
    "Verif.Scaling.C154_gravity",
    "Verif.Scaling.C154_transition",
    "Verif.Scaling.C154_conversions",
    "Verif.Scaling.C154_smaller"
   ],
   "note": "Refuted: The guide says that the CTEM model is the random one with its randomness turned off. It is another law: on every body the two give the same transient diameter for exactly one final diameter of a complex crater."
  },
  {
   "property": "C155",
   "status": "proved",
   "theorems": [
    "Verif.Populate.C155_window"
   ],
   "note": ""
  },
  {
   "property": "C156",
   "status": "proved",
   "theorems": [
    "Verif.Populate.C156_craters"
   ],
   "note": ""
  },
  {
   "property": "C157",
   "status": "proved",
   "theorems": [
    "Verif.Populate.C157_independent",
    "Verif.Populate.C157_face",
    "Verif.Populate.C157_region",
    "Verif.Populate.C157_poisson"
   ],
   "note": ""
  },
  {
   "property": "C158",
   "status": "partial",
   "theorems": [
    "Verif.Radial.C158_component",
    "Verif.Radial.C158_half_partial",
    "Verif.Radial.C158_half_fails",
    "Verif.Radial.C158_pole_fails"
   ],
   "note": "Refuted: So the radial gradient is not the rate of change: on a face with `n ≥ 3` equal neighbours all around, every plane that is not level along the bearing gets another value (half of it). Refuted: Near a pole the radial gradient can have the wrong sign. The stored bearing of a face is the one at the centre of the region, but it is used at the face, where north is another direction. For a region centred near the north pole and a face beyond the pole, a surface that rises away from the centre (with slope `s > 0`) gets the negative value `-s / 2`. Proved part (C158_half_partial): Where the neighbours have no preferred axis, the radial gradient of a plane is half its rate of change along the bearing that the region stores for the face."
  },
  {
   "property": "C159",
   "status": "partial",
   "theorems": [
    "Verif.Geometry.C159_reads_partial",
    "Verif.Geometry.C159_early_partial",
    "Verif.Geometry.C159_smallest_partial",
    "Verif.Geometry.C159_stale_fails",
    "Verif.Geometry.C159_mixed_fails"
   ],
   "note": "Refuted: Whatever has been read once stays as it was for the old target: after any reads, a new target changes nothing about the property read last. Refuted: Areas of one body can then be combined with lengths of another: when the areas were read before the new target and the edge lengths after it, the areas are those of the old body and the lengths those of the new one. Proved part (C159_reads_partial): As long as the target is not replaced, every property is that of the sphere with the target's radius, whichever properties are read, in whatever order and however often. Proved part (C159_early_partial): A new target given before anything is read counts as well. Proved part (C159_smallest_partial): The smallest length is 10⁻⁵ times the size of some face, and no face is smaller."
  },
  {
   "property": "C160",
   "status": "proved",
   "theorems": [
    "Verif.Geometry.C160_raised",
    "Verif.Geometry.C160_export"
   ],
   "note": ""
  },
  {
   "property": "C161",
   "status": "partial",
   "theorems": [
    "Verif.Shapefile.C161_short_partial",
    "Verif.Shapefile.C161_layers_fails",
    "Verif.Shapefile.C161_crater_id_fails",
    "Verif.Shapefile.C161_geometry_fails",
    "Verif.Shapefile.C161_ten",
    "Verif.Shapefile.C161_spelling_fails",
    "Verif.Shapefile.C161_names",
    "Verif.Shapefile.C161_standard_partial",
    "Verif.Shapefile.C161_alias"
   ],
   "note": "Refuted: The layers of a variable whose name has nine characters or more all get the same column in a shapefile: what tells them apart is cut off. Refuted: In particular those of the ids of the craters that a surface carries as soon as craters are counted: with two layers or more the columns of a shapefile are never distinct. The rule that leaves out variables whose names start with `id` does not apply to `crater_id`. Refuted: The column of the geometry is renamed as well: in a shapefile's table no column is called `geometry`, for any variables. Refuted: The limit is not kept for any other spelling of the driver, which is accepted as well: all names are written as they are. Proved part (C161_short_partial): Names in lower case with at most ten characters that contain none of the long names keep columns of their own, whatever their number. Proved part (C161_standard_partial): The usual variables on the faces keep different columns, in any selection and order. Missing for the full property: other long names, see the theorems above."
  },
  {
   "property": "C162",
   "status": "partial",
   "theorems": [
    "Verif.SurfaceSave.C162_never_fails",
    "Verif.SurfaceSave.C162_saved_partial",
    "Verif.SurfaceSave.C162_added",
    "Verif.SurfaceSave.C162_others",
    "Verif.SurfaceSave.C162_stale_fails"
   ],
   "note": "Refuted: Saving a surface never fails: neither does any history of changes and saves. Refuted: The full claim fails: a variable that the surface had at an earlier save of the same interval, and no longer has, is read back as if it belonged to the new state. Proved part (C162_saved_partial): After a save, and whatever happens later to the surface and to other intervals, reading the interval gives the values the surface had at the save, and the time variables that were given. What is missing from the full claim: a variable that was in the file before and that the surface no longer has is still there (`C162_stale_fails`)."
  },
  {
   "property": "C163",
   "status": "partial",
   "theorems": [
    "Verif.SurfaceSave.C163_refused_partial",
    "Verif.SurfaceSave.C163_created_partial",
    "Verif.SurfaceSave.C163_fails"
   ],
   "note": "Refuted: Saving a region is not harmless: whenever there is no file of the interval yet, saving a region with fewer faces than the surface makes one in which a variable has the values of the region only, and saving the whole surface for that interval is an error from then on, whatever its data are by then. Proved part (C163_refused_partial): Saving a local region when the file of the interval already holds data on the faces of the whole surface is an error that changes nothing, unless the region has as many faces as the surface. Proved part (C163_created_partial): Saving a local region when there is no file of the interval makes one that holds the values of the region as if they were the state of the whole surface. Without an interval number it is interval 0."
  },
  {
   "property": "C164",
   "status": "partial",
   "theorems": [
    "Verif.SurfaceSave.C164_last_partial",
    "Verif.SurfaceSave.C164_apart",
    "Verif.SurfaceSave.C164_fails"
   ],
   "note": "Refuted: The full claim fails: saving a second interval to the same file erases the values of the first, although the file still lists both intervals. Proved part (C164_last_partial): A file with a given name holds the interval saved last, whatever was in it."
  },
  {
   "property": "C165",
   "status": "partial",
   "theorems": [
    "Verif.CraterCopy.C165_kept_or_diameter",
    "Verif.CraterCopy.C165_ellipse_partial",
    "Verif.CraterCopy.C165_radius_fails",
    "Verif.CraterCopy.C165_axes_fails"
   ],
   "note": "Refuted: The full claim fails: a measured radius given to a copy of a circle is lost if it is smaller than the old one, and otherwise makes an ellipse with the old radius as the other axis. Refuted: The full claim fails: measured axes given to a copy of a circle are lost. Proved part (C165_ellipse_partial): If the original is not a circle, a copy has the measured radius or the measured axes that it is given; a single axis is combined with the other axis of the original. Missing from the full claim: originals that are circles, see `C165_radius_fails` and `C165_axes_fails`."
  },
  {
   "property": "C166",
   "status": "partial",
   "theorems": [
    "Verif.CraterCopy.C166_new",
    "Verif.CraterCopy.C166_single",
    "Verif.CraterCopy.C166_resized_partial",
    "Verif.CraterCopy.C166_smaller_fails"
   ],
   "note": "Refuted: The full claim fails: a crater made from a circle with a smaller size is measured as an ellipse with the old radius as its semimajor axis. Proved part (C166_resized_partial): A crater made from another one with a new size has measured axes equal to the new axes, except exactly when the original was a circle with a radius larger than the new semimajor axis."
  },
  {
   "property": "C167",
   "status": "partial",
   "theorems": [
    "Verif.CraterCopy.C167_measured",
    "Verif.CraterCopy.C167_prescribed_partial",
    "Verif.CraterCopy.C167_rejected",
    "Verif.CraterCopy.C167_clear_fails"
   ],
   "note": "Refuted: The full claim fails: None does not clear a prescribed time, number, sequence number or name. Proved part (C167_prescribed_partial): Prescribed times, numbers, sequence numbers and names read back: a single time has deviation zero, as has a pair of diameter and number; nothing else changes."
  },
  {
   "property": "C168",
   "status": "partial",
   "theorems": [
    "Verif.CraterCopy.C168_converted_partial",
    "Verif.CraterCopy.C168_same_point",
    "Verif.CraterCopy.C168_minor_fails"
   ],
   "note": "Refuted: The full claim fails: a crater keeps its measured axes in a conversion exactly if it has a measured semimajor axis or no measured semiminor axis either; otherwise it has none afterwards. Proved part (C168_converted_partial): Converting a crater with any history keeps all its variable attributes, except that a measured semiminor axis is lost if there is no measured semimajor axis, and that a location whose longitude was left out of range is normalised again."
  },
  {
   "property": "C169",
   "status": "partial",
   "theorems": [
    "Verif.EjectaLayer.C169_history_partial",
    "Verif.EjectaLayer.C169_interior",
    "Verif.EjectaLayer.C169_nonneg",
    "Verif.EjectaLayer.C169_outside_fails"
   ],
   "note": "Refuted: The full claim fails: whatever the mesh, the crater that is formed and the ejecta already there, on a face that lies outside the rim but touches one inside nothing is left of the older ejecta: afterwards it holds the deposit of this crater only. Proved part (C169_history_partial): After any history of craters the thickness on each face is what was there before plus what all craters deposited, in each case without what later craters removed; only craters that are formed count, and they are recorded in order; nothing else changes. A crater removes the ejecta from the faces with centres inside its rim and from all faces that touch these. Missing from the full claim: only ejecta inside the rim should be removed, see `C169_outside_fails`."
  },
  {
   "property": "C170",
   "status": "partial",
   "theorems": [
    "Verif.EjectaLayer.C170_formed_partial",
    "Verif.EjectaLayer.C170_area_fails",
    "Verif.EjectaLayer.C170_raises_fails"
   ],
   "note": "Refuted: The full claim fails: every crater with a face near its centre is formed if it has less than the area of the face at its centre but more than four ninths of it. Refuted: The full claim fails: if the nearest face is within one and a half times the radius, but not within reach of the ejecta, a crater that is large enough ends in an error. Proved part (C170_formed_partial): A crater is formed exactly if a face lies within one and a half times its radius (or that is half way around the target) and two and a quarter times its area exceeds that of the face at its centre. Missing from the full claim: the area compared should be that of the crater, see `C170_area_fails`, and it should not fail, see `C170_raises_fails`."
  },
  {
   "property": "C171",
   "status": "partial",
   "theorems": [
    "Verif.CraterState.C171_shows_partial",
    "Verif.CraterState.C171_kept",
    "Verif.CraterState.C171_mesh_fails"
   ],
   "note": "Refuted: On another mesh the crater is a mixture: it is still said to be large enough, although there is no region for it on that mesh; `form_crater` then fails with an AttributeError. Proved part (C171_shows_partial): A new crater shows what the mesh gives, whatever is read and given up before, in whatever order, as long as there is no other mesh: nothing before the surface has data, the right values afterwards. Missing: after a change of the mesh the values are wrong, see `C171_mesh_fails`."
  },
  {
   "property": "C172",
   "status": "partial",
   "theorems": [
    "Verif.CraterState.C172_surface_partial",
    "Verif.CraterState.C172_other_fails",
    "Verif.CraterState.C172_empty_fails"
   ],
   "note": "Refuted: A crater object that was made for another surface is dug into that other surface, but listed among the craters of this one. Refuted: An empty list, for instance of a period without craters, is rejected. Proved part (C172_surface_partial): A crater, a list or tuple of craters or keyword arguments: every crater is returned, in order, and those that are large enough are dug into the surface and listed, in order, and no other surface changes. Missing: craters made for another surface and the empty list, see `C172_other_fails` and `C172_empty_fails`."
  },
  {
   "property": "C173",
   "status": "partial",
   "theorems": [
    "Verif.Profile.C173_lengths_partial",
    "Verif.Profile.C173_longest_fails",
    "Verif.Profile.C173_width",
    "Verif.Profile.C173_count",
    "Verif.Profile.C173_count_fails"
   ],
   "note": "Refuted: The first two rays are longer than the greatest extent of the rays. Refuted: The number of rays that the intensity is divided by is not the number of rays that reach the distance: three rays reach the greatest extent, where the number is one. Proved part (C173_lengths_partial): Rays have different lengths, the first being the longest; all are longer than the shortest possible ray, and the third ends where the ejecta are cut off. Missing: the first two go on beyond, see `C173_longest_fails`."
  },
  {
   "property": "C174",
   "status": "partial",
   "theorems": [
    "Verif.Lola.C174_global_partial",
    "Verif.Lola.C174_fine_fails",
    "Verif.Lola.C174_region_partial"
   ],
   "note": "Refuted: At finer resolutions, for every such pixel size, the point 10° N, 90° E is in none of the files, and one of the files does not exist. Proved part (C174_global_partial): On a global surface, at most 192 pixels per degree (pixels of at least 158 m): the files added all exist, and every point of the Moon is covered by one of them. Missing: finer resolutions, see `C174_fine_fails`. Proved part (C174_region_partial): For a local region of at most 15° around a point of the equator, or one that contains a pole and lies beyond 60° (but does not lie within 2.5° of the pole), every point of the region is in one of the files. Missing: other regions, the longitudes of which are underestimated, see `C64_longitude_fails`; regions across 60°, see `C53_straddle_fails`."
  },
  {
   "property": "C175",
   "status": "partial",
   "theorems": [
    "Verif.LocalIndex.C175_region_partial",
    "Verif.LocalIndex.C175_stale_fails",
    "Verif.LocalIndex.C175_torn_fails",
    "Verif.LocalIndex.C175_crash",
    "Verif.LocalIndex.C175_again_fails"
   ],
   "note": "Refuted: In a directory with a surface made for other settings: a crash after the new grid is written, and the next start, with the same settings, silently takes the faces with the numbers determined for the old mesh. Refuted: After a crash while the indices are written, every later start with these settings raises, with a forced new grid as well, until the file is removed by hand. Refuted: Loading again in the same process with settings that give another mesh, as `set_superdomain` does on a surface that was made with a scale factor, keeps the numbers of the faces of the old mesh; and so does every later start. Proved part (C175_region_partial): As long as every process gets through making its surface, and makes it once, the local region always consists of faces of the present mesh that were determined for its settings, whatever surfaces, also of other kinds, were made in the directory before. Missing: crashes, see `C175_stale_fails` and `C175_torn_fails`; a second loading in the same process, see `C175_again_fails`."
  },
  {
   "property": "C176",
   "status": "partial",
   "theorems": [
    "Verif.LocalIndex.C176_flags_partial",
    "Verif.LocalIndex.C176_reset_fails"
   ],
   "note": "Refuted: With a reset, which is the default, the marks are removed again at once. Proved part (C176_flags_partial): A surface made without a reset has the marks of the local faces and nodes, and all the variables of the data that was read, or, with a new mesh, the initial ones. Missing: with a reset, the default, see `C176_reset_fails`."
  },
  {
   "property": "C177",
   "status": "partial",
   "theorems": [
    "Verif.VtkFiles.C177_states_partial",
    "Verif.VtkFiles.C177_grid_iff_partial",
    "Verif.VtkFiles.C177_grid_fails",
    "Verif.VtkFiles.C177_negative_fails"
   ],
   "note": "Refuted: The full claim fails: after any number of exports of regions, in whatever order, the geometry file is that of the first one. Refuted: The full claim fails: every number below -1 raises, although the state it means has been saved and read. Proved part (C177_states_partial): Without an interval, with the number of an interval, or with -1 for the last one: the call succeeds exactly if such a state has been saved; then the file of each state asked for holds that state on the present mesh, unless there was a file already and the user declined to replace it; no other file of an interval changes. Missing: intervals counted further from the end, see `C177_negative_fails`, and the geometry file, see `C177_grid_iff_partial`. Proved part (C177_grid_iff_partial): The geometry file shows the present mesh exactly if there was none before, or one of the same mesh."
  },
  {
   "property": "C178",
   "status": "partial",
   "theorems": [
    "Verif.Plot.C178_interval_partial",
    "Verif.Plot.C178_negative_partial",
    "Verif.Plot.C178_refused_partial",
    "Verif.Plot.C178_last_fails",
    "Verif.Plot.C178_width_fails",
    "Verif.Plot.C178_width_partial"
   ],
   "note": "Refuted: **C178 fails** for the last number: whatever is in memory is drawn, under the number of the saved state. A plot of the last saved interval after more craters have been emplaced (and not saved) shows the new craters, and is filed as that interval; asked for as `-1` the same interval is drawn as saved. Refuted: **C178 fails** without a minimum width, which the documentation gives as the way to turn the minimum off: every such plot raises. Proved part (C178_interval_partial): **C178** (proved part). Without an interval a plot shows the data in memory, and its file carries no number. For a number of a saved state it shows that state, under that number — provided the number is not the last one, or the data in memory is what was saved last. Proved part (C178_negative_partial): **C178** (proved part). A negative interval counts back from the last saved state, and is drawn as saved, under its own number; this includes the last one. Proved part (C178_refused_partial): **C178** (proved part). A number that is not that of a saved state is refused, and so is every interval if nothing is saved or if it counts back too far. Proved part (C178_width_partial): With a minimum width the picture is at least that wide and at least one dot per pixel of the raster, and no larger than the larger of both."
  },
  {
   "property": "C179",
   "status": "partial",
   "theorems": [
    "Verif.Plot.C179_bar_partial",
    "Verif.Plot.C179_exists_partial",
    "Verif.Plot.C179_small_fails"
   ],
   "note": "Refuted: **C179 fails** for regions smaller than about three metres: there is no length to choose, and the plot raises unless the scale bar is turned off. Proved part (C179_bar_partial): **C179** (proved part). The text at the scale bar states the length of the bar; the bar lies inside the picture, which reaches from `-R` to `R` in both directions, and outside the disc of radius `R` around its centre — so it covers nothing of the region; and it is the longest of the lengths the code chooses from that is at most `R / (2 √2)`. Proved part (C179_exists_partial): There is a scale bar exactly if the picture reaches at least `2 √2` metres from its centre."
  },
  {
   "property": "C180",
   "status": "partial",
   "theorems": [
    "Verif.Plot.C180_in_view_partial",
    "Verif.Plot.C180_visible_partial",
    "Verif.Plot.C180_hidden_fails"
   ],
   "note": "Refuted: **C180 fails** for regions of the size of a hemisphere: a point a quarter of the way round from the centre belongs to the region, but the body is in front of it, however wide the view. Proved part (C180_in_view_partial): **C180**. The camera looks at the region so that all of it is in the picture: let `p` be the centre of the region and `c` that of its face, all on a body of radius `R`. If the centre of the face is within a fifth of the radius `r` of the region from `p`, every point `P` within `r` of `p` along the surface is seen at an angle of at most half the angle of view from the centre of the picture. Proved part (C180_visible_partial): **C180**. None of these points is hidden behind the body, if the region is at most five sixths of the radius of the body and the angle of view at most a right angle (it is 30 degrees unless changed): the line from the point to the camera stays outside the body."
  },
  {
   "property": "C181",
   "status": "partial",
   "theorems": [
    "Verif.Plot.C181_cycle_partial",
    "Verif.Plot.C181_reached_partial",
    "Verif.Plot.C181_empty_fails"
   ],
   "note": "Refuted: **C181 fails** without variables on the faces: the first press raises. Proved part (C181_cycle_partial): **C181** (proved part). If there are variables on the faces, pressing the key goes round: the plain surface, then every variable in order, then the plain surface again. From any place `i` of this round `k` presses lead `k` places on. Proved part (C181_reached_partial): Every variable is reached from every place, within one round."
  },
  {
   "property": "C182",
   "status": "partial",
   "theorems": [
    "Verif.Plot.C182_region_partial",
    "Verif.Plot.C182_surface_fails",
    "Verif.Plot.C182_antimeridian_fails"
   ],
   "note": "Refuted: **C182 fails** for the method of the surface: it passes on the name of the variable where the values are expected, so that it raises for every variable of every surface. Refuted: **C182 fails** for whole surfaces even when values are given: a pixel that is touched only by faces across the antimeridian is left empty, whatever their values. Proved part (C182_region_partial): **C182** (proved part). The raster of an array on the faces of a region: a pixel that shows a number shows the value of a face that touches it, and the last such face with a value; a pixel shows none exactly if no face with a value touches it."
  },
  {
   "property": "C183",
   "status": "partial",
   "theorems": [
    "Verif.ProfileCall.C183_profile_partial",
    "Verif.ProfileCall.C183_ejecta_partial",
    "Verif.ProfileCall.C183_whole_fails",
    "Verif.ProfileCall.C183_rays_partial",
    "Verif.ProfileCall.C183_list_fails",
    "Verif.ProfileCall.C183_grid_fails"
   ],
   "note": "Refuted: **C183 fails** for whole numbers: the crater profile at a distance of, say, 5000 metres raises when the distance is written without a decimal point, as do lists of whole numbers, because the reference elevations become whole numbers too; arrays of whole numbers raise in every function. Refuted: **C183 fails** for the functions with rays on anything but arrays: numbers, lists and tuples, which the documentation allows, raise. Refuted: **C183 fails** for the ejecta with rays on a grid of distances with more than one row and more than one column: it raises, although the intensity alone can be computed on it. Proved part (C183_profile_partial): **C183** (proved part). Without reference elevations, the crater profile of floats — a number, a list or an array of any shape, but not empty — is an array of the same shape (one element for a number), and each element is what the function gives for that distance alone. Proved part (C183_ejecta_partial): **C183** (proved part). The ejecta profile of numbers and lists, of whole numbers or floats, and of arrays of floats, is an array of the same shape (one element for a number), and each element is what the function gives for that distance alone. Proved part (C183_rays_partial): **C183** (proved part). The ejecta with rays at one-dimensional arrays of floats: as many thicknesses and intensities as points, and each thickness is the thickness without rays times the intensity."
  },
  {
   "property": "C184",
   "status": "partial",
   "theorems": [
    "Verif.ProfileCall.C184_ratio_partial",
    "Verif.ProfileCall.C184_alone_fails",
    "Verif.ProfileCall.C184_far_fails"
   ],
   "note": "Refuted: **C184 fails**: the intensity at a point depends on the points that are asked for with it. Alone, every point outside the crater that any ray reaches has the intensity 1. Refuted: **C184 fails**: a point that no ray reaches has intensity 0 if some point with a ray is asked for with it, and is not a number alone. A point on the rim and a point 102 radii away, with the same random numbers. Proved part (C184_ratio_partial): **C184** (proved part). With the same random numbers, the ratio of the intensities of two points outside the crater is the same, whichever other points are asked for with them."
  },
  {
   "property": "C185",
   "status": "proved",
   "theorems": [
    "Verif.CraterShape.C185_inside",
    "Verif.CraterShape.C185_outside",
    "Verif.CraterShape.C185_small",
    "Verif.CraterShape.C185_erases",
    "Verif.CraterShape.C185_level"
   ],
   "note": ""
  },
  {
   "property": "C186",
   "status": "partial",
   "theorems": [
    "Verif.SccFile.C186_readback_partial",
    "Verif.SccFile.C186_fraction",
    "Verif.SccFile.C186_share_partial",
    "Verif.SccFile.C186_area",
    "Verif.SccFile.C186_moved_fails",
    "Verif.SccFile.C186_unmeasured_fails"
   ],
   "note": "Refuted: A crater is tested against the region by where it was made, but measured and written where it was found: every crater that was made far enough inside is written as lying wholly in the region, wherever it was found and whatever the share of its outline. Refuted: A crater without a measured diameter or place ends the export with an error; the lines of the craters before it stay in the file, those after it are not written. Proved part (C186_readback_partial): Every measured crater gets one line, in order, and reading the file gives the measured diameters and places back. Proved part (C186_share_partial): For a crater that was measured where it was made, the fraction is the share of its outline that lies within the region."
  },
  {
   "property": "C187",
   "status": "partial",
   "theorems": [
    "Verif.Points.C187_distances_partial",
    "Verif.Points.C187_bearings",
    "Verif.Points.C187_two_fails",
    "Verif.Points.C187_accepted",
    "Verif.Points.C187_each"
   ],
   "note": "Refuted: Two places reached cannot be measured: the list of two tuples that is returned is taken for one pair of numbers, and measuring raises a `TypeError`. Proved part (C187_distances_partial): Going out from a place by distances up to half the circumference, in any directions, and measuring the distances of the places reached gives the distances gone, in their order, whatever the place is. Missing from the full statement: exactly two places, which cannot be measured at all (`C187_two_fails`)."
  },
  {
   "property": "C188",
   "status": "partial",
   "theorems": [
    "Verif.Prescribed.C188_once_partial",
    "Verif.Prescribed.C188_session",
    "Verif.Prescribed.C188_redrawn_fails",
    "Verif.Prescribed.C188_file_partial",
    "Verif.Prescribed.C188_reassigned_fails",
    "Verif.Prescribed.C188_list_fails"
   ],
   "note": "Refuted: A crater with an uncertain time is drawn again whenever the simulation is opened: it can be emplaced twice, or not at all although both times drawn are in the period of the run. Refuted: A file assigned after the simulation has been opened again is used until the process ends, but is not the one found at the next start, because the configuration is not written any more: a crater whose turn comes after that is never emplaced. Refuted: Craters given as a list are gone when the simulation is opened again: whatever the times, none of them is emplaced afterwards. Proved part (C188_once_partial): A simulation made with a file of prescribed craters emplaces each of them exactly once, if its time is in the period of the run, however often the process ends and the simulation is opened again, provided the time is given without uncertainty. Missing from the full statement: uncertain times (`C188_redrawn_fails`), craters given as a list (`C188_list_fails`) and files assigned after the simulation was opened again (`C188_reassigned_fails`). Proved part (C188_file_partial): The same for a file that is assigned to a new simulation, from the first round on, which saves the simulation; whatever was assigned before."
  },
  {
   "property": "C189",
   "status": "partial",
   "theorems": [
    "Verif.Prescribed.C189_assigned_partial",
    "Verif.Prescribed.C189_late_fails",
    "Verif.Prescribed.C189_flag"
   ],
   "note": "Refuted: After the first round of a session without prescribed craters, assigned craters are never emplaced: the decision is kept. Setting `do_quasimc` to true helps. Proved part (C189_assigned_partial): Craters assigned, as a list or by a file, before the first round of the session, or after `do_quasimc` was set to true, are emplaced once each by the rounds that follow, whatever was assigned before. Missing from the full statement: craters assigned after a round that had none (`C189_late_fails`)."
  },
  {
   "property": "C190",
   "status": "partial",
   "theorems": [
    "Verif.CountPlot.C190_interval_partial",
    "Verif.CountPlot.C190_now",
    "Verif.CountPlot.C190_from_end",
    "Verif.CountPlot.C190_emplaced_fails",
    "Verif.CountPlot.C190_stale_fails"
   ],
   "note": "Refuted: C190 fails: a map of an interval with saved emplaced craters, when emplaced craters were also saved later, is never drawn: the code asks `None` for its intervals (`counting/__init__.py` line 700: `emplaced.interval` for `emplaced_ds.interval`) and raises. Refuted: C190 fails: the interval saved last is drawn from memory, also when the lists have changed since: after a round without craters (for which no file is written) the map of the round before shows none of the craters emplaced in it. Proved part (C190_interval_partial): C190. A map of the crater counts for an interval shows exactly the observed and the emplaced craters saved for it, **provided** the lists in memory are still those saved last (for each kind of which the interval is the last one saved) and the emplaced craters of the interval need not be read from a file."
  },
  {
   "property": "C191",
   "status": "partial",
   "theorems": [
    "Verif.CountPlot.C191_observed_partial",
    "Verif.CountPlot.C191_emplaced",
    "Verif.CountPlot.C191_both_fails",
    "Verif.CountPlot.C191_color_fails",
    "Verif.CountPlot.C191_list_fails",
    "Verif.CountPlot.C191_keys"
   ],
   "note": "Refuted: C191 fails: a view of both kinds shows only the emplaced craters, whatever the interval, style and colours: the actors of both kinds are named after the argument (`counting/__init__.py` line 841), so that the second replaces the first. Refuted: C191 fails: one colour for both kinds, which is accepted for each of them, raises for both. Refuted: C191 fails: a list of craters, which the documentation allows, raises for lack of names. Proved part (C191_observed_partial): C191. A three-dimensional view of the observed craters of an interval adds one actor, with these craters in the first colour given and their measured properties, and leaves what else the plotter shows; it adds nothing if none were saved for the interval."
  },
  {
   "property": "C192",
   "status": "partial",
   "theorems": [
    "Verif.Projection.C192_forward",
    "Verif.Projection.C192_close_partial",
    "Verif.Projection.C192_back",
    "Verif.Projection.C192_inverse",
    "Verif.Projection.C192_fails",
    "Verif.Projection.C192_area"
   ],
   "note": "Refuted: C192 fails: the projected coordinates of a face are not those of the coordinate system of its region: turned into longitude and latitude they give, for every face off the centre (and nearer than two radii of the body), a point in the same direction but farther from the centre. `set_face_proj` uses distances along the surface, `get_crs` an equal-area projection (called equidistant in the comments); the rim fit takes its start and its result through the one and the faces through the other. Proved part (C192_close_partial): C192. The projected coordinates of a face and what the transformation makes of its longitude and latitude have the same direction; their distance is at most `d³ / (24 R²)` for a face `d` from the centre. **Missing:** they are not the same, see `C192_fails`."
  },
  {
   "property": "C193",
   "status": "partial",
   "theorems": [
    "Verif.Projectile.C193_projectiles_partial",
    "Verif.Projectile.C193_valid_partial",
    "Verif.Projectile.C193_zero_fails"
   ],
   "note": "Refuted: Full statement: every diameter that the function accepts has a value. It is false: \"diameter must be greater than or equal to 0.0\", but for the diameter zero the conversion of the R values never ends. Proved part (C193_projectiles_partial): **C193, part.** (Missing: the diameter zero, see `C193_zero_fails`.) For every positive diameter the size distribution of the projectiles has exactly one value. It is never negative, it decreases strictly with the diameter below a million kilometres, and from there on it is zero. Proved part (C193_valid_partial): So whatever function returns the values of the calls with positive diameters, the production function of the projectiles is a valid cumulative distribution."
  },
  {
   "property": "C194",
   "status": "partial",
   "theorems": [
    "Verif.Projectile.C194_ages",
    "Verif.Projectile.C194_one_km_partial",
    "Verif.Projectile.C194_one_km_fails"
   ],
   "note": "Refuted: Full statement: the production function gives for 1 km the number of craters of the chronology, which is \"the number of craters per square meter greater than 1 km in diameter\". It is false for every window: the Moon gets less than 82% of them and Mars less than 42%, because the size distribution is multiplied by a thousand instead of being divided by its value at 1 km. Proved part (C194_one_km_partial): **C194, part.** (Missing: the factor is one, see `C194_one_km_fails`.) For the crater versions the number of craters larger than 1 km that the production function gives for a window is the same fraction of the chronology for every window: a thousand times the number of craters per km² that the size distribution has at 1 km."
  },
  {
   "property": "C195",
   "status": "partial",
   "theorems": [
    "Verif.ManyAges.C195_table_partial",
    "Verif.ManyAges.C195_refused_fails",
    "Verif.ManyAges.C195_accepted"
   ],
   "note": "Refuted: Windows that end after the present are accepted when they are asked for one at a time; as the only element of an array the same window is refused. Full statement: an array is accepted when each of its windows is. Proved part (C195_table_partial): **C195, part.** (Missing: the call is accepted whenever the single calls are, see `C195_refused_fails`.) If a call with any combination of single numbers and arrays is accepted, the result has one number for every diameter and every age, and the number for the `i`-th diameter and the `j`-th age is the result of the call for this diameter, start and end alone."
  },
  {
   "property": "C196",
   "status": "partial",
   "theorems": [
    "Verif.ScalingMaker.C196_objects_partial",
    "Verif.ScalingMaker.C196_name_fails",
    "Verif.ScalingMaker.C196_projectile_fails",
    "Verif.ScalingMaker.C196_generic_fails",
    "Verif.ScalingMaker.C196_replace_fails"
   ],
   "note": "Refuted: With the target given by its name, the target of the scaling model is made anew after the construction, so a density (or a material) that was asked for never reaches it, whatever the values. Refuted: With the projectiles given by their name, they are made anew for the Moon, whatever the target is. Refuted: Generic projectiles asked for by name are refused, even with the mean velocity they need. Refuted: An existing scaling model given a new target and new projectiles has these, but its material and constants stay those of the old target, whatever the new one is made of. Proved part (C196_objects_partial): With the target and the projectiles given as objects, or left out, a new scaling model has this target (the Moon when left out) and these projectiles (those of the target when left out), the density that was asked for becomes that of the target, and this is the density the scaling model uses. Missing for the full property: names, see the next theorems."
  },
  {
   "property": "C197",
   "status": "proved",
   "theorems": [
    "Verif.DemWindow.C197_kept",
    "Verif.DemWindow.C197_square",
    "Verif.DemWindow.C197_resolved"
   ],
   "note": ""
  },
  {
   "property": "C198",
   "status": "proved",
   "theorems": [
    "Verif.Raster.C198_global",
    "Verif.Raster.C198_local"
   ],
   "note": ""
  },
  {
   "property": "C199",
   "status": "partial",
   "theorems": [
    "Verif.Place.C199_here_partial",
    "Verif.Place.C199_relative",
    "Verif.Place.C199_once",
    "Verif.Place.C199_first",
    "Verif.Place.C199_refused",
    "Verif.Place.C199_stays",
    "Verif.Place.C199_given",
    "Verif.Place.C199_moved_fails",
    "Verif.Place.C199_copy_fails"
   ],
   "note": "Refuted: A copy that is moved is measured where the pattern is: the measured location, which is used to count and draw craters, is not moved. Refuted: The location of a moved copy is never brought into the range of longitudes, and any number of further numbers is accepted, whereas a crater with a size is brought into the range and refused with further numbers. Proved part (C199_here_partial): A new crater with a size and one location lies there, in whichever of the three ways the location is written, and its measured location is the same unless another is given. What is left out: latitudes beyond the poles."
  },
  {
   "property": "C200",
   "status": "partial",
   "theorems": [
    "Verif.Tallies.C200_often",
    "Verif.Tallies.C200_rims_partial",
    "Verif.Tallies.C200_rims_fails",
    "Verif.Tallies.C200_few"
   ],
   "note": "Refuted: If 2000 craters or more are emplaced with `measure_rim=True`, the rims are measured in the first count only: the final count, whose result the user sees, does not measure them. Proved part (C200_rims_partial): The first count measures the rims as asked. What is missing: this holds for no later count."
  },
  {
   "property": "C201",
   "status": "partial",
   "theorems": [
    "Verif.Geotiff.C201_file_partial",
    "Verif.Geotiff.C201_names",
    "Verif.Geotiff.C201_succeeds",
    "Verif.Geotiff.C201_replaced_fails",
    "Verif.Geotiff.C201_method_fails",
    "Verif.Geotiff.C201_by_name"
   ],
   "note": "Refuted: Exporting a second variable replaces the file of the first: the name of the file does not tell the variable. Refuted: The method of the surface itself never writes a file: it calls a method of the view that does not exist. Proved part (C201_file_partial): A raster export of a view writes, for every interval that is meant, a file that holds the raster of the variable asked for in the state saved for that interval, and changes no other file. Missing from the full statement: the export of a whole surface by its own method (`C201_method_fails`), and the files of other variables, which are replaced (`C201_replaced_fails`)."
  },
  {
   "property": "C202",
   "status": "partial",
   "theorems": [
    "Verif.Geotiff.C202_pixel_partial",
    "Verif.Geotiff.C202_inside",
    "Verif.Geotiff.C202_seam_fails"
   ],
   "note": "Refuted: In the raster of the whole surface a pixel that only faces across the antimeridian reach is blank, although they have values. Proved part (C202_pixel_partial): A pixel of a raster shows the value of a face that reaches it, the last one of these, and it is blank only if there is none, faces across the antimeridian in the raster of the whole surface apart. Missing from the full statement: those faces (`C202_seam_fails`)."
  },
  {
   "property": "C203",
   "status": "partial",
   "theorems": [
    "Verif.Populate.C203_joint_partial",
    "Verif.Populate.C203_power_law_partial",
    "Verif.Populate.C203_mean_fails",
    "Verif.Populate.C203_between_fails"
   ],
   "note": "Refuted: The mean is larger than the density of craters of these sizes times the area of the region, in every box that is not empty. Refuted: For a production function that is not a power law the probability of a crater in a region with a size above a diameter between two entries of the table is not the fraction of such craters that the production function has, whatever the mesh and the region (unless it is never hit). Proved part (C203_joint_partial): The numbers of craters in boxes of sizes and regions without common craters are independent of each other and Poisson. The mean is the density of craters of these sizes times the area of the region, too large by the factor that belongs to craters beyond the range; the density is the one of the production function at the 50 diameters of the size table and follows power laws between them. Sizes are those before the noise of 10⁻⁸. Missing from the full statement: a mean without the factor (`C203_mean_fails`), and the density of the production function between the diameters of the table (`C203_between_fails`), unless it is a power law (`C203_power_law_partial`). Proved part (C203_power_law_partial): For a production function that is a power law of the diameter the density is that of the production function at every diameter. Missing: a mean without the factor (`C203_mean_fails`)."
  },
  {
   "property": "C204",
   "status": "partial",
   "theorems": [
    "Verif.DemFiles.C204_smallest_partial",
    "Verif.DemFiles.C204_automatic",
    "Verif.DemFiles.C204_refused",
    "Verif.DemFiles.C204_single_fails",
    "Verif.DemFiles.C204_unreadable_fails",
    "Verif.DemFiles.C204_degrees_fails"
   ],
   "note": "Refuted: **C204 fails** for one file that is not in a list, though it is not refused by the check: for a string the files named by its single characters are opened, and a `Path` raises TypeError. In both cases it has been stored. Refuted: **C204 fails** when a file of the list cannot be opened, or the list is empty: an error is raised, but the list is kept and the size is the one from before. Refuted: **C204 fails** for the unit: for every file whose coordinates are not in metres (degrees for instance, as in most files with longitudes and latitudes) the size of the faces is not the width of a pixel in metres. Proved part (C204_smallest_partial): **C204, part.** With a list of one or more files that can all be opened, the faces of the local region get the size of the finest pixels among these files, whatever size was asked for before, and the list is kept as given. The size is the number written in the file. Missing: a single file that is not in a list (`C204_single_fails`), files measured in degrees (`C204_degrees_fails`), lists that cannot be read (`C204_unreadable_fails`)."
  },
  {
   "property": "C205",
   "status": "partial",
   "theorems": [
    "Verif.DemSave.C205_restored_partial",
    "Verif.DemSave.C205_stuck_fails",
    "Verif.DemSave.C205_again_fails"
   ],
   "note": "Refuted: **C205 fails** for other settings: once the elevations of one region are saved in the directory, a data surface whose mesh has another number of faces or nodes cannot be built there when it needs a new mesh: an error is raised because the elevations of the two meshes cannot be merged into one file. The saved elevations are never replaced, however often and with whatever such settings it is tried. Refuted: **C205 fails** also after that: the directory then holds the new mesh and the old elevations, and building the surface again with the same settings never ends with elevations for all faces and nodes, whether a new mesh is asked for or not. Proved part (C205_restored_partial): **C205, part.** In a directory without saved elevations a data surface starts from the elevations of its files. It does so again whenever it is reset or built again with the same settings, with or without new mesh, whatever happened to it before. Missing: other settings in the same directory, see `C205_stuck_fails`."
  },
  {
   "property": "C206",
   "status": "partial",
   "theorems": [
    "Verif.CountFlag.C206_asked_partial",
    "Verif.CountFlag.C206_unknown",
    "Verif.CountFlag.C206_unasked_fails",
    "Verif.CountFlag.C206_removed_fails",
    "Verif.CountFlag.C206_switched_fails",
    "Verif.CountFlag.C206_resumed_fails",
    "Verif.CountFlag.C206_history",
    "Verif.CountFlag.C206_simulation"
   ],
   "note": "Refuted: **C206 fails** without counting object and flag: the documentation says that no counting is done then, but an object is made and every crater is counted. Refuted: **C206 fails** when the counting object is removed with `counting = None`: the next crater, whatever `do_counting` says, is shaped into the surface and then an AttributeError is raised; it has no ejecta and is not listed. Refuted: **C206 fails** when a counting object is assigned to a model for which counting was switched off: it is switched on. Refuted: **C206 fails** when a simulation is resumed: counting that was switched off, which the configuration file says, is switched on unless the argument is given again. Proved part (C206_asked_partial): **C206, part.** When the morphology model is made with `do_counting` true or false, or with a counting object, every crater formed afterwards is listed as emplaced, and counted exactly when `do_counting` is not false; the assignments of `do_counting` that follow are obeyed in the same way. A counting object that is given is the one used. Missing: without counting object and flag (`C206_unasked_fails`), when the counting object is removed or assigned later (`C206_removed_fails`, `C206_switched_fails`), and when a simulation is resumed (`C206_resumed_fails`)."
  },
  {
   "property": "C207",
   "status": "partial",
   "theorems": [
    "Verif.RegionPolygon.C207_region_fails",
    "Verif.RegionPolygon.C207_whole_partial"
   ],
   "note": "Refuted: **C207 fails**: for every local region and every driver a ValueError is raised and nothing is written, because the table is given one row and two row numbers. Proved part (C207_whole_partial): **C207, part.** For the whole surface nothing is written; an unknown driver is refused with ValueError. Missing: local regions, see `C207_region_fails`."
  },
  {
   "property": "C208",
   "status": "proved",
   "theorems": [
    "Verif.Populate.C208_schedule",
    "Verif.Populate.C208_functions"
   ],
   "note": ""
  },
  {
   "property": "C209",
   "status": "partial",
   "theorems": [
    "Verif.Parallel.C209_collect",
    "Verif.Parallel.C209_ends",
    "Verif.Parallel.C209_sum_partial",
    "Verif.Parallel.C209_rays_partial",
    "Verif.Parallel.C209_sum_fails"
   ],
   "note": "Refuted: The intensity of the rays depends on how the threads share the work: the same contributions of the five rays give 1 when one thread adds them from left to right, and the next larger number of double precision when they are added in halves, as with another number of threads or another one being free. So a run with the same seed need not give the same surface to the last digit. Proved part (C209_sum_partial): In exact arithmetic a sum does not depend on how it is divided. Missing: the sums of the ray pattern are sums of rounded numbers, where it does, see `C209_sum_fails`. Proved part (C209_rays_partial): How far apart two evaluations of the intensity of the rays at a place can be: at most `2 ^ -48` of it. Missing: they can be different, see `C209_sum_fails`."
  },
  {
   "property": "C210",
   "status": "partial",
   "theorems": [
    "Verif.RngShare.C210_one_sequence",
    "Verif.RngShare.C210_continues",
    "Verif.RngShare.C210_parts",
    "Verif.RngShare.C210_generator_partial",
    "Verif.RngShare.C210_seed_fails",
    "Verif.RngShare.C210_state_fails",
    "Verif.RngShare.C210_parts_fails",
    "Verif.RngShare.C210_none_seed_fails",
    "Verif.RngShare.C210_none_fails"
   ],
   "note": "Refuted: Assigning a seed changes no later draw of any object. Refuted: Assigning a state changes nothing: it is accepted without an error, whatever it is, the state that is read back is the old one, and all objects draw what they would have drawn. Refuted: Assigning a generator to a simulation leaves its parts with the old one: the part goes on with the sequence the simulation had before. Refuted: Assigning None asks, as documented, for a new generator from the seed. With a seed it raises ValueError. Refuted: Without a seed the new generator is a twin of the old one: the object draws the same numbers as the parts that have the old one, as long as both go on. Proved part (C210_generator_partial): An object that is assigned a generator draws from it, and so does every object it makes afterwards. Missing: objects it made before keep the old one, see `C210_parts_fails`; seeds and states are not used, see `C210_seed_fails` and `C210_state_fails`."
  },
  {
   "property": "C211",
   "status": "partial",
   "theorems": [
    "Verif.History.C211_volume_partial",
    "Verif.History.C211_elsewhere",
    "Verif.History.C211_no_ejecta_fails"
   ],
   "note": "Refuted: A crater that excavates something but whose ejecta region gets no ejecta makes the surface not finite: the factor that would conserve the volume is a division by zero. Proved part (C211_volume_partial): After any history of craters, ejecta, diffusion, collapse of slopes and noise, on any regions of a surface and in any order, the volume of the surface is the one it had, also if an exception ends the history. Missing: craters whose ejecta has no volume, see `C211_no_ejecta_fails`."
  },
  {
   "property": "C212",
   "status": "partial",
   "theorems": [
    "Verif.Superdomain.C212_search",
    "Verif.Superdomain.C212_just_reaches_partial",
    "Verif.Superdomain.C212_truncated_fails",
    "Verif.Superdomain.C212_explicit_partial",
    "Verif.Superdomain.C212_again_fails",
    "Verif.Superdomain.C212_pixel_fails",
    "Verif.Superdomain.C212_metres_fails",
    "Verif.Superdomain.C212_identity_fails"
   ],
   "note": "Refuted: **C212 fails** where the ejecta are cut off near the rim (`ejecta_truncation`, here 1.1 crater radii): at some distance the size found is that of a crater whose ejecta do not reach that far, because no crater's do and the last size is kept. Refuted: **C212 fails** for a factor that is set again: once a face size has been read (the mesh made), another factor is accepted and reported, and enters the identity of the mesh, but face sizes stay those of the first factor everywhere. Refuted: **C212 fails** for a pixel size that is set again: once a face size has been read, another pixel size is accepted and holds inside the local region, but outside faces grow as before, so that at the local radius before the antipode a face is not the factor times the new pixel size; it is too small if pixels became larger, and too large if they became smaller. Refuted: **C212 fails** for the factor that is reported after an automatic search: it is not the ratio of the farthest face size to the pixel size, but the farthest face size in metres; only for pixels of one metre is it the same. Refuted: **C212 fails** for a surface that is made again with the factor reported after an automatic search: it has the same identity, so that its mesh counts as the same, but its farthest faces are larger than those of the first surface. Proved part (C212_just_reaches_partial): **C212**, the part that holds of \"ejecta of a crater of that size just reach\": at every sampled distance, craters of the size found reach that far, if a crater as large as the body does; and where larger craters throw farther, no crater smaller by more than one step of the trial diameters (of at most `(20 R) ^ (1/999)`, 1.018 on the Moon) does. Sizes below ten centimetres are never tried. What is missing: see the `_fails` theorems below. Proved part (C212_explicit_partial): **C212**, the part that holds of an explicit factor: read for the first time after it has been set, the face size is the pixel size inside the local region, grows linearly outside and is the factor times the pixel size at the local radius before the antipode."
  },
  {
   "property": "C213",
   "status": "partial",
   "theorems": [
    "Verif.SimDir.C213_together_partial",
    "Verif.SimDir.C213_apart",
    "Verif.SimDir.C213_stays_partial",
    "Verif.SimDir.C213_chdir_fails",
    "Verif.SimDir.C213_assign_fails",
    "Verif.SimDir.C213_other_fails"
   ],
   "note": "Refuted: **C213 fails** when the process changes its working directory: a simulation in the working directory, or in a directory below it that was named by a string (even by its absolute path), continues in another directory; what was saved before is not seen there, and what is saved then is not with the rest. Refuted: **C213 fails** when the directory of a simulation is assigned: the configuration goes to the new one, all files of the components stay in the old. Refuted: **C213 fails** for values that are no directory: they are not refused, and the old directory is kept. Proved part (C213_together_partial): **C213**, the part that holds: while the process stays in its working directory, the configuration of a simulation and the files of all its components are in (subdirectories of) the directory that the user named, or in the working directory if none is named. Proved part (C213_stays_partial): **C213**, the part that holds when the process changes its working directory: a directory kept as an absolute path, which is so for an absolute `Path` and for the name of a directory outside the working directory, stays the same."
  },
  {
   "property": "C214",
   "status": "partial",
   "theorems": [
    "Verif.Cleanup.C214_cleaned_partial",
    "Verif.Cleanup.C214_exports_fails",
    "Verif.Cleanup.C214_others_fails",
    "Verif.Cleanup.C214_stops_fails"
   ],
   "note": "Refuted: **C214 fails** for exported files, which the description says are removed: all of them stay. Refuted: **C214 fails** for directories of the user: what is in a directory called `target`, `production`, `scaling`, `morphology` or `projectile` (or the same with `_images`) is removed, although no simulation writes there. Refuted: **C214 fails** where a file has the name of a component, for example a file `target`: the clean-up stops with an exception when it comes to it. The configuration is gone then, but the saved surface, whose turn is last, is still there and is found by the next run. Proved part (C214_cleaned_partial): **C214**, the part that holds: after `cleanup` neither the configuration nor any saved data or picture is left, so that a new simulation begins as new; and files outside the simulation's directory, and those inside which are not in a directory called like a component, are all still there."
  },
  {
   "property": "C215",
   "status": "partial",
   "theorems": [
    "Verif.Batch.C215_any_order",
    "Verif.Batch.C215_interior",
    "Verif.Batch.C215_count_partial",
    "Verif.Batch.C215_marks_fails"
   ],
   "note": "Refuted: **C215 fails** for the marks on the faces when ejecta end close to the rim (they are thin, or `ejecta_truncation` is below 1.5), since the region that is marked reaches to 1.5 radii: where the marked region of a crater lies in the interior of a larger crater of the same batch, its marks are cut out if it comes first, and stay if it comes second. Proved part (C215_count_partial): **C215**, for the count: when the marked region of each crater lies within the reach of its ejecta, the marks on the faces and the craters that are counted are the same too, in whichever order the craters of each batch are taken. Missing: ejecta that end before the marked region does, see `C215_marks_fails`."
  },
  {
   "property": "C216",
   "status": "proved",
   "theorems": [
    "Verif.Diffusion.C216_levels",
    "Verif.Diffusion.C216_roughness",
    "Verif.Diffusion.C216_unchanged",
    "Verif.Diffusion.C216_smoother",
    "Verif.Diffusion.C216_linear",
    "Verif.Diffusion.C216_errors",
    "Verif.Diffusion.C216_order",
    "Verif.Diffusion.C216_collapse"
   ],
   "note": ""
  },
  {
   "property": "C217",
   "status": "partial",
   "theorems": [
    "Verif.SubPixel.C217_amount",
    "Verif.SubPixel.C217_errors",
    "Verif.SubPixel.C217_windows",
    "Verif.SubPixel.C217_monotone",
    "Verif.SubPixel.C217_combined_partial",
    "Verif.SubPixel.C217_combined_fails",
    "Verif.SubPixel.C217_none_lost_partial",
    "Verif.SubPixel.C217_twice_partial",
    "Verif.SubPixel.C217_twice_fails",
    "Verif.SubPixel.C217_lost_fails"
   ],
   "note": "Refuted: For a power law of slope one or steeper, what is added is at most a fiftieth of the combined effect of the craters that the mesh does not resolve: the number of craters larger than each diameter takes the place of the number of craters of that diameter, and π·100·D/2 that of the area within a hundred crater radii. Refuted: In every bin with faces of different sizes, craters are made that are also accounted for by degradation: those on the smallest face of the bin with diameters from its size, where populating begins, to that of the largest face. Refuted: Whatever the mesh, a crater is not made if no face has its middle within three quarters of its diameter, also if it is larger than the largest face of its bin, so that it is not part of the degradation either. Proved part (C217_combined_partial): For a power law what is added is proportional to the combined effect of the craters: the factor is `1 / (50 |slope|)` for all faces and periods. What is missing: the factor is not one, see `C217_combined_fails`. Proved part (C217_none_lost_partial): No crater is lost: one with its center on a face, not farther from the middle of the face than three quarters of the size of the face, is either made, or its diameter is within the range that is degraded on that face. What is missing: craters with their center farther from the middle of an elongated face, see `C217_lost_fails`. Proved part (C217_twice_partial): A crater that is both made and within the range degraded on the face of its center has a diameter between three quarters and the square root of two of the size of the face. What is missing: that there is none, see `C217_twice_fails`."
  },
  {
   "property": "C218",
   "status": "proved",
   "theorems": [
    "Verif.Points.C218_meridian",
    "Verif.Points.C218_east_west",
    "Verif.Points.C218_north_south"
   ],
   "note": ""
  },
  {
   "property": "C219",
   "status": "partial",
   "theorems": [
    "Verif.Steps.C219_adjoin_partial",
    "Verif.Steps.C219_exact_partial",
    "Verif.Steps.C219_resume_partial",
    "Verif.Steps.C219_refused_fails",
    "Verif.Steps.C219_error_fails",
    "Verif.Steps.C219_extra_fails",
    "Verif.Steps.C219_short_fails",
    "Verif.Steps.C219_repeat_fails"
   ],
   "note": "Refuted: A period of 0.1 million years, from 0.3 to 0.2, is refused with a time step of 0.1: the difference of the two times is less than the time step in double precision. Refuted: A run from 0.4 to 0.1 in steps of 0.1 simulates the three intervals, and stops with an error then: a fourth interval is begun, which starts after the end of the period. Refuted: A run from 0.4 to 0.3 in steps of 0.1 has two intervals, the second one of which is shorter than `10 ^ -16`. Two states are saved after the first one, and the elapsed time is 0.2 at the end. Refuted: A run of age 0.9 in steps of 0.3 ends before the present: at a time that is not zero. Refuted: A run of age 0.4 in steps of 0.1 that is resumed after the first interval simulates the first interval once more. Proved part (C219_adjoin_partial): Whatever the rounding, the intervals that a new run simulates follow each other without gaps and overlaps from the start, and do not go past the end of the period. Missing: they can fall short of the end (`C219_short_fails`), one of them can be empty or fail (`C219_extra_fails`, `C219_error_fails`), and a run that is resumed can repeat one (`C219_repeat_fails`). Proved part (C219_exact_partial): Times that are whole multiples of a power of two, at most `2 ^ 52` of it: whole numbers, halves, quarters. Here the intervals are what they are with exact numbers: `n` of them, the smallest number that covers the period, the last one shortened to end with the period. A run that is resumed after `j` intervals goes on with interval `j`. Proved part (C219_resume_partial): A run of two or more intervals that is resumed after `j` of them goes on with interval `j`, or repeats the one before it; it never leaves one out, when the time step is not less than `2 ^ -40` of the start time. Missing: it should not repeat one, see `C219_repeat_fails`."
  },
  {
   "property": "C220",
   "status": "partial",
   "theorems": [
    "Verif.Steps.C220_binary_partial",
    "Verif.Steps.C220_last_partial",
    "Verif.Steps.C220_negative_fails"
   ],
   "note": "Refuted: A run to 29 craters in seven intervals stops with an error in the last one: the number of craters at its end is less than zero in double precision. Proved part (C220_binary_partial): A run down to no craters, divided into a number of intervals that is a power of two: all of them are simulated, the first one begins with the number given, each begins where the last one ended, and the last one ends with none. Missing: other numbers of intervals, see `C220_negative_fails`. Proved part (C220_last_partial): A run down to no craters in any number of intervals up to `2 ^ 50`: all intervals but the last one are always simulated, beginning with the number given, each where the one before ended, and none of these ends at a negative number. If the run fails, it fails in the last interval. Missing: the last interval can fail (`C220_negative_fails`) or not end at zero."
  },
  {
   "property": "C221",
   "status": "partial",
   "theorems": [
    "Verif.Run.C221_resume_partial",
    "Verif.Run.C221_repeat_fails"
   ],
   "note": "Refuted: However small the error `δ` of the times that belong to numbers, an interval can be repeated: here two craters form in two intervals at a constant rate, the time found for one crater is too large by `δ`, and a run that is resumed after the first interval simulates both intervals. Proved part (C221_resume_partial): Resuming a run with equal numbers of craters after `j` intervals. The times that belong to numbers are found up to an error: the number at the time found is off by at most `ε`. As long as this is less than a sixth of an interval, the run goes on with interval `j`, or repeats the interval before it; it does not leave one out. Without an error it goes on with interval `j`. Missing: with an error it can repeat an interval, see `C221_repeat_fails`."
  },
  {
   "property": "C222",
   "status": "partial",
   "theorems": [
    "Verif.LocationDouble.C222_lat_range",
    "Verif.LocationDouble.C222_range_partial",
    "Verif.LocationDouble.C222_idempotent_partial",
    "Verif.LocationDouble.C222_exact_partial",
    "Verif.LocationDouble.C222_near",
    "Verif.LocationDouble.C222_over_pole",
    "Verif.LocationDouble.C222_range_fails",
    "Verif.LocationDouble.C222_idempotent_fails",
    "Verif.LocationDouble.C222_unchanged_fails"
   ],
   "note": "Refuted: The longitude just below -180, which is a number of double precision, is normalised to 180, outside the documented range. Refuted: A location that was normalised changes when it is normalised again: its longitude was 180 and becomes -180. A crater made there has another location, and so another identifier, once it has been written to a file and read. Refuted: A longitude inside the documented range is not left as it is: the one just below 180 becomes -180, and a small one becomes 0. Proved part (C222_range_partial): The normalised longitude is in [-180, 180), except for one number: the one just below -180, which becomes 180. A latitude that is one stays as it is. Missing: that number, see `C222_range_fails`; and latitudes beyond the poles, see `C01_lon_range_fails`. Proved part (C222_idempotent_partial): A location that was normalised stays as it is when it is normalised again, as it is when a crater is read from a file or copied, except for the longitude just below -180. Missing: that number, see `C222_idempotent_fails`. Proved part (C222_exact_partial): Longitudes that are multiples of `2 ^ -g`, such as whole and half degrees, are normalised without any error: the result is that of exact numbers, of which C01 speaks."
  },
  {
   "property": "C223",
   "status": "partial",
   "theorems": [
    "Verif.LocationDouble.C223_orientation_partial",
    "Verif.LocationDouble.C223_range_fails"
   ],
   "note": "Refuted: A small negative orientation, as a measurement of an axis towards north gives it, is reported as 360, and as 0 after the crater has been converted or read. Proved part (C223_orientation_partial): An assigned orientation is reported in [0, 360), up to full turns and a rounding error of less than `2 ^ -45` degrees equal to the one given, unless the one given lies below a full turn by at most `2 ^ -45` degrees; and it stays as it is when it is assigned once more. Missing: these numbers, see `C223_range_fails`."
  },
  {
   "property": "C224",
   "status": "partial",
   "theorems": [
    "Verif.SliceRegion.C224_same_faces",
    "Verif.SliceRegion.C224_rejected",
    "Verif.SliceRegion.C224_range",
    "Verif.SliceRegion.C224_plain",
    "Verif.SliceRegion.C224_whole",
    "Verif.SliceRegion.C224_count_partial",
    "Verif.SliceRegion.C224_count_fails"
   ],
   "note": "Refuted: The number of faces of a region given by a slice is the number of faces of the whole surface: a region of the first two of five faces reports five. Whenever a slice leaves out a face, every compiled loop over the faces of the region reads past the end of its values and panics. Proved part (C224_count_partial): The number of faces that a region reports is the number of its faces exactly if the slice selects every face of the surface (for one that selects fewer it is wrong)."
  },
  {
   "property": "C225",
   "status": "partial",
   "theorems": [
    "Verif.DiffusionDouble.C225_volume_partial",
    "Verif.DiffusionDouble.C225_volume_fails",
    "Verif.DiffusionDouble.C225_flat",
    "Verif.DiffusionDouble.C225_summits",
    "Verif.DiffusionDouble.C225_exact"
   ],
   "note": "Refuted: Two faces of areas 1 and 3 that exchange a flux of 2: in double precision the second one does not lose exactly what the first one gains. Proved part (C225_volume_partial): The volume that a round of diffusion creates or destroys is at most a fraction of all that crosses the edges: with at most `k` edges per face, `5 (k + 1)` times the relative error `2 ^ -53` of an operation. Missing: it should be none, see `C225_volume_fails`."
  },
  {
   "property": "C226",
   "status": "partial",
   "theorems": [
    "Verif.DiffusionDouble.C226_mean_partial",
    "Verif.DiffusionDouble.C226_equal_fails",
    "Verif.DiffusionDouble.C226_zero"
   ],
   "note": "Refuted: Three faces of area 1 at the elevation 0.1 (the number of double precision): the node between them is higher than all of them. Proved part (C226_mean_partial): The elevation of a node in double precision is the mean of the elevations of its faces, weighted with their areas, up to `4 (k + 1)` times `2 ^ -53` of the largest of them in absolute value, where `k` is the number of faces. Missing: the mean of equal elevations should be this elevation, see `C226_equal_fails`."
  },
  {
   "property": "C227",
   "status": "partial",
   "theorems": [
    "Verif.TriangleDouble.C227_choice_partial",
    "Verif.TriangleDouble.C227_found_partial",
    "Verif.TriangleDouble.C227_one",
    "Verif.TriangleDouble.C227_found_fails",
    "Verif.TriangleDouble.C227_inside_partial",
    "Verif.TriangleDouble.C227_inside_fails"
   ],
   "note": "Refuted: A face of four triangles with areas 1, 4, 1 and 1, and the largest number that a generator can draw, `1 - 2 ^ -53`: the cumulative areas end below it, so that no triangle is found and the code reads past the end of its table. Refuted: Draws of `1/2 + 2 ^ -53` and `1/2`: their sum is rounded to 1, so that they are not folded, and the weight of the first corner is negative; the point lies outside the triangle. Proved part (C227_choice_partial): The choice is the exact one unless the number that is drawn is within a few rounding errors of a border between two triangles: with `n` triangles, `3 (n + 1)` times `2 ^ -53`. Missing: a triangle should be found for every number, see `C227_found_fails`. Proved part (C227_found_partial): A triangle is found for every number below 1 by a few rounding errors. Proved part (C227_inside_partial): The weights of the corners add up to one exactly, and the weights of the second and third corners are in [0, 1], for all numbers that a generator draws (multiples of `2 ^ -53` below 1). The weight of the first corner is in [0, 1] except for draws whose sum is `1 + 2 ^ -53`, where it is `- 2 ^ -53`. Missing: it should not be negative, see `C227_inside_fails`."
  },
  {
   "property": "C228",
   "status": "partial",
   "theorems": [
    "Verif.SfdDouble.C228_found_partial",
    "Verif.SfdDouble.C228_found_fails",
    "Verif.SfdDouble.C228_normalised"
   ],
   "note": "Refuted: A table that begins with 1/2 and the largest number that a generator can draw, `1 - 2 ^ -53`: the draw is rounded to 1, which is not below the last entry, and the code raises an IndexError; this for every logarithm that keeps the order. Proved part (C228_found_partial): Two entries of the table are found around the draw, different ones, with the draw between them, so that nothing is divided by zero; for every sorted table that ends with 1 and every draw whose distance from 1 and whose range are not of the order of the rounding error. The logarithm need only keep the order and be negative below 1. Missing: all other draws, see `C228_found_fails`."
  },
  {
   "property": "C229",
   "status": "partial",
   "theorems": [
    "Verif.RingsDouble.C229_grid_partial",
    "Verif.RingsDouble.C229_ends",
    "Verif.RingsDouble.C229_centre_fails",
    "Verif.RingsDouble.C229_axis_fails",
    "Verif.RingsDouble.C229_exact"
   ],
   "note": "Refuted: On the Moon (1737.4 km) with pixels of 1 km and a local radius of 3.5 km, the local region has no point at its centre: the first ring, which would hold it, is left out because 1737400 · (1000 / 1737400) is rounded to a number below 1000. Refuted: On a body of 100 m radius with pixels of 3 m and a local radius of 20 m, the place five pixels north of the centre has no point, while the one five pixels south has. Proved part (C229_grid_partial): In double precision, every point made for the local region lies at a whole number of pixels from the centre in both directions, within the local radius; a place whose distance from the centre is not a whole number of pixels gets at most one point, and exactly one if it lies within the local radius in whole pixels. What is missing: places at a whole number of pixels from the centre - the centre itself, the axes, and places such as (3, 4) - fall on the limit of two rings, and either ring may leave them to the other, see `C229_centre_fails` and `C229_axis_fails`."
  },
  {
   "property": "C230",
   "status": "partial",
   "theorems": [
    "Verif.MeshRounding.C230_moved",
    "Verif.MeshRounding.C230_kept_partial",
    "Verif.MeshRounding.C230_spacing_fails"
   ],
   "note": "Refuted: Points one pixel apart do not stay one pixel apart: on a body of 1000 km radius with pixels of 1.5 m, the points that were made 1.5 m and 3 m north of the centre are moved to 1 m and 3 m, two thirds and four thirds of a pixel from their neighbours. Proved part (C230_kept_partial): Points that are all more than `√3` of the last decimal apart from each other all stay, as different points. What is missing: points that are closer; the last decimal may be as large as a pixel."
  },
  {
   "property": "C231",
   "status": "partial",
   "theorems": [
    "Verif.Spectrum.C231_symmetric",
    "Verif.Spectrum.C231_quadrants",
    "Verif.Spectrum.C231_falls",
    "Verif.Spectrum.C231_kept_partial",
    "Verif.Spectrum.C231_wide_fails"
   ],
   "note": "Refuted: C231 For wider ejecta it fails: with 400 rows, a largest frequency of 40 and ejecta that reach out to 7 radii (a width of 6), the first row to be returned is counted from the end of the array, and only the waves of the highest frequencies, above 26 per radius, are returned. Proved part (C231_kept_partial): C231 As long as the largest frequency asked for is one that the grid has, the waves returned are those around the frequency zero: every wave whose frequency is a step below the one asked for is there, and none above that frequency by more than a part in `2 m - 1`."
  },
  {
   "property": "C232",
   "status": "partial",
   "theorems": [
    "Verif.Spectrum.C232_waves",
    "Verif.Spectrum.C232_kept_fails",
    "Verif.Spectrum.C232_line_partial",
    "Verif.Spectrum.C232_tie_partial",
    "Verif.Spectrum.C232_longest_fails"
   ],
   "note": "Refuted: C232 The documentation says that the waves shorter than the circumference over `n` are kept; none of those returned is. Refuted: C232 For the longest wave it fails: whatever was drawn for it, its power before the noise is 2π, the length of the wave itself. Proved part (C232_line_partial): C232 Apart from the longest wave, the logarithm of the power before the noise is a broken line in the logarithm of the wavelength: below the drawn break it is the line of the drawn slope through the break, and above it the line through the break and the point drawn for half the circumference. Proved part (C232_tie_partial): C232 The mean from which a coefficient is drawn is one of two straight lines in the diameter. It depends continuously on the diameter exactly if the lines meet at the diameter where the file changes from one to the other; the code does not check that they do."
  },
  {
   "property": "C233",
   "status": "partial",
   "theorems": [
    "Verif.SaveRound.C233_whole_partial",
    "Verif.SaveRound.C233_surface_first_fails",
    "Verif.SaveRound.C233_torn_fails",
    "Verif.SaveRound.C233_emplaced_fails",
    "Verif.SaveRound.C233_points"
   ],
   "note": "Refuted: C233 It fails for a crash after the surface is saved: the next process starts from the new surface with the crater lists of the save before, so that the craters of the last interval are on the ground but neither counted nor listed. Refuted: C233 It fails for a crash while the observed craters are written: the simulation cannot be opened any more. Refuted: C233 It fails for a crash after the observed craters are written and before the emplaced ones are: the next process has no emplaced craters at all. Proved part (C233_whole_partial): C233 After any history of saves and a crash during one more, before its first or after its last step, the next process starts from the surface and the crater lists of one and the same save: the one before, or the new one. Missing: the crash points in between, see the `_fails` theorems."
  },
  {
   "property": "C234",
   "status": "partial",
   "theorems": [
    "Verif.FaceBinsDouble.C234_error_iff",
    "Verif.FaceBinsDouble.C234_partition_partial",
    "Verif.FaceBinsDouble.C234_below_fails"
   ],
   "note": "Refuted: C234 With rounding the error also occurs for areas that are not a power of two apart: a mesh whose largest face is, by one unit in the last place, less than 16 times as large as its smallest, if the logarithm is the double next to the true one. Proved part (C234_partition_partial): C234 Otherwise the bins are a partition of all faces, and the areas of two faces of a bin differ by less than a factor of two, up to the error of the levels."
  },
  {
   "property": "C235",
   "status": "partial",
   "theorems": [
    "Verif.EmplacedLists.C235_lists_partial",
    "Verif.EmplacedLists.C235_numbers",
    "Verif.EmplacedLists.C235_unsaved_fails",
    "Verif.EmplacedLists.C235_reset_fails"
   ],
   "note": "Refuted: C235 It fails for craters placed by hand before a run: `emplace` followed by `run`, on a simulation of any history, leaves them in no saved list at all, though they are on the saved surfaces: `emplace` makes the simulation no longer new, so that `run` does not save before its first interval, and then empties the list. Refuted: C235 `save` does not reset the list of emplaced craters, as its documentation says: whenever there are emplaced craters they are still there after it. Proved part (C235_lists_partial): C235 After any history of `emplace`, `populate`, `save` and `run` in which craters placed by hand are saved before the next run, and a final save, the saved lists of emplaced craters of all intervals have every crater that was formed, once for each time it was formed, and no other. Missing: runs called with craters not yet saved, see `C235_unsaved_fails`."
  },
  {
   "property": "C236",
   "status": "partial",
   "theorems": [
    "Verif.Looking.C236_present_partial",
    "Verif.Looking.C236_saved_partial",
    "Verif.Looking.C236_replaced_fails",
    "Verif.Looking.C236_rounds_partial"
   ],
   "note": "Refuted: The full claim fails: a plot without an interval replaces the saved state of the present interval by the present one, whenever the surface was changed since; what the run had saved for the interval is lost. Proved part (C236_present_partial): Without an interval a plot shows the present surface under the number of the present interval, with a label made from the same; the present state is saved under that number; the saved states of other intervals, the surface and the times stay. Proved part (C236_saved_partial): With the number of a saved interval it shows that state, with a label made from its times, and changes nothing; provided it is not the last one saved, or the surface is still as it was saved. Proved part (C236_rounds_partial): However often a simulation is looked at during and between runs, by plots with or without an interval and by exports of the present or of all states, each saved state is the one in which its interval ended, and the earlier ones stay. Missing: changes by hand between, see `C236_replaced_fails`, and exports of an earlier interval, see `C133_overwrites_fails`."
  },
  {
   "property": "C237",
   "status": "partial",
   "theorems": [
    "Verif.MeshView.C237_rings",
    "Verif.MeshView.C237_points_partial",
    "Verif.MeshView.C237_styles",
    "Verif.MeshView.C237_measured_fails",
    "Verif.MeshView.C237_impacts_fails"
   ],
   "note": "Refuted: C237 fails: in these styles the choice of measured properties makes no difference. A crater whose measured location is another one is shown at the place where it was emplaced (`counting/__init__.py` line 1240). Refuted: C237 fails: the marks of the style `impacts` are above the surface by half the size they are shown with only when this size is not scaled: the size goes with the factor, the height with its square root (`counting/__init__.py` lines 824 and 1239). Proved part (C237_points_partial): C237. In the other styles the mesh has one point for each crater, in the order of the craters. It lies in the direction of the place where the crater was emplaced, above the surface there by half the scaled size of the face for points and by the scaled radius of the projectile for spheres."
  },
  {
   "property": "C238",
   "status": "partial",
   "theorems": [
    "Verif.MeshView.C238_own",
    "Verif.MeshView.C238_given_partial",
    "Verif.MeshView.C238_given_fails",
    "Verif.MeshView.C238_single_fails"
   ],
   "note": "Refuted: C238 fails: from a dataset given whose numbers do not begin with 0, as every dataset of one later interval read from the files, the mesh of an interval is never made of the state with its number: the number is taken as a position (`surface/__init__.py` line 2958), so the mesh is of another interval, or the call raises. Refuted: One interval read from the files: the mesh of its number raises. Proved part (C238_given_partial): C238. From a dataset given with the states of intervals numbered from 0 without a gap, the mesh of an interval is made of the state with its number."
  },
  {
   "property": "C239",
   "status": "partial",
   "theorems": [
    "Verif.LocalMesh.C239_faithful",
    "Verif.LocalMesh.C239_complete",
    "Verif.LocalMesh.C239_agree",
    "Verif.LocalMesh.C239_subregion_fails"
   ],
   "note": "Refuted: C239 fails for a region taken out of a region: the row of a face lacks each node that lies only on faces beyond the radius, so that the face is no polygon of the region's mesh."
  },
  {
   "property": "C240",
   "status": "partial",
   "theorems": [
    "Verif.ReadAll.C240_each_partial",
    "Verif.ReadAll.C240_layered_partial",
    "Verif.ReadAll.C240_region_partial",
    "Verif.ReadAll.C240_layered_fails",
    "Verif.ReadAll.C240_region_fails"
   ],
   "note": "Refuted: Reading all intervals at once does not always show what was saved: a surface whose craters are counted only after the first save has no crater numbers at that interval when it is read alone, but numbers when all are read. Refuted: A saved surface with two faces, and a region with one of them saved for the next interval. Proved part (C240_each_partial): After any history of changes and saves of a surface, all saved intervals can be read at once. The result has exactly the saved intervals, in order, and every variable has at every interval the values that reading this interval alone gives. For a layered variable, such as the numbers of the craters on each face, this holds where it was saved; see `C240_layered_fails` for the other intervals. Proved part (C240_layered_partial): Exactly what a layered variable is at an interval where it was not saved: as many times what NaN converts to as there are faces, although reading the interval alone shows that the variable was not there. Proved part (C240_region_partial): Saving a region for an interval that has no file yet makes it impossible to read all intervals at once, for every region with another number of faces than the surface: each interval alone can still be read."
  },
  {
   "property": "C241",
   "status": "partial",
   "theorems": [
    "Verif.EjectaDouble.C241_volume_partial",
    "Verif.EjectaDouble.C241_surface_partial",
    "Verif.EjectaDouble.C241_sign",
    "Verif.EjectaDouble.C241_exact",
    "Verif.EjectaDouble.C241_volume_fails"
   ],
   "note": "Refuted: Two faces of area 1, of which one loses 1, with ejecta of thickness 1 and 2: the ejecta does not add up to 1. Proved part (C241_volume_partial): The volume of the ejecta of a crater, as it is computed, is nearly what the crater takes away, whatever the order in which the faces are added up: if no number goes through more than `d` additions, the difference is at most `7 (d + 1)` times the relative error `2 ^ -53` of the volume that is moved. Missing: it should be none, see `C241_volume_fails`. Proved part (C241_surface_partial): The volume of the surface after a crater and its ejecta differs from the volume before by what the ejecta misses and by the roundings of the two additions on each face."
  },
  {
   "property": "C242",
   "status": "partial",
   "theorems": [
    "Verif.Settings.C242_session",
    "Verif.Settings.C242_recorded_partial",
    "Verif.Settings.C242_again",
    "Verif.Settings.C242_exact_partial",
    "Verif.Settings.C242_unrecorded_fails",
    "Verif.Settings.C242_kept_partial",
    "Verif.Settings.C242_power_law_fails",
    "Verif.Settings.C242_monte_carlo_fails",
    "Verif.Settings.C242_target_fails",
    "Verif.Settings.C242_generic_fails",
    "Verif.Settings.C242_population_fails"
   ],
   "note": "Refuted: **C242 fails**: a setting that neither construction nor assignment records is lost, whatever was given and assigned; the resumed simulation has the default of the resumed leading setting. Refuted: **C242 fails** for a power law production: whatever coefficient and slope were given, a simulation that is resumed has those of the Moon, for the kind of generator that was saved; in particular the density of craters larger than a metre after a million years is 0.007883 per square metre, whatever it was. Refuted: **C242 fails** for Monte Carlo scaling: switched off with the argument, it is on again in the resumed simulation; switched off by assignment it stays off. The constants of the material are kept in both cases. Refuted: **C242 fails** for the mass and kind of transition of a target: in the resumed simulation they are those of the catalogue. A body that is not in the catalogue cannot be resumed at all; radius and material are kept. Refuted: **C242 fails** for projectiles of a body that is in neither catalogue of velocities: made without naming projectiles, with any arguments that let velocities be drawn, they have a mean velocity, but the resumed simulation has none and an error is raised, unless the mean velocity was assigned later or is given again. Refuted: **C242 fails** for projectiles of a catalogued population: a mean velocity that was assigned is written to the configuration file, but the resumed simulation has the catalogue's; and `sample=False` given as an argument is lost, so that velocities are drawn. Proved part (C242_recorded_partial): **C242, part.** A setting that the component records, at construction or when it is assigned, is in the resumed simulation what it was in the saved session, after every history of assignments, unless it is given again. Missing: settings that are not recorded and settings assigned `None`. Proved part (C242_exact_partial): **C242, part**, exactly: when the leading setting is kept, a setting that is not given again is in the resumed simulation what it was if and only if it was recorded (and not ignored, and not `None`) or happens to be the default. Proved part (C242_kept_partial): **C242, part**, the settings that are kept whatever they are: the kind of generator of a power law, and the density of projectiles of every population that was given or assigned."
  },
  {
   "property": "C243",
   "status": "partial",
   "theorems": [
    "Verif.Wiring.C243_exact_partial",
    "Verif.Wiring.C243_new_partial",
    "Verif.Wiring.C243_reused_partial",
    "Verif.Wiring.C243_objects_fails",
    "Verif.Wiring.C243_assign_fails"
   ],
   "note": "Refuted: With a surface given as an object and a target given by name or not at all, the surface belongs to another target than the simulation, whatever they are; with a morphology model given as an object and a surface given by name or not at all, the craters are formed on another surface than the one that is saved and plotted; and unless its counting object is given too, they are recorded elsewhere than in the object that is saved and shown. Refuted: Assigning an object to a component of a simulation never adapts the others: of components that belong to each other, only the production function of a simulation whose morphology model uses none can be replaced by another object so that they still do. Proved part (C243_exact_partial): Exactly when the components of a new simulation belong to each other: the objects given to it fit together. A component given as an object is never adapted to the others, except that a scaling model gets the target and the projectiles, and that a new morphology model takes over the counting object. Proved part (C243_new_partial): Without objects for projectiles, surface, counting and morphology, that is with names or nothing, the components of a new simulation always belong to each other, whatever target, scaling model and production function is given. Proved part (C243_reused_partial): A simulation made with the components of another one has all of them."
  },
  {
   "property": "C244",
   "status": "partial",
   "theorems": [
    "Verif.Impact.C244_rejects",
    "Verif.Impact.C244_copy_exact_partial",
    "Verif.Impact.C244_copy_vertical_fails",
    "Verif.Impact.C244_copy_density_fails",
    "Verif.Impact.C244_new_partial",
    "Verif.Impact.C244_density_partial",
    "Verif.Impact.C244_accepts",
    "Verif.Impact.C244_ignored_fails",
    "Verif.Impact.C244_resized_partial",
    "Verif.Impact.C244_resized_vertical_fails"
   ],
   "note": "Refuted: **C244 fails** for a vertical velocity that is given to a copy: the copy has no vertical velocity at all, whatever else is given, unless it is made without the check and velocity and angle are given too; then its vertical velocity is that of velocity and angle. Refuted: **C244 fails** for a density that is given to a copy: it is not used, the copy has the density of the original. Refuted: **C244 fails** for a vertical velocity or a mean velocity that is given to a new crater: once accepted it is ignored. The crater is the same as without it. Refuted: **C244 fails** for a copy with a new size that is given a vertical velocity: not only is that ignored, the velocity of the original is lost too, and another one is drawn. Proved part (C244_copy_exact_partial): C244, exactly what a copy without a new size has. Its direction is the one given, as orientation or direction, or else the old one; its velocity and angle are those given. If they are not given they are the old ones, except that the velocity is lost if a vertical velocity is given without a velocity, and the angle is lost if a velocity and a vertical velocity are given (both are kept if also a mean velocity is given and nothing is checked). The size and mass of the projectile are the old ones. Proved part (C244_new_partial): C244, the part that holds of a new crater: it is refused if more is given than may be; otherwise it has the velocity, the angle, the direction (as orientation or direction) that it is given, and its vertical velocity follows from these; what is not given is drawn, if the projectiles draw. Proved part (C244_density_partial): C244: a new crater that is given a density reports that density, whatever the scaling gives for the size of the projectile, as long as the projectile is a ball whose mass is its volume times that density. Proved part (C244_resized_partial): C244, the part that holds of a copy with a new size: the velocity, the angle and the direction are those given, and if no vertical or mean velocity is given, those of the original that are not given, whether or not the projectiles draw; likewise the density, which the new projectile has whatever its size."
  },
  {
   "property": "C245",
   "status": "partial",
   "theorems": [
    "Verif.PrescribedList.C245_read",
    "Verif.PrescribedList.C245_stable",
    "Verif.PrescribedList.C245_limit",
    "Verif.PrescribedList.C245_timed_fails",
    "Verif.PrescribedList.C245_once_partial",
    "Verif.PrescribedList.C245_uncertain_fails"
   ],
   "note": "Refuted: A crater that is added with a time of its own and without metadata to a list that was read stays where it was put and does not limit the sizes of random craters; it is lost as soon as any crater without a time is added and the list is read, whatever the two are. Refuted: A crater with an uncertain time can be emplaced twice, or never although all its times are in the period, when any other crater is added between two rounds, whatever the time, its uncertainty, the periods and the other crater are. Proved part (C245_once_partial): A crater whose metadata have no uncertainty is emplaced once by the rounds that follow if its time is in their period, and otherwise not at all, however often other craters are added to the list and the list is read between the rounds. Missing from the full statement: craters with an uncertainty, see `C245_uncertain_fails`."
  },
  {
   "property": "C246",
   "status": "partial",
   "theorems": [
    "Verif.Sequence.C246_apart_partial",
    "Verif.Sequence.C246_uncertain_fails",
    "Verif.Sequence.C246_exact_partial",
    "Verif.Sequence.C246_shared_fails",
    "Verif.Sequence.C246_combined"
   ],
   "note": "Refuted: **C246 fails** for an exactly known number after an uncertain one whose range reaches below it, although the numbers themselves are in order: the crater forms later than its age, at that of a number smaller by a quarter of the overlap. Refuted: **C246 fails** for craters of one sequence number whose numbers are exactly known but different: whatever they are, all of them form at the same time, the age of their mean, and none at its own unless its number is the mean. Proved part (C246_apart_partial): **C246, part.** Under the same conditions the craters of a sequence number whose number is exactly known form exactly at their age, however uncertain the numbers of the other sequence numbers are. Missing: an uncertain number whose range reaches beyond the exactly known one, see `C246_uncertain_fails`. Proved part (C246_exact_partial): **C246, part.** If all craters of a sequence number have the same number without uncertainty, given as a number or as an age, and the numbers do not increase with the sequence number, every crater forms exactly at the age that its metadata give, for any number of sequence numbers and of craters in each. `num` is the number of craters made since an age and `d.age` its inverse. Missing: craters of one sequence number with different numbers, see `C246_shared_fails`."
  },
  {
   "property": "C247",
   "status": "partial",
   "theorems": [
    "Verif.UntimedOrder.C247_list_order_partial",
    "Verif.UntimedOrder.C247_own_time_partial",
    "Verif.UntimedOrder.C247_own_time_fails"
   ],
   "note": "Refuted: The property fails for every two craters whose own times rise along the list: the merge gives the first of them the time drawn for the size of the second, and the second the time drawn for the size of the first. Proved part (C247_list_order_partial): Of two craters handed to the merge without a time, the one that is earlier in the list is never younger than the other in the result, whatever their sizes, the production function and the random numbers, and whichever prescribed craters and craters with a time there are. Proved part (C247_own_time_partial): Exactly when every crater gets the time that was drawn for it: when the draws happen to fall along the list."
  },
  {
   "property": "C248",
   "status": "partial",
   "theorems": [
    "Verif.Remesh.C248_same_mesh_partial",
    "Verif.Remesh.C248_new_mesh_partial",
    "Verif.Remesh.C248_kept_fails",
    "Verif.Remesh.C248_bins_fails"
   ],
   "note": "Refuted: The property fails for every quantity that is kept: once it has been answered, it is answered in the same way for ever, however often the mesh is made anew and whatever the new meshes are. Refuted: With fewer faces in the new mesh, the bins of faces then name faces that the present mesh does not have: the next craters are to fall on faces that do not exist. Proved part (C248_same_mesh_partial): As long as the mesh is not made anew, every answer is right, whatever else is asked before, in whatever order and however often; loading the same mesh again changes nothing. Proved part (C248_new_mesh_partial): Exactly what is answered after the mesh has been made anew: the areas and sizes of the faces, their mean and their number are those of the new mesh; every other quantity is that of the old mesh if it was asked for (successfully) before, and that of the new mesh if it was not."
  },
  {
   "property": "C249",
   "status": "partial",
   "theorems": [
    "Verif.MeshSettings.C249_mesh_partial",
    "Verif.MeshSettings.C249_kept_partial",
    "Verif.MeshSettings.C249_given_partial",
    "Verif.MeshSettings.C249_exact_partial",
    "Verif.MeshSettings.C249_lost_fails",
    "Verif.MeshSettings.C249_reopened"
   ],
   "note": "Refuted: **C249 fails**: settings of the mesh that are assigned to the surface of a new simulation change neither the mesh nor what is saved, but are reported as its settings; once the simulation is saved or run, opening it again silently replaces the mesh and removes all saved states. Proved part (C249_mesh_partial): **C249, part.** In every folder in which a simulation was made anew, after every history of assignments, saves, runs and openings, the mesh in memory is the one in the grid file and every saved state belongs to it. Proved part (C249_kept_partial): **C249, part.** If the settings of the mesh are only given when the simulation is made, then after every history of saves, runs and openings the surface reports the settings of its mesh, the folder has the states of exactly the intervals that were saved, and opening the simulation again leaves everything in the folder as it is. Missing: settings that are assigned to the surface later, see `C249_lost_fails`. Proved part (C249_given_partial): **C249, part.** The same holds if a simulation is opened, without a reset, with settings other than those of the mesh in its folder: the old states are gone, the surface reports the settings of its new mesh, and from then on the folder has exactly the states that were saved, also when the simulation is opened again without settings. Proved part (C249_exact_partial): **C249, part**, exactly, for the process that made the simulation with settings `v`: what counts is what was assigned before the configuration file was written last, by saving or by running. If these are the settings of the mesh, the simulation that is opened again has all saved states; otherwise it has a new mesh and no saved state at all."
  },
  {
   "property": "C250",
   "status": "partial",
   "theorems": [
    "Verif.Arrays.C250_snapshot_partial",
    "Verif.Arrays.C250_mine_partial",
    "Verif.Arrays.C250_live_fails",
    "Verif.Arrays.C250_left_behind",
    "Verif.Arrays.C250_added_fails",
    "Verif.Arrays.C250_reference_partial",
    "Verif.Arrays.C250_slice_fails"
   ],
   "note": "Refuted: Values read from the whole surface are no snapshot: until the variable is made anew the array shows what the surface has at the moment, so that a state kept for comparison never differs from the present one, and a write of the user to the array is a change of the surface. Refuted: Adding to a variable changes the variable at the elements given, by the amounts given, and nothing else; an array held of the whole variable changes with it. Refuted: For a region that is given by the slice of all faces it replaces the elevations of the surface within the reference radius by those of the plane. Proved part (C250_snapshot_partial): Values read from a region are a snapshot: the array has the values of the surface at that time in the order of the region, and whatever happens to the surface afterwards, as long as the user does not write to the array, it keeps them. Proved part (C250_mine_partial): And they belong to the user: reading changes no value of the surface, and neither do writes of the user to the array, whatever has happened to the surface in between. Proved part (C250_reference_partial): Asking for the reference surface of a region changes no value of the surface."
  },
  {
   "property": "C251",
   "status": "partial",
   "theorems": [
    "Verif.Sequence.C251_uncertain_partial",
    "Verif.Sequence.C251_range_partial",
    "Verif.Sequence.C251_unique",
    "Verif.Sequence.C251_centre_fails"
   ],
   "note": "Refuted: **C251 fails** for the centre of the range. One sequence number `s` without metadata lies between two whose numbers are known, and every draw gives the centre of its normal distribution. The crater forms at the age of a number half of which is the promised one and half the mean of the neighbours; this is the promised number exactly if `s` is half way between the neighbours. Proved part (C251_uncertain_partial): **C251, part.** The same with uncertain numbers: the range of each crater number, promised or given, lies below those of the sequence numbers before. The craters of each sequence number between two others form between the ages half way from the range of its own number to those of its neighbours. Missing: ranges that overlap, see `C252_fails`. Proved part (C251_range_partial): **C251, part.** Some sequence numbers have craters whose numbers are exactly known and do not increase, beginning with the first, and others have craters with nothing else. Processing succeeds and gives a time to every crater. The craters of each sequence number between two others form between the ages half way, in numbers, from the number promised for it to those of its neighbours. Uncertain numbers: see `C251_uncertain_partial`. Missing: the range is not centred at the promised number, see `C251_centre_fails`."
  },
  {
   "property": "C252",
   "status": "partial",
   "theorems": [
    "Verif.Sequence.C252_apart_partial",
    "Verif.Sequence.C252_two_partial",
    "Verif.Sequence.C252_fails"
   ],
   "note": "Refuted: **C252 fails** for four craters with the numbers 11 ± 7, 10 ± 4, 9 ± 0 and 7 ± 6: the numbers decrease as they should, but with every increasing chronology and whatever is drawn the list is rejected. The ten rounds leave the second and the third with ranges that are out of order. Proved part (C252_apart_partial): **C252, part.** If all sequence numbers have crater numbers and the ranges `n ± sig` are apart and in the order of the sequence numbers, processing succeeds and the craters form in the order of their sequence numbers, for any number of them and any craters in each. Missing: ranges that overlap, see `C252_fails`. Proved part (C252_two_partial): **C252, part.** With one or two sequence numbers processing succeeds and the craters are in order, even if the ranges overlap."
  },
  {
   "property": "C253",
   "status": "partial",
   "theorems": [
    "Verif.Lookup.C253_read_partial",
    "Verif.Lookup.C253_copy_fails",
    "Verif.Lookup.C253_dir_fails",
    "Verif.Lookup.C253_repaired",
    "Verif.Lookup.C253_data_partial",
    "Verif.Lookup.C253_mesh_copy_fails"
   ],
   "note": "Refuted: **C253 fails** for every crater: however many nested calls Python allows, copying it with `copy.copy`, `copy.deepcopy` or `pickle` ends in a `RecursionError`, because the new object is asked for an attribute before it has its parts. Refuted: **C253 fails** for listing, too: `dir(crater)`, which is what completion in a terminal or notebook uses, raises an `AttributeError` for every crater. Refuted: **C253 fails** for every surface (`part` is `_uxds`) and every region (`part` is `_surface`), too: copying ends in a `RecursionError`. Proved part (C253_read_partial): Reading an attribute of a crater that has been made gives what the class defines, else the value of the fixed part, else that of the variable part, and otherwise an `AttributeError`; it never recurses without end. Proved part (C253_data_partial): Mesh data of a surface or region that has been made are found by name, and other names give an `AttributeError`."
  },
  {
   "property": "C254",
   "status": "partial",
   "theorems": [
    "Verif.IntegerData.C254_whole_numbers_partial",
    "Verif.IntegerData.C254_fraction_fails",
    "Verif.IntegerData.C254_whole_fails",
    "Verif.IntegerData.C254_loss",
    "Verif.IntegerData.C254_positive"
   ],
   "note": "Refuted: **C254 fails** for fractions: numbers below one that are added to a value that is not negative are lost, however many they are and whatever they add up to. Refuted: **C254 fails** for the whole surface: without the integer type every call that adds raises an error, even for whole numbers, while the same call for a region works. Proved part (C254_whole_numbers_partial): **C254, part.** Whole numbers are stored as given and added exactly, in any number of calls for regions, or for the whole surface if the integer type is given with every call. Missing: numbers with fractions, see `C254_fraction_fails`, and calls for the whole surface without a type, see `C254_whole_fails`."
  },
  {
   "property": "C255",
   "status": "partial",
   "theorems": [
    "Verif.Describe.C255_original",
    "Verif.Describe.C255_measured_partial",
    "Verif.Describe.C255_measured_fails",
    "Verif.Describe.C255_file_fails",
    "Verif.Describe.C255_number"
   ],
   "note": "Refuted: **C255 fails** for a crater that is measured with the same semimajor axis and another semiminor axis: the description is the one of a crater that has not been measured at all. Refuted: **C255 fails** for the file of prescribed craters: the description of the production function is the same for all files, and does not contain any of their names. Proved part (C255_measured_partial): **C255, part.** A crater that is measured with another semimajor axis shows its measured size: two such craters with the same description have the same measured size. Missing: a measured size that differs in the semiminor axis only, see `C255_measured_fails`."
  },
  {
   "property": "C256",
   "status": "partial",
   "theorems": [
    "Verif.PlotOptions.C256_new_partial",
    "Verif.PlotOptions.C256_current_partial",
    "Verif.PlotOptions.C256_other_fails",
    "Verif.PlotOptions.C256_filename_fails",
    "Verif.PlotOptions.C256_close_fails"
   ],
   "note": "Refuted: **C256 fails** for axes of a figure that is open but not the current one: the plot is drawn there, but the file shows the current figure, without the plot; and where a figure is closed at the end, it is the current one and not the one with the plot. Refuted: **C256 fails** for the name of the file: whatever name is given, nothing is written unless saving is asked for as well, and then the file has the standard name. Refuted: **C256 fails** for `close_when_done` in plots of whole surfaces: it is ignored. A plot that is saved and not shown is closed although it is to stay open, and one that is shown stays open although it is to be closed. Proved part (C256_new_partial): **C256** (proved part). A plot for which no axes are given is drawn on a figure of its own: the file that is written shows exactly this plot, all figures that were open stay open and as they were, and the new figure is closed at the end or left open as current figure, as `close_when_done` says (if it says nothing: closed if the plot was saved and not shown). Proved part (C256_current_partial): **C256** (proved part). A plot on axes of the current figure is added to that figure, and the file shows the figure with it."
  },
  {
   "property": "C257",
   "status": "partial",
   "theorems": [
    "Verif.PlotOptions.C257_value_partial",
    "Verif.PlotOptions.C257_whole_partial",
    "Verif.PlotOptions.C257_limits_partial",
    "Verif.PlotOptions.C257_constant_fails"
   ],
   "note": "Refuted: **C257 fails** for a variable that has the same value everywhere and is laid over a hillshade: no pixel gets a colour, as if there were no data, though the colour bar is drawn. In a map it has the colour of the lower end. Proved part (C257_value_partial): **C257** (proved part). The colour bar tells the value of every pixel: if the limits are apart, the place of the colour of a value that lies between the limits is where the colour bar states this value, in maps and in overlays; a value beyond a limit has the colour of that limit. In particular values and colours are in the same order. Proved part (C257_whole_partial): **C257** (proved part). Without limits from the user, every value of the raster lies between the limits, which are values of the raster themselves, so that the colour bar tells every value as it is. Proved part (C257_limits_partial): **C257** (proved part). There are limits exactly if the raster has a value or the user gives both; a limit that the user gives is used."
  },
  {
   "property": "C258",
   "status": "partial",
   "theorems": [
    "Verif.PlotOptions.C258_one_partial",
    "Verif.PlotOptions.C258_kinds_partial",
    "Verif.PlotOptions.C258_several_fails"
   ],
   "note": "Refuted: **C258 fails** for several kinds: only the kind that is drawn first gets the options, all others are drawn with the defaults. Proved part (C258_one_partial): **C258** (proved part). One kind of craters is drawn as asked; every option that is not given has its default: no filling, a line of width 0.1, dotted for the original outlines and solid for the others. Proved part (C258_kinds_partial): **C258** (proved part). The outlines are those of the kinds asked for, in order: the emplaced craters lie below the observed ones."
  },
  {
   "property": "C259",
   "status": "partial",
   "theorems": [
    "Verif.ViewKeys.C259_moved_fails",
    "Verif.ViewKeys.C259_keys_partial"
   ],
   "note": "Refuted: **C259 fails** after a step to another interval: whatever has happened to the view before and whatever keys are pressed afterwards, from the first arrow key on the view shows the surface and the default label. The keys for the craters and the label do nothing any more, the craters cannot be shown, the help text is gone, and a label is shown even if none was asked for. Proved part (C259_keys_partial): **C259** (proved part). As long as no other interval is gone to, the keys work, however often they are pressed: the help text is to be seen after an odd number of `h`, the label, if there is one, after an even number of `l`, and the key of the craters, if there are any, goes through the four styles and then hides them; the surface is always to be seen."
  },
  {
   "property": "C260",
   "status": "partial",
   "theorems": [
    "Verif.Bodies.C260_generic_partial",
    "Verif.Bodies.C260_velocity_fails"
   ],
   "note": "Refuted: **C260 fails** for the velocity of asteroids and comets: a copy has all properties of the original but the velocity, which is the mean velocity of the target body. A copy of a projectile with a sampled or given velocity thus has another velocity. Proved part (C260_generic_partial): **C260** (proved part). A copy of a projectile of the generic kind equals the original in all properties."
  },
  {
   "property": "C261",
   "status": "partial",
   "theorems": [
    "Verif.Region.C261_shrinking_partial",
    "Verif.Region.C261_larger_fails",
    "Verif.Region.C261_growing_fails"
   ],
   "note": "Refuted: Asking a region for a subregion that is not smaller is not refused. The result reports the larger radius, but has the faces of the region: of the faces within the reported radius it lacks exactly those that touch no face within the radius of the region. Refuted: After that a subregion with a radius in between has more faces than the region it is taken from: all faces that touch one of the region's faces within that radius. Proved part (C261_shrinking_partial): However many regions are taken out of one another, as long as no radius is larger than the one before it, the last has every face within the radius it reports, reports the last radius asked for, and has only faces that the first has."
  },
  {
   "property": "C262",
   "status": "partial",
   "theorems": [
    "Verif.Promotion.C262_lists",
    "Verif.Promotion.C262_refused_fails",
    "Verif.Promotion.C262_shared",
    "Verif.Promotion.C262_shared_fails",
    "Verif.Promotion.C262_removed"
   ],
   "note": "Refuted: **C262 fails** when the new model refuses a crater: the exception comes after the model was replaced, and leaves the lists with craters of two models. Exactly the craters before the refused one, emplaced before observed, are made anew. Refuted: **C262 fails** for craters that are both emplaced and observed: after the model was replaced they are different objects. Whatever is assigned to an observed crater then is not seen in the emplaced list, neither before nor when that list is saved."
  }
 ]
}