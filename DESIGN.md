# Design of the formal model of cratermaker

## What is modelled and how

The model is a set of small total Lean 4 definitions that mirror the Python and Rust
functions branch by branch. Exceptions are values (`Except Err α` or `Option α`). Objects are
structures, methods are functions from the old to the new state. External effects (file
system, user answers, random draws, NetCDF encoding, root finders, hashing) are parameters
or explicit state, so every theorem holds for all of them.

* `lean/Verif/Model/*.lean`: definitions only; every definition cites the file and lines of the
  source it models and says where it simplifies.
* `lean/Verif/Props/*.lean`: the specification predicates, the property theorems, and beside
  each theorem an `example` (or a witness theorem) showing that a concrete, non-trivial case
  meets its hypotheses.
* Theorem names start with the property they belong to (`C08_fresh_run`).  A suffix `_partial`
  means that the theorem needs hypotheses the English property does not have; the doc comment
  says what is missing.  A suffix `_fails` marks a theorem that refutes the full property, for all
  inputs of some class where that is possible and with a concrete witness otherwise; the cases are reachable through the API.  A property with either kind is listed as
  `partial` in MANIFEST.json: the code as it stands does not satisfy the full statement.
* `seeded/LOG.jsonl` records the wrong programs the theorems were tried against.

## Trusted base

* The Lean 4.33.0 kernel, and the Mathlib definitions the statements use.
* Axioms: each theorem depends on a subset of `propext`, `Classical.choice`, `Quot.sound`
  (`#print axioms`), and nothing else.  No axioms of our own, no `sorry`, no `native_decide`,
  no `bv_decide`, no `implemented_by`, no `unsafe`.
* The reading of the Python/Rust source into the definitions (no extraction tool exists).
* Numbers: IEEE doubles are modelled by exact reals (`ℝ`), or exact rationals/integers where
  the code only compares, adds and divides. Rounding, overflow and NaN are not modelled unless
  a definition says so (NaN is an explicit `none` where it matters).  Rounding to double precision
  is modelled in `Parallel` (sums), `Steps` (times and numbers of intervals), `DiffusionDouble`, `TriangleDouble`, `SfdDouble`, `RingsDouble`, `FaceBinsDouble`, `EjectaDouble`, `MeshRounding` and `LocationDouble`
  (longitudes, latitudes and orientations); there the exponent range is unbounded (no overflow, no
  subnormal numbers).
* Library behaviour assumed: numpy elementwise arithmetic, `sorted` is a stable sort, Python
  dict insertion order, `str.split`, `int()` on digit strings, `Path.exists/unlink/rename`,
  renames within a device are atomic, scipy root finders return a root of
  the function they were given inside the bracket or raise.
* Sharing: arrays are values; which of them are the same array in memory is modelled in `Arrays`, which
  objects refer to each other in `Wiring`, and which values are kept from an earlier call in `Cache`.
* Threads: `Parallel` models how `rayon` divides a loop between threads, in any schedule; the other
  modules treat these loops as sequential, which `Parallel` justifies for loops that collect values.
  Sums in parallel loops depend on the schedule once rounding is considered; `Parallel` shows this.
* Not modelled: the pixels drawn by the plotting libraries and the bytes written by VTK, GIS and
  NetCDF libraries (`Plot`, `Geotiff`, `VtkFiles`, `Raster`, `Shapefile` model which data and files they are
  given), HTTP transfers (their outcome is an input), mesh generation by jigsaw and uxarray (the mesh is
  an input), the content of hashes (an uninterpreted function), the values of simplex noise (an input;
  `Noise` models how octaves are combined).

## Modules

| module | models |
|---|---|
| `Arrays` | # Arrays of values handed out by a surface and its regions Models which arrays in memory the variables of a surface are (`cratermaker/components/surface/__init__.py`, `add_data`, lines 2158-2191, and `_add_new_data`, lines 1341-1354), which arrays are made anew (`reset`, lines 230-245) and which arrays a user gets who reads a variable of a surface (`Surface.__getattr__`, lines 193-207) or of a region (`LocalSurface.__getattr__`, lines 2092-2118). Memory is a map from addresses to arrays. The user keeps addresses and can write to any array they hold. Simplifications: the values of a variable are in memory, as they are once it has been written or loaded; a variable with several layers is not distinguished from one with one layer; that data have the right length is not checked. |
| `Attr` | `LocalSurface.__getattr__` (`surface/__init__.py`): reading mesh data through a region. Line numbers refer to `/repo/cratermaker/components/surface/__init__.py`. |
| `Base` | Model of the helpers and base classes of `cratermaker/core/base.py` and of `_set_properties` of `cratermaker/utils/general_utils.py`. |
| `Batch` | Model of what the craters of a batch do to the surface and to the count, `cratermaker/components/morphology/__init__.py` lines 575-666 and 709-737, `basicmoon.py` lines 246-302, `surface/__init__.py` lines 2130-2420 and `counting/__init__.py` lines 167-227: each step reads the mesh data on the faces and nodes of one region and writes them there. What the steps compute is left open. |
| `Bodies` | Model of the target body (`cratermaker/components/target/__init__.py`) and of the projectile (`cratermaker/components/projectile/__init__.py`, `asteroids.py`, `comets.py`, `generic.py`). |
| `Cache` | Model of how a crater's measurements depend on what was kept from earlier ones: `measured_rim_height`, `measured_floor_depth` and `measured_depth_to_diameter` of a crater with surface data (`cratermaker/components/morphology/__init__.py`, lines 319-350), its region (`crater_region`, lines 261-273; `remove_complex_data`, lines 215-227), and the elevations with the slope removed that the region keeps (`cratermaker/components/surface/__init__.py`, `compute_desloped_face_elevation`, lines 4533-4538; `add_tag`, lines 2319-2322). How the slope is removed and how rim and floor are averaged is left to parameters here (see the models `Measure` and `Reference`); so are the elevations `E`, the levelled elevations `F` and the tags `T`. |
| `Cleanup` | Model of `cleanup` (`cratermaker/utils/general_utils.py` lines 472-504). A disk is the list of its files; a file is given by the names on its path from the root. Directories are there if a file is below them: empty directories and symbolic links are not modelled. |
| `CountFiles` | Model of saving and reloading the crater lists of the counting component, `cratermaker/components/counting/__init__.py` (`save` lines 451-498, `to_xarray` lines 421-449, `__init__` lines 87-96) and `Crater.from_xarray`, `cratermaker/components/crater/__init__.py` lines 1341-1385. A crater is opaque here, with an identifier; reading back a single crater is the subject of `Verif.Model.Crater`. |
| `CountFlag` | Model of when craters are counted: `Morphology.__init__`, `Morphology.counting` and `Morphology.do_counting` (`cratermaker/components/morphology/__init__.py` lines 392-434, 826-845 and 868-878), what `form_crater` does with them (lines 598-622), and the flag of a simulation (`cratermaker/core/simulation.py` lines 85 and 208-216). |
| `CountPlot` | # Pictures of crater counts Models which craters `Counting.plot` (`cratermaker/components/counting/__init__.py`, lines 655-758) and `Counting.pyvista_plotter` (lines 804-935) show, with `CratermakerBase.read_saved_output` (`cratermaker/core/base.py`, lines 264-293). `C` is the type of craters. |
| `Crash` | Model of what the writing of files does to the disk, operation by operation, so that a crash can be placed between any two operations: `Surface._save_data`, `Surface._write_grid_file` and `Surface._load_from_files` (`cratermaker/components/surface/__init__.py`), `HiResLocalSurface._load_from_files` (`hireslocal.py`) and `Counting.save` (`cratermaker/components/counting/__init__.py`). |
| `Crater` | Model of `cratermaker/components/crater/__init__.py`: measured axes, derived geometry, size arguments of `Crater.maker`, copying, the text the id is made of, splitting tuples into columns and attribute assignment. Lengths are exact reals. |
| `CraterCopy` | Model of the variable part of a crater, `CraterVariable` in `cratermaker/components/crater/__init__.py`: its constructor, setters and `as_dict`, the copy made by `Crater.__init__`, and what `Crater.maker` does with measured sizes. Floats are reals. Exceptions are `none`. |
| `CraterShape` | # The shape given to the ground by a new crater Models `crater_shape` (`cratermaker/components/morphology/basicmoon.py`, lines 272-302) with `get_reference_surface` for faces and nodes (`cratermaker/components/surface/__init__.py`, lines 2609-2642), and the part of `form_crater` that changes the elevations (`cratermaker/components/morphology/__init__.py`, lines 596-599). |
| `CraterState` | Model of what a crater object keeps about the mesh under it (`MorphologyCrater`, `cratermaker/components/morphology/__init__.py` lines 39-52 and 215-318), and of how `BasicMoonMorphology.emplace` (`basicmoon.py` lines 182-226) and `Morphology.emplace` (`morphology/__init__.py` lines 507-571) sort out their argument. |
| `CsvRead` | # Reading crater tables Models `Crater.from_csv_file`, `cratermaker/components/crater/__init__.py:1260-1308`, with the inverse branch of `_convert_tuple_vars`, lines 1406-1444, on rows of text. Simplified: splitting the file into cells (`csv.DictReader`) is external: a row gives for each column name of the header a text, or None when the line is too short. `int(text)` and `float(text)` are parameters that return `none` where Python raises ValueError. Numbers are reals (`float` of `nan` and of the infinities is left out). |
| `CsvWrite` | # Writing crater tables Models `Counting.to_csv_file`, `cratermaker/components/counting/__init__.py:1365-1411`, with the parts of `Crater.as_dict` that decide which columns a crater has (`cratermaker/components/crater/__init__.py:169-196` and 492-502). Simplified: the cells are numbers or other values; what `csv.writer` makes of them as text is left out. The attributes other than the axes are an arbitrary list of columns (as they are after `_convert_tuple_vars`, line 1378, which is modelled in `Verif.Crater`). Numbers are reals. |
| `DataSurface` | Model of parts of `cratermaker/components/surface/datasurface.py`: which file the elevations outside the local region are sampled from (lines 69-138, 376-395, 449-547 and 582-597), and how missing pixels and units are treated (lines 262-285 and 491-519). Reading and resampling the files is external; a reading is `none` when it is NaN. Floats are real numbers. |
| `Defaults` | Which production function and which projectiles are used for a target body: `Production.maker` (`components/production/__init__.py`), `NeukumProduction.__init__` and its `version` (`neukum.py`) and `Projectile.maker` (`components/projectile/__init__.py`). |
| `Degradation` | Model of the degradation state and visibility limit of a crater (`cratermaker/components/counting/depthcount.py:25-122`). |
| `Dem` | Model of the selection of digital elevation model files and of `DataComposer`, `cratermaker/components/surface/__init__.py` lines 4575-4975. |
| `DemFiles` | Model of the setter of `dem_file_list` of `cratermaker/components/surface/datasurface.py` (lines 549-572): which files are read for the local region of a data surface, and the size of its faces. Opening a file is external. Floats are real numbers. |
| `DemSave` | Model of the elevations a data surface keeps in its directory: building it (`cratermaker/components/surface/datasurface.py` lines 376-429 and 527-536, `hireslocal.py` lines 79-85 and 650-675, `surface/__init__.py` lines 1076-1110 and 1197-1225), merging them into the file `dem_data.nc` (`surface/__init__.py` lines 1262-1283) and resetting the surface (lines 376-395). The file is not among the output files a reset removes (`surface/__init__.py` lines 115-118, `datasurface.py` lines 110-111). `reset=True`, the default, is assumed when building. |
| `DemWindow` | Model of the grid of pixels from which the mesh of a local region with elevation data is made: `DataSurface._get_local_dem_data` (lines 205-301) and `_interior_distribution` (lines 315-326) of `cratermaker/components/surface/datasurface.py`. Reading and warping the files is external (`rasterio`); the resolution `res` is the smallest of the files (line 223), in metres. Angles are in radians, `R` is the radius of the body, `r` that of the region and `pix` the size of its pixels. The last rounding of the points is left out. |
| `Describe` | What the printed descriptions of craters and production functions say. |
| `Diffusion` | Model of the mesh operations of `crates/cratermaker-components/src/surface/mod.rs`: diffusion, slope collapse and interpolation of node elevations. Floats are real numbers; an array over the faces of the region is a function of the face number, of which only the first `n` values matter. |
| `DiffusionDouble` | Model of the diffusion loop (`apply_diffusion`) and of the elevations of nodes (`interpolate_node_elevation_from_faces`) of `crates/cratermaker-components/src/surface/mod.rs` with rounding: `rnd` is applied to the result of every operation, as the processor does; it is `Verif.Parallel.double` for the code. Numbers are rational, an array over the faces is a function of the number of the face. |
| `Display` | Model of the navigation between intervals in the interactive plot, `cratermaker/core/simulation.py` lines 1211-1274, and of `format_large_units`, `cratermaker/utils/general_utils.py` lines 348-411. |
| `EjectaDouble` | Model of the volumes and the ejecta of a crater in double precision, `cratermaker/components/morphology/__init__.py` and `cratermaker/components/surface/__init__.py`. The rounding is a parameter: `Verif.Parallel.double`, or none. |
| `EjectaLayer` | Model of how `Morphology.form_crater` and `form_ejecta` (`cratermaker/components/morphology/__init__.py`, lines 574-666) choose the regions of a crater and change the layer `ejecta_thickness`. |
| `EllipseFit` | Model of the ellipse fits of `crates/cratermaker-components/src/counting/mod.rs`: free center (`fit_one_ellipse`, lines 862-944), fixed center (`fit_one_ellipse_fixed_center`, lines 1003-1111) and the error they report (`geometric_distances`, lines 451-484). Floating point numbers are reals; a weight that is NaN is `none`. The eigenvalue routine of LAPACK is a parameter: a function from a matrix to the columns of eigenvectors, or `none` if it fails. |
| `Emplace` | Model of the crater queue and of crater emplacement, `cratermaker/components/morphology/__init__.py` and `basicmoon.py`. Craters are an arbitrary type with equality (`Crater` defines no `__eq__`, so Python compares identities). |
| `EmplacedLists` | Model of the lists of emplaced craters that a simulation saves: `Simulation.run` (`cratermaker/core/simulation.py` lines 548-551 and 578-648), `emplace` (line 864) and `save` (lines 867-884), `Counting.save` (`counting/__init__.py` lines 484-495) and `Morphology.form_crater` (`morphology/__init__.py` line 614, which appends a crater to the list). One process; a crater is opaque. The craters that `emplace` and `populate` get are those that are formed (`Verif.Emplace`, C170). |
| `Export` | Model of the export of crater lists, `cratermaker/components/counting/__init__.py`: `export` (lines 500-592), `_validate_export_args` (963-992) and which file the `to_..._file` methods write (1011, 1322-1339, 1366-1411, 1454-1506), with the drivers of lines 76-80 and `cratermaker/constants.py` lines 26-58. A crater is opaque; what a file holds is the list of craters written to it. |
| `FaceBinsDouble` | Model of `Surface._compute_face_bins` (`cratermaker/components/surface/__init__.py` lines 1624-1637) with rounding: `level a` is the number that is computed for `np.log2(area / min_area)`, with whatever rounding the division and the logarithm have. |
| `Files` | Model of the output file naming and lookup of `cratermaker/core/base.py`. Strings are lists of characters; file names are compared as Python compares strings, lexicographically by code point. |
| `Fit` | Model of the curve fits of `crates/cratermaker-components/src/counting/mod.rs`: ellipse parameters from conic coefficients (lines 314-365), orientation of a fitted ellipse (lines 940-943), and circle fits (lines 1163-1233 and 1275-1322). Floating point numbers are reals; a weight that is NaN is `none`. |
| `Geometry` | Model of the lengths, areas and coordinates a surface computes on first use and keeps (`cratermaker/components/surface/__init__.py`), and of the conversion of elevations to Cartesian coordinates. Floats are reals; arrays are lists. |
| `Geotiff` | # Raster files Models `LocalSurface.to_geotiff_file` and `to_raster` (`cratermaker/components/surface/__init__.py`, lines 3184-3250 and 3106-3154) and `Surface.to_geotiff_file` (lines 775-797), with the names of the files (lines 109, 2060-2070 and 3243). |
| `GridId` | Model of how a saved mesh is recognised: `_hashvars` and `_id` (`cratermaker/components/surface/__init__.py`, lines 1427-1442; and `icosphere.py` lines 71-76, `arbitrary_resolution.py` lines 57-62, `hireslocal.py` lines 830-835, `datasurface.py` lines 599-605), `_is_same_grid` and `_regrid_if_needed` (lines 1183-1225; `datasurface.py` lines 397-429). Floats are an arbitrary type; printing them, and the hash function, are parameters. Strings are lists of characters. |
| `HiRes` | Model of the mesh layout of `cratermaker/components/surface/hireslocal.py`: the size of the faces as a function of distance, the loops that place rings of points, and the rotation of the points to the local region. Floats are reals. |
| `History` | Model of a whole history of a surface: craters with their ejecta (`Morphology.form_crater`, `cratermaker/components/morphology/__init__.py` lines 575-622), diffusion of a region or of the whole surface (`apply_subpixel_degradation`, `basicmoon.py` lines 582-594), slope collapse and noise (`LocalSurface.slope_collapse` and `apply_noise`, `surface/__init__.py` lines 2389-2407 and 2423-2467), one after the other. Each acts on a region of the surface through `LocalSurface.update_elevation`, which adds to the elevations of the region's own faces. Only face elevations are modelled. |
| `Impact` | Model of what `Crater.maker` (`cratermaker/components/crater/__init__.py`) makes of the velocities, the angle, the direction and the density of the projectile that it is given, for a new crater, for a copy and for a copy with a new size. The sizes are modelled in `Crater.lean`, new projectiles in `Bodies.lean`. |
| `IntegerData` | Mesh data that are whole numbers (`add_data` with an integer `dtype`). One element of a variable is followed; `add_data` works element by element. |
| `Inverse` | Model of the conversions between number, diameter and age, `cratermaker/components/production/__init__.py:373-523`, and of the N(D) units. |
| `Label` | Model of the labels of plots: `Simulation.labelmaker` (`cratermaker/core/simulation.py`, lines 942-1023) with the time variables of a saved state from `get_time_variables` (`cratermaker/core/base.py`, lines 321-379). A label is a list of pieces holding numbers; how a number is printed and the pieces are joined is left out. |
| `Limits` | Model of the diameter limits of `cratermaker/core/simulation.py`: the ranges that `populate` samples from (lines 713-763) and the properties `smallest_crater`, `largest_crater`, `smallest_projectile`, `largest_projectile` (lines 1386-1453 and 1615-1740). |
| `LocalIndex` | Model of which faces a surface with a local region takes for its local region: `HiResLocalSurface._load_from_files` (`cratermaker/components/surface/hireslocal.py` lines 649-674), `HiResLocalSurface.local` (lines 706-724), `_set_local_identifiers` (lines 726-747) and `save` (lines 198-206), with the writing of the grid (`cratermaker/components/surface/__init__.py` lines 1112-1225). A mesh is given by its identifier, which is made from the settings, among them location and radius of the local region. A list of indices is given by the mesh it was made for: indices made for one mesh denote other faces, or none, in another mesh. |
| `LocalMesh` | # The mesh of a region Models the tables of a region, `LocalSurface.face_node_connectivity`, `face_edge_connectivity`, `edge_face_connectivity`, `face_face_connectivity` and `node_face_connectivity` (`cratermaker/components/surface/__init__.py`, lines 4222-4302), with `_remap_connectivity_to_local` (lines 3935-3980), for the regions that `extract_region` gives. |
| `Location` | Model of the coordinate normalisation helpers of `cratermaker/utils/general_utils.py`. Doubles are modelled by exact reals. |
| `LocationDouble` | Model of `normalize_coords` (`cratermaker/utils/general_utils.py` lines 210-260) and of the setter of measured orientations in double precision. Numbers are rational; `double` rounds to the nearest number of double precision after every addition and subtraction, as the processor does. |
| `Lola` | Model of `DataComposer.populate_with_lola_data`, `cratermaker/components/surface/__init__.py` lines 4935-4954. |
| `Looking` | Model of looking at a simulation: `Simulation.plot` (`cratermaker/core/simulation.py`, lines 1025-1117) with `Simulation.save` (lines 867-884), together with exports and runs as far as they write saved states of the surface. What a picture looks like, the options of a plot and the crater lists are left out. |
| `Lookup` | How attributes of craters, surfaces and regions are found, and what Python's own tools for copying and listing make of it. |
| `ManyAges` | Model of the production functions called with several diameters and several ages: `function` of `cratermaker/components/production/powerlaw.py` 109-132 and `neukum.py` 109-125, `_validate_age` of `production/__init__.py` 784-857 and the check of the diameters, `_validate_csfd`, 559-588. Floats are real numbers, arrays are lists of at least one number with one axis, and errors carry no message. |
| `Measure` | Model of the measurements of a crater on the surface: floor and rim elevation (`crates/cratermaker-components/src/counting/mod.rs`, lines 13-112), the reference plane that is subtracted before (`cratermaker/components/surface/__init__.py`, lines 2566-2642 and 4533-4538), and the loop of the rim fit (`crates/cratermaker-py/src/counting_bindings.rs`, lines 213-316). Floats are reals; an elevation that is NaN is `none`. |
| `MeshRounding` | Model of the last step of `_generate_face_distribution` in `cratermaker/components/surface/hireslocal.py`, lines 641-645, and in `cratermaker/components/surface/datasurface.py`, lines 368-372: the coordinates of the points are rounded to a number of decimals and equal points are united. Numbers are real; rounding to an integer (`np.round`, ties to even) is a parameter; the order of the points, which `np.unique` sorts, is left out. |
| `MeshSettings` | Model of the settings of a mesh (`gridlevel`, `pix`, `local_radius`, `local_location`, `superdomain_scale_factor`) that are assigned to the surface of a simulation, of what is written to the configuration file, and of what happens to the saved states when the simulation is opened again: `cratermaker/core/simulation.py` lines 107-251, 286-297, 866-884 and 1277-1320 with `cratermaker/components/surface/__init__.py` lines 1076-1110 and 1197-1225. The settings are one value of a type `S`; that two meshes have the same identity only with the same settings is C128. The content of a saved state is not modelled, only its interval and the settings of the mesh it belongs to. Left out: meshes that are made anew in the same process (C248), and crashes (C10). |
| `MeshSize` | # Face sizes of a mesh Models `Surface._compute_face_size`, `cratermaker/components/surface/__init__.py:1363-1384`, with the properties `pix_mean`, `pix_std`, `pix_min`, `pix_max` and `area`, lines 1484-1522; the settings of `cratermaker/components/surface/icosphere.py` lines 78-111 and `cratermaker/components/surface/arbitrary_resolution.py` lines 64-79. Simplified: floats are reals; the areas of the faces on the unit sphere (uxarray) are a list. The subdivision of the icosahedron (trimesh, external) is modelled by its counts of vertices, edges and triangles. |
| `MeshView` | # Meshes of craters and of the surface for three-dimensional views Models `Counting.to_vtk_mesh` (`cratermaker/components/counting/__init__.py`, lines 1120-1286) for a list of craters, the sizes in `Counting.pyvista_plotter` (lines 808-831) and the choice of the data in `LocalSurface.to_vtk_mesh` (`cratermaker/components/surface/__init__.py`, lines 2947-2958). Numbers are real. |
| `Noise` | Model of the noise that is added to a surface: `turbulence_noise` (`crates/cratermaker-components/src/surface/mod.rs`, lines 422-471) and its use in `apply_noise` (`cratermaker/components/surface/__init__.py`, lines 2423-2467). The value of the simplex noise of an octave, with its scaling and rotation, is a parameter. |
| `Outline` | Model of the outline of a crater, `Crater.to_geoseries` (`cratermaker/components/crater/__init__.py`, lines 1138-1227), as distances and bearings from the centre; going a distance along a bearing (`Geod.fwd`) is external. The heights of the vertices are left out. |
| `Overlap` | Model of the regions of a surface with a high-resolution local region, `LocalHiResLocalSurface` in `cratermaker/components/surface/hireslocal.py`, lines 840-1090. |
| `Parallel` | Model of how work is shared between threads: the parallel loops `(0..n).into_par_iter().map(f).collect()` and `(0..n).into_par_iter().map(f).sum()` of the compiled code. The first form is in `crates/cratermaker-components/src/surface/mod.rs` (lines 147-153, 301-307, 343-354, 452-460, 490-503, 526-533, 631-640), `counting/mod.rs` (lines 62-65, 97-100, 247-262, 464-481, 1218-1225, 1302-1309) and `morphology/basicmoon.rs` (lines 281-294); the second one in `basicmoon.rs` lines 358-377. The library `rayon` divides a range of indices into halves as long as it likes, depending on the number of threads and on which thread has nothing to do, and runs the parts in any order. |
| `Place` | # Where a crater is placed Models how `Crater.maker` finds the location and measured location of the crater it makes (`cratermaker/components/crater/__init__.py`, lines 775-788, 858, 893-901, 924-927, 946, 1013, 1115-1116, 1127-1130 and 134-135) and the argument `relative_location` of `MorphologyCrater.maker` (`cratermaker/components/morphology/__init__.py`, lines 177-187). |
| `Plot` | # Pictures of a surface Models `LocalSurface.plot` (`cratermaker/components/surface/__init__.py:3335-3562`), `to_raster` (lines 3071-3153, called by `Surface.to_raster`, line 762), and from `pyvista_plotter` the position of the camera (lines 3671-3690) and the key that cycles through the variables (lines 3613-3656). Left out: colours, fonts and what matplotlib, rasterio and pyvista make of their arguments. Burning shapes into a raster is modelled by what rasterio documents: later shapes replace earlier ones. |
| `PlotOptions` | # Options of a plot: colours, figures and line styles Models `LocalSurface.plot` (`cratermaker/components/surface/__init__.py:3335-3562`) and `Surface.plot` (lines 839-907) beyond what `Verif.Model.Plot` covers: the colours of the values, the file that is written and the figure that is closed; and the styles of the outlines in `Counting.plot` (`cratermaker/components/counting/__init__.py:722-758`). Matplotlib is modelled by the list of its open figures, the current one first, and by what has been drawn on each of them; a set of axes is told by the number of its figure. Colours are positions between 0 and 1 on the colour map. The shading of hills, the interpolation between pixels and the windows of `plt.show` are left out. |
| `Points` | # Distances and bearings of several points Models `LocalSurface.compute_distances`, `compute_bearings` and `compute_location_from_distance_bearing` (`cratermaker/components/surface/__init__.py`, lines 3843-3859, 3881-3893 and 3918-3933) with the loops over the points (`crates/cratermaker-components/src/surface/mod.rs`, lines 517-536, 566-587 and 624-642). `Surface` calls these with the full view (lines 956-1034). Angles are in degrees here. |
| `Populate` | Model of `Simulation.populate` (`cratermaker/core/simulation.py` lines 648-826) from the sampled diameters and times to the list of craters: the window of each bin of faces, the choice of faces and locations, and the order of the craters. The ranges of diameters of the bins are in `Model/Limits.lean`, sampling itself in `Model/Sample.lean`, the quasi-Monte Carlo craters in `Model/QuasiMC.lean`. |
| `Prescribed` | # Prescribed craters over the whole life of a simulation Models when the craters of `Production.quasimc_craters` are used by a simulation: the setters of `quasimc_craters` and `quasimc_file` (`cratermaker/components/production/__init__.py`, lines 1290-1303 and 1322-1329), `Simulation.do_quasimc` (`cratermaker/core/simulation.py`, lines 1856-1878), the end of `Simulation.populate` (lines 794-816), and what a resumed simulation finds (lines 124-130, 233-236, 246, 881 and 1317). |
| `PrescribedList` | # Changing the list of prescribed craters `Production.quasimc_craters` (`cratermaker/components/production/__init__.py` lines 1305-1329) hands out its list itself, so that craters are added with `append`; the next reading finds a crater without a time and processes the whole list again (lines 945-1246), also the readings that `quasimc_merge` makes (lines 921-922). Craters with sequence numbers are in `Verif.Sequence`; here none has one. |
| `Production` | Model of the production functions, `cratermaker/components/production/powerlaw.py` and `neukum.py`. Numbers are real; arrays are treated element by element. |
| `Profile` | Model of the crater and ejecta profiles, `crates/cratermaker-components/src/morphology/basicmoon.rs`, and of their extents and the degradation functions in `cratermaker/components/morphology/basicmoon.py`. Floats are reals; Rayon's parallel sums are ordinary sums. |
| `ProfileCall` | # Calling the profile functions Models the wrappers `crater_profile`, `ejecta_profile`, `ejecta_distribution` and `ray_intensity` of `cratermaker/components/morphology/basicmoon.py` (lines 304-501) and their bindings (`crates/cratermaker-py/src/morphology_bindings.rs`, lines 49-136): which arguments they take, and the shape of what they return. The bindings take one-dimensional arrays of floats only; the conversion of other arrays fails with a TypeError. Left out: numpy scalars, which behave like arrays without dimensions; complex and boolean arrays. |
| `Projectile` | Model of the version "Projectile" of the Neukum production function, `cratermaker/components/production/neukum.py` 397-519: its polynomial gives R values, which `R_to_CSFD` (`cratermaker/components/counting/__init__.py` 1589-1632, `Model/Sfd.lean`) turns into a cumulative number. One diameter at a time; floats are real numbers. Since `R_to_CSFD` need not end, a call is a relation between the arguments and the value that is returned. |
| `Projection` | # Projected coordinates of a region Models `LocalSurface.set_face_proj` and `set_node_proj` (`cratermaker/components/surface/__init__.py`, lines 4490-4506) and the transformations between longitude and latitude and the coordinate system of a region (`Surface.get_crs`, lines 1878-1944; `LocalSurface.crs`, `from_surface`, `to_surface`, lines 4320-4334 and 4468-4488). Angles are in radians (the transformations and `np.radians` convert), `R` is the radius of the body, and `lon0`, `lat0` the centre of the region. |
| `Promotion` | # Replacing the morphology model Assigning `Counting.morphology` (`cratermaker/components/counting/__init__.py` lines 1575-1586) makes every crater in the lists of emplaced and observed craters anew with the crater class of the new model. Craters are objects: the emplaced list and the dictionary of observed craters can hold the same one. |
| `QuasiMC` | Model of the quasi-Monte Carlo merge, `cratermaker/components/production/__init__.py:860-943`, and of the time drawn for a prescribed crater without sequence number, 960-1029. |
| `Radial` | Model of radial gradients: `LocalSurface.compute_radial_gradient` (`cratermaker/components/surface/__init__.py`) and `compute_radial_gradient` in `crates/cratermaker-components/src/surface/mod.rs`. |
| `Raster` | Model of the grid of a raster: `LocalSurface.get_raster_dims` (`cratermaker/components/surface/__init__.py`, lines 3155-3182) and the part of `to_raster` that places the pixels (lines 3108-3144). Coordinates are longitude and latitude in degrees for a whole surface, metres in the coordinate system of the region for a region. Floats are real numbers. |
| `ReadAll` | Model of reading all saved intervals of a surface at once: `read_saved_output()` without an interval, `cratermaker/core/base.py` and `cratermaker/components/surface/__init__.py`. |
| `Recompute` | Model of how the scaling models set their transition factors (`recompute` in `cratermaker/components/scaling/montecarlo.py` and `ctem.py`). |
| `Region` | Model of `Surface.extract_region` (`cratermaker/components/surface/__init__.py`, lines 249-323) and `LocalSurface.extract_subregion` (lines 2644-2699). |
| `RegionPolygon` | Model of `LocalSurface.export_region_polygon` (`cratermaker/components/surface/__init__.py` lines 3772-3816), which writes the outline of a local region to a vector file. The outline itself (`Crater.to_geoseries`) is modelled in `Model/Outline.lean`; here it is a value of any type. |
| `Remesh` | Model of what a surface keeps of its mesh (`cratermaker/components/surface/__init__.py` lines 81-106, 1363-1384, 1515-1705, 1750-1785 and 1840-1876) when the mesh is made anew for the same object, as `set_superdomain` of a surface with a local region does (`cratermaker/components/surface/hireslocal.py` lines 425-494). Floats are reals; arrays are lists. The local region that such a surface keeps is in `Model/LocalIndex.lean`, a change of the target body in `Model/Geometry.lean`; here the radius is fixed. |
| `RimScore` | Model of the selection of rim points in `score_rim` (`crates/cratermaker-components/src/counting/mod.rs`, lines 663-800) and of `nanmax`, `nanmin` and `nanquantile` (lines 1325-1360). The combined score of a face, lines 667-679, is an input: `none` for NaN. Floats are reals. |
| `Rings` | # The points of a mesh with a local region Models `_generate_face_distribution` of `cratermaker/components/surface/hireslocal.py:559-647` (grid of points in the local region, then rings around it) and the rings of the same function in `cratermaker/components/surface/datasurface.py:331-362`. Simplified: floats are reals, so `np.arange` has exactly the length of its formula; rounding to an integer (`round`) is a parameter; the rounding of the coordinates in lines 641-644 and the rotation (modelled in `HiRes`) are left out. The `while` loops are given by their completed executions. |
| `RingsDouble` | Model of the grid of points in the local region, `_interior_distribution` and the loop around it in `_generate_face_distribution` of `cratermaker/components/surface/hireslocal.py`, lines 570-602 and 630-634, in double precision. Simplified: numbers are rational and every operation is rounded to the next number of double precision, also the powers `** 2`; a `while` loop that does not end within `fuel` rounds gives `none`. The points are given by longitude and latitude; the sines and cosines of lines 590-600, the rounding to `decimals` places and `np.unique` (lines 641-645) come after and are not part of this model. |
| `RngShare` | Model of the generators of several objects: the setters of `rng`, `rng_seed` and `rng_state` (`cratermaker/core/base.py` lines 722-773), the generator that an object hands to the objects it makes (`common_args`, lines 775-783), and drawing random numbers. Unlike in `Model/Base.lean`, a generator is an object that several owners can share. |
| `Run` | Model of the main loop `Simulation.run` (`cratermaker/core/simulation.py:454-648`) together with the order in which it writes to disk (`__setattr__` 286-297, `save` 867-884, `to_config` 1277-1321) and of a process start that resumes an old run (`__init__` 108-129, 236-246). |
| `RunArgs` | Model of `Simulation._validate_run_args` (`cratermaker/core/simulation.py:299-452`) and of the part of `Production._validate_sample_args` and `_validate_age` (`cratermaker/components/production/__init__.py:590-858`) it relies on. Numbers are real and scalar; the checks of scalar-ness and of pair shapes are omitted (the types carry them). |
| `Sample` | Model of `Production.sample` (`cratermaker/components/production/__init__.py` lines 194-284) from the arguments that the checks have passed on, of the parameters of `get_random_velocity` and of `bounded_norm` (`cratermaker/utils/montecarlo_utils.py`). The Poisson generator and the generator of truncated normal numbers are parameters. |
| `Sampling` | Model of the random sampling functions: `cratermaker/utils/montecarlo_utils.py` and `compute_time` of `cratermaker/components/production/__init__.py`. A random draw `rng.uniform(...)` is a parameter, its documented half-open range a hypothesis. |
| `SaveRound` | Model of what a crash during `Simulation.save` (`cratermaker/core/simulation.py` lines 867-884) leaves for the next process: the order in which the files of the surface and of the crater lists are written, and what `Simulation` reads when it is made on the directory (`surface/__init__.py` lines 1076-1110, `counting/__init__.py` lines 87-96). The state of the surface is opaque; its file is written elsewhere and moved into place (`Verif.Crash`), which is one step here. The files of the crater lists are written in place: first there is a file that cannot be read, then the complete one. The configuration, whose contents do not decide what is read, is left out (see `Verif.Run` for it), and so are the save actions. |
| `Scaling` | Model of the size scaling laws and of the scaling model's set-up (`cratermaker/components/scaling/montecarlo.py`, `ctem.py`). |
| `ScalingMaker` | Model of `Scaling.maker` and of the setters of `target` and `projectile`, `cratermaker/components/scaling/__init__.py` 50-165, with `Scaling.__init__` (51-60). The material constants are those of `Model/Scaling.lean`, the choice of projectiles that of `Model/Defaults.lean`; of a body only the name, gravity, material and surface density are kept, of projectiles the model and mean velocity. Left out: random numbers, and everything an error message says. |
| `SccFile` | # Files of spatial crater counts Models the contents that `Counting.to_scc_file` writes (`cratermaker/components/counting/__init__.py`, lines 1436-1504) and `Crater.from_scc_file` (`cratermaker/components/crater/__init__.py`, lines 1325-1338). Header lines are left out; numbers are written so that they read back exactly (`str` of a float), and `craterstats.Spatialcount` is taken to read the columns as they were written. |
| `Sequence` | Model of the times of prescribed craters with sequence numbers, `Production._process_quasimc_craters` (`cratermaker/components/production/__init__.py`, lines 945-1246). Floats are rational numbers without rounding. Everything about a crater that does not matter here is its position in the list. |
| `SequenceGroup` | Model of how the production metadata of the craters with the same sequence number are combined, `Production._process_quasimc_craters` (`cratermaker/components/production/__init__.py`, lines 1076-1107), and of the whole processing of prescribed craters with sequence numbers. Floats are rational numbers without rounding; the square root is a parameter. |
| `Settings` | Which settings of the components of a simulation are written to the configuration file, and what a resumed simulation has instead of those that are not: `utils/general_utils.py` (`Parameter`), `core/base.py` (`_to_config`), `core/simulation.py` and the constructors of the components. |
| `Sfd` | Model of the conversions between size-frequency distributions at the end of `cratermaker/components/counting/__init__.py` (`R_to_CSFD`, lines 1589-1632; `csfd_geometric_saturation` and `csfd_equilibrium`, lines 1635-1681). Floats are real numbers. |
| `SfdDouble` | Model of how `sample_from_sfd` (`cratermaker/utils/montecarlo_utils.py` lines 313-351) finds the place of a draw in a table, with rounding: `rnd` is applied to the result of every operation; it is `Verif.Parallel.double` for the code. The logarithm of numpy is a parameter. |
| `Shapefile` | Model of the column names of exported vector files: `LocalSurface.to_vector_file` in `cratermaker/components/surface/__init__.py`, lines 2816-2920. Names are lists of characters. |
| `SimDir` | Model of the directory of a simulation: `simdir`, `output_dir`, `export_dir` and `plot_dir` of `cratermaker/core/base.py` (lines 600-662), `_simdir_init` (lines 963-992), the directory handed to the components (lines 774-782, `core/simulation.py` lines 101-214) and the place of `cratermaker.yaml` (`core/simulation.py` line 1754). Paths are lists of names. Symbolic links, drives and failures of `mkdir` are not modelled. |
| `SimReset` | Model of `Simulation.reset` (`cratermaker/core/simulation.py:1323-1372`) and of the `reset` methods of the components (`core/base.py:94-113`, `components/counting/__init__.py:151-165`, `components/surface/__init__.py:220-247`). |
| `SliceRegion` | Model of regions whose faces are given by a slice: `LocalSurface(surface, face_indices=slice(start, stop, step))` (`cratermaker/components/surface/__init__.py` lines 2014-2031), how numpy selects the values of such a region, how the compiled code lists its faces (`ensure_index_array`, `crates/cratermaker-py/src/surface_bindings.rs` lines 53-97), and the number of faces (`LocalSurface.n_face`, `surface/__init__.py` lines 4043-4053). |
| `Spectrum` | Model of the spectra of crater outlines and surfaces in `cratermaker/components/morphology/realisticmoon.py`: `_get_1D_power_spectral_density`, lines 38-129, and `_get_2D_power_spectral_density`, lines 131-313. The coefficients, which the code reads from a file that is not part of the repository, and the draws of the random generator are parameters. Numbers are real. The noise of the two quadrants of the two-dimensional spectrum (lines 264-265) is a parameter, and so are the phases, which are left out. |
| `Sphere` | Model of the distance and bearing functions of `crates/cratermaker-components/src/surface/mod.rs` (called `surface/mod.rs` below). Angles are in radians. Floats are reals. |
| `Startup` | Model of how `Simulation.__init__` (`cratermaker/core/simulation.py`, lines 65-247) decides between starting anew and resuming, and combines the configuration file with the arguments. |
| `Steps` | Model of the intervals of a run in double precision: `Simulation._validate_run_args` (`cratermaker/core/simulation.py` lines 415-445) and the loop of `Simulation.run` (lines 537-539, 558-559 and 588-633), with the check that `populate` makes of its arguments (`cratermaker/components/production/__init__.py` lines 578-582 and 809-817). `Verif.Run` models the same lines with exact numbers. Here each operation is followed by a rounding `rd`; `Verif.Parallel.double` is the one of the processor. |
| `SubPixel` | Model of how craters too small to be made are accounted for: `compute_subpixel_degradation` (`cratermaker/components/morphology/basicmoon.py` lines 527-580) with the sizes of the face bins (`cratermaker/components/surface/__init__.py` lines 1624-1720), and which craters `form_crater` makes (`cratermaker/components/morphology/__init__.py` lines 259-271, 313-318 and 585-596). The numerical integration `quad` is the integral. |
| `Superdomain` | Model of the automatic choice of the face sizes outside the local region, `HiResLocalSurface.set_superdomain` (`cratermaker/components/surface/hireslocal.py` lines 425-494), and of the settings that are kept with it (lines 122-143, 749-828). Floats are reals. The extent of the ejecta of a crater is a function `rmax` of its diameter (lines 467-472: angle, velocity and minimum thickness are fixed in the loop). The fit of a power law (`scipy.optimize.curve_fit`, lines 480-490) is a parameter. |
| `SurfaceData` | Model of the data handling of `cratermaker/components/surface/__init__.py`: face size bins, `add_data`, `update_elevation` and `apply_noise`. Floats are real numbers; arrays are lists; a data variable on the mesh is a function of the face (node) index. Exceptions are `none`. |
| `SurfaceExport` | Model of exporting a surface: `LocalSurface.export` and `save` (`cratermaker/components/surface/__init__.py`, lines 2771-2821 and 3252-3306), the merging in `_save_data` (lines 1232-1285), `Simulation.export` (`cratermaker/core/simulation.py`, lines 886-940) and the size of a raster (`get_raster_dims` and `to_raster`, lines 3081-3182). A saved state is a file with the surface data and the time variables. What a driver makes of the data is left out: an export is the list of the intervals written with the surface data they were made from. |
| `SurfaceSave` | Model of `Surface.save`, `LocalSurface.save`, `Surface._save_data`, the saving part of `Surface._add_new_data` and the reading of one interval, `cratermaker/components/surface/__init__.py`. Values are of any type (a layered variable has a list of layers for each face). Exceptions are `none`. |
| `Tags` | Model of the tag layers of the surface (`cratermaker/components/surface/__init__.py:2259-2358`) and of the crater count built on them (`cratermaker/components/counting/__init__.py:151-412`). |
| `Tallies` | # Counts while craters are emplaced Models when `Morphology.emplace` brings the count of craters up to date, and whether rims are measured then (`cratermaker/components/morphology/__init__.py`, lines 709-737 and 755-757). Simplification: the loop is run over the sizes of the batches, see `Verif.Emplace` for the batches; counts made inside `compute_subpixel_degradation` (`basicmoon.py` lines 574-578) are left out, they get a copy of the arguments and change none of what is modelled here. |
| `TriangleDouble` | Model of the choice of a triangle of a face in `_get_one_random_location` (`cratermaker/utils/montecarlo_utils.py` lines 91-108) with rounding: `rnd` is applied to the result of every operation; it is `Verif.Parallel.double` for the code. The function is compiled by numba, which sums arrays from left to right. |
| `Uniform` | Model of the points of a mesh of uniform resolution: `_distribute_points` and `_generate_face_distribution` (`cratermaker/components/surface/arbitrary_resolution.py`, lines 82-178) over the whole sphere of radius one, as they are called for a surface. Rounding to the nearest integer (`np.round`) is a parameter; the rounding of the coordinates (lines 158-159) is left out. |
| `Units` | Units of the N(D) values of a production object, and their use for prescribed craters during construction. Line numbers refer to `/repo/cratermaker/components/production/__init__.py`. |
| `ViewKeys` | # The keys of the three-dimensional view of a simulation Models `Simulation.pyvista_plotter` (`cratermaker/core/simulation.py:1166-1275`) with the parts of `Counting.pyvista_plotter` (`cratermaker/components/counting/__init__.py:848-935`) and `Surface.pyvista_plotter` (`components/surface/__init__.py:3692-3770`) that put actors into an interactive view, and `update_pyvista_help_message` (`cratermaker/utils/general_utils.py:423-469`): which actors there are, which of them are visible, and which actors each key acts on. PyVista calls every function that was added for a key, in order. One kind of craters is asked for; what the actors show is left out (`Verif.Model.CountPlot`), and so are the keys for the camera and the variables. |
| `VtkFiles` | # Mesh files for viewing Models `LocalSurface.to_vtk_file`, `cratermaker/components/surface/__init__.py:3015-3069`, which `Surface.to_vtk_file` (lines 819-837) calls for the whole surface, with the names of the files (lines 2057-2071). Simplified: what is in a file is the mesh it was made from together with the data of the view (`to_vtk_mesh`, modelled in `Verif.Geometry`). A file that is refused by the user is left alone; a file that is agreed to is replaced. |
| `Wiring` | Model of how the components of a simulation are connected with each other: the constructor of `Simulation` (`cratermaker/core/simulation.py`) and the constructors, makers and setters of the components. Objects are numbers, given out in the order in which they are made. |

## Properties

For each property: status, theorems, and for those that do not hold in full what is refuted and what is proved.

### C01 Coordinate normalisation keeps the point and lands in range

partial; `Props/Location`: `C01_lat_range`, `C01_lon_range_partial`, `C01_lon_range_iff`, `C01_lon_range_fails`, `C01_same_point_partial`, `C01_same_point_fails`, `C01_same_point_iff`, `C01_idempotent_partial`, `C01_idempotent_iff`, `C01_idempotent_fails`.

Refuted: The documented range is not guaranteed: the point (-100, 95) is mapped to longitude -280. Refuted: Beyond ±270 the clip moves the point to a pole: latitude 360 is the equator, but the result is the south pole. Refuted: Over the pole, normalising is not idempotent. Proved part (C01_lon_range_partial): For inputs whose latitude is a latitude, the longitude is in [-180, 180). Missing from the full statement: latitudes beyond the poles (see `C01_lon_range_iff`). Proved part (C01_same_point_partial): Up to one trip over a pole (|lat| ≤ 270) the result is the same point of the sphere. Missing from the full statement: latitudes beyond ±270 (see `C01_same_point_fails`). Proved part (C01_idempotent_partial): Normalising twice is the same as normalising once, when the latitude is a latitude.

### C02 Random generator construction honours the documented precedence

partial; `Props/Base`: `C02_documented_partial`, `C02_differs_iff`, `C02_seed_and_state_fails`, `C02_reproducible`, `C02_assigning_state_is_ignored`, `C02_state_roundtrip_fails`.

Refuted: A seed together with any state is rejected, although the documentation says that the state takes precedence. Refuted: Hence the expected round trip "assign a state, read that state" fails, whatever state other than the present one is assigned. Proved part (C02_documented_partial): The code agrees with the documentation unless a seed and a state are both given without a generator. Missing from the full statement: that combination, see `C02_seed_and_state_fails`.

### C03 Interval file names are unambiguous

partial; `Props/Files`: `C03_filename_injective`, `C03_parse_roundtrip`, `C03_listing`, `C03_single_file_digit_prefix_fails`.

Refuted: A single file whose prefix ends in a digit is misread: the digits of the prefix run into the interval number.

### C04 Reading interval k returns the data saved for interval k

partial; `Props/Files`: `C04_read_partial`, `C04_negative_partial`, `C04_absent`, `C04_fixed_file`, `C04_read_fails`.

Refuted: From one million on, text order and numeric order differ: with intervals 999999 and 1000000 on disk, asking for 999999 opens the file of 1000000. Proved part (C04_read_partial): With all saved intervals below one million, asking for a saved interval opens the file written for it, in whatever order the directory scan returned the files. Missing from the full statement: intervals from one million on, see `C04_read_fails`. Proved part (C04_negative_partial): Negative requests count from the last saved interval.

### C05 No file is removed without consent

partial; `Props/Base`: `C05_consent`, `C05_only_listed`, `C05_success`, `C05_refusal`, `C05_cancel_keeps_files_partial`, `C05_unchanged_iff`, `C05_cancel_keeps_files_fails`.

Refuted: Cancelling at the second file does not bring back the first one. Proved part (C05_cancel_keeps_files_partial): Cancelling leaves every file in place if no earlier listed path existed. Missing from the full statement (the documentation says that cancelling deletes nothing): files accepted before the refusal, see `C05_cancel_keeps_files_fails`.

### C06 Simulation reset is all or nothing with respect to the first prompt

partial; `Props/SimReset`: `C06_refused`, `C06_bad_skip`, `C06_refuses_iff`, `C06_asked_iff`, `C06_accepted`, `C06_half_reset_fails`, `C06_deletes_partial`, `C06_keeps`.

Refuted: Accepting at the simulation's prompt, even for all files, does not mean that the files are deleted: each component asks again, and if the user declines there, the clock and the memory are reset while all the old files stay, in every simulation. The full statement "accepting deletes the old output" is false. Proved part (C06_deletes_partial): The output files of every component that is reset and has its own asking off are gone after an accepted reset, before the closing save writes interval 0 again. Missing from the full statement: components that ask again, see `C06_half_reset_fails`.

### C07 Run arguments resolve to exactly one well-formed time window

partial; `Props/RunArgs`: `C07_wellformed`, `C07_contradictions_partial`, `C07_age`, `C07_always_ignored_fails`, `C07_ignored_fails`, `C07_number_with_time_interval`, `C07_other_diameter`.

Refuted: Some arguments are silently ignored, whatever their values are: `N_D` next to `time_end` without a start, which is accepted only if the simulation has been run before, and `N_D_end` next to an age, a start or an end. Refuted: Such combinations are accepted: `N_D` next to `time_end` on a simulation that has been run before, and `N_D_end` next to `time_start`. Proved part (C07_contradictions_partial): A combination that asks for two different things, or for nothing, is rejected. Missing from the full statement: `N_D` together with `time_end` on a simulation that has been run before, and `N_D_end` without `N_D`, see `C07_ignored_fails`.

### C08 A fresh run saves ninterval+1 states and its windows tile the requested period

proved; `Props/Run`: `C08_fresh_run`, `C08_empty_period`, `C08_number_windows`, `C08_fresh_number`.

### C09 Elapsed time agrees with the simulated window

partial; `Props/Run`: `C09_elapsed_partial`, `C09_last_state_fails`, `C09_number`.

Refuted: The full statement is false: running 10 My in steps of 3 My ends with an elapsed time of 12 My. Proved part (C09_elapsed_partial): In a fresh run every saved state except the last one has elapsed time `ts - time`, and the last one too if the step divides the period; otherwise its elapsed time is too large, by less than one step. Missing from the full statement: the last state, see `C09_last_state_fails`.

### C10 An interrupted run resumes where it stopped

partial; `Props/Run`: `C10_resume_partial`, `C10_repeats_last_window_fails`, `C10_one_resume`, `C10_second_resume_fails`, `C10_second_resume_duplicates`, `C10_crash_inside_round_fails`.

Refuted: Calling `run` again after it has finished repeats the last window whenever the step does not divide the period: those craters are emplaced twice. Refuted: A second interruption is not: a resumed process never updates the configuration, so a third process starts where the second one did, on a surface that already has the second one's craters, and emplaces them again. Refuted: A crash inside a round can lose a window: the configuration is written before the surface, so that after a crash between the two the resumed run skips craters that were never saved. Proved part (C10_resume_partial): A run stopped after `k` of its `n` intervals and called again with the same arguments does exactly the remaining ones: the windows of the two calls together are those of the uninterrupted run, and the final clock (time, elapsed time, counters, interval) is the same. Holds for `k < n`, and for `k = n` if the step divides the period. Missing from the full statement: repeating a finished run whose last window is shorter, see `C10_repeats_last_window_fails`; several processes, see `C10_second_resume_fails`.

### C11 Save actions run in order with the documented argument precedence

proved; `Props/Base`: `C11_rejected_changes_nothing`, `C11_accepted`, `C11_accepts_iff`, `C11_save_runs_all`, `C11_skip`.

### C12 Component maker resolves names deterministically

proved; `Props/Base`: `C12_named`, `C12_default`, `C12_others`.

### C13 Property sources have a fixed precedence

proved; `Props/Base`: `C13_precedence`.

### C14 Configuration conversion is idempotent and total

proved; `Props/Base`: `C14_plain`, `C14_plain_fixed`, `C14_idempotent`, `C14_config_contents`, `C14_numpy_bool_becomes_text`, `C14_values`.

### C15 Power-law production is a valid cumulative distribution

partial; `Props/Production`: `C15_valid`, `C15_sign_convention`, `C15_setter_sign_fails`.

Refuted: The sign convention does not hold for the setter: for every coefficient, assigning a positive slope, which the constructor accepts, gives a distribution that increases with diameter.

### C16 Neukum chronology is increasing and zero now

proved; `Props/Production`: `C16_increasing`, `C16_zero_now`, `C16_older_windows`.

### C17 Production is additive over adjacent windows

proved; `Props/Production`: `C17_additive`, `C17_run`.

### C18 Quasi-Monte Carlo merge emplaces every prescribed crater once

proved; `Props/QuasiMC`: `C18_merge`, `C18_length`, `C18_once_per_run`.

### C19 Setting a measured size reads back

partial; `Props/Crater`: `C19_radius_iff`, `C19_reads_back_partial`, `C19_shrink_fails`.

Refuted: Full statement fails: shrinking a circle always leaves an ellipse with the old semimajor axis, and another radius is read back. Proved part (C19_reads_back_partial): Growing or first assignment: the radius and the diameter read back, and the crater is a circle.

### C20 Measured axes stay ordered and positive

proved; `Props/Crater`: `C20_history`, `C20_rejects_iff`, `C20_sorted_pair`.

### C21 A crater is defined by exactly one size

partial; `Props/Crater`: `C21_accepts_iff`, `C21_meaning`, `C21_alias_fails`, `C21_single_axis_fails`.

Refuted: Full statement fails: two different final diameters are accepted when one of them is given under the old name, which then wins in silence, whatever the two diameters are. Refuted: A single axis is always rejected, although the code announces that it is taken as a circle.

### C22 Crater geometry and projectile mass are mutually consistent

proved; `Props/Crater`: `C22_geometry`, `C22_new_crater`, `C22_sizes`, `C22_mass`, `C22_vertical`, `C22_accepts_iff`.

### C23 Tuple-valued crater attributes survive the trip to flat columns

proved; `Props/Crater`: `C23_round_trip`.

### C24 Tagging a region marks every face and loses nobody else's tag

proved; `Props/Tags`: `C24_marks`, `C24_keeps`, `C24_nothing_new`, `C24_full_face`.

### C25 Removing and sorting tags touch nothing else

proved; `Props/Tags`: `C25_remove`, `C25_sort`.

### C26 A new crater never erases a larger one from the count

proved; `Props/Tags`: `C26_add`, `C26_small`, `C26_keeps_larger`, `C26_history`.

### C27 Tally leaves only visible, known craters

proved; `Props/Tags`: `C27_tally`, `C27_idempotent`.

### C28 Degradation measure is monotone with a threshold on the depth ratio

proved; `Props/Degradation`: `C28_fresh`, `C28_monotone`, `C28_threshold`, `C28_unmeasured`.

### C29 Size scaling laws are monotone and mutually inverse

proved; `Props/Scaling`: `C29_final_monotone`, `C29_round_trip`, `C29_bracket`, `C29_back_succeeds`, `C29_range`, `C29_projectile_monotone`, `C29_projectile_round_trip`, `C29_projectile_back_iff`.

### C30 Morphology class follows the transition diameter

proved; `Props/Scaling`: `C30_classes`, `C30_probability`, `C30_law`.

### C31 Explicit scaling parameters win over the catalogue

partial; `Props/Scaling`: `C31_explicit`, `C31_target_density_fails`, `C31_target_density_partial`, `C31_no_material_fails`.

Refuted: A density set on the target is overwritten when a scaling model is built for it, unless the density is repeated there: for every material of the catalogue the density comes out as the catalogue's, whatever it was. Refuted: A target without a material makes it impossible to build a scaling model, even with all four parameters given. Proved part (C31_target_density_partial): The target's own density survives only when its material is not in the catalogue.

### C32 Projectile properties: explicit over sampled over default

partial; `Props/Bodies`: `C32_explicit_or_sampled`, `C32_stored_partial`, `C32_catalogued_fails`, `C32_velocity_lost_fails`.

Refuted: **C32 fails** for every asteroid or comet: whatever mean velocity was assigned to it, the next `new_projectile` has the mean velocity of the catalogue, and velocities are drawn for that; without sampling, whatever velocity was stored, the next one has the mean velocity of the catalogue unless a velocity is given. Refuted: An asteroid or comet projectile made without sampling with an explicit velocity forgets it in the next `new_projectile`, which falls back to the catalogue's mean velocity. Proved part (C32_stored_partial): Without sampling, generic projectiles keep every stored value that is not given explicitly.

### C33 Target derived quantities are consistent and positive

proved; `Props/Bodies`: `C33_target`, `C33_escape`.

### C34 Face size bins partition the mesh

partial; `Props/FaceBins`: `C34_partition_partial`, `C34_error_iff`, `C34_uniform_fails`, `C34_area`.

Refuted: The binning of a mesh of equal faces fails. Proved part (C34_partition_partial): Whenever the binning succeeds, the bins are a partition of all faces into non-empty bins of areas within a factor of two.

### C35 Adding data to a region changes only that region

partial; `Props/SurfaceData`: `C35_region_partial`, `C35_scalar`, `C35_rejects`, `C35_others`, `C35_wrong_kind_exact_partial`, `C35_wrong_kind_fails`.

Refuted: Face sized data given for an existing node variable is not rejected: it is written to the nodes that happen to have the numbers of the region's faces, even if those nodes are outside the region. Proved part (C35_region_partial): Adding data of the size of the region's faces (nodes) to a face (node) variable, or creating such a variable, changes exactly the region as requested and nothing else. What is missing for the full property: variables of the other kind (see `C35_wrong_kind_fails`) and regions with as many nodes as faces. Proved part (C35_wrong_kind_exact_partial): Data for a variable of the other kind, for every mesh and region: face (node) sized data for an existing node (face) variable is written to the nodes (faces) that have the numbers of the region's faces (nodes) if the mesh has nodes (faces) with all those numbers, and is refused otherwise.

### C36 Elevation updates dispatch on array size

partial; `Props/SurfaceData`: `C36_dispatch_partial`, `C36_equal_fails`, `C36_one_face_fails`.

Refuted: A region with as many nodes as faces, such as the ten triangles around an edge: data for its faces changes the faces as asked, but the averages for its nodes go to the nodes that happen to have the numbers of its faces, and the region's own nodes keep their elevations unless they are among those. If a face has a number that no node has, the call fails. Refuted: Face data for a region of a single face is taken for a scalar: the same number is added to the nodes, which are not made averages of the faces. Proved part (C36_dispatch_partial): The effect of `update_elevation` for every accepted size. Nothing but the elevations changes. Missing from the full statement: regions with as many nodes as faces, see `C36_equal_fails`, and a one-face region with face data, see `C36_one_face_fails`.

### C37 Diffusion conserves volume

proved; `Props/Diffusion`: `C37_volume`.

### C38 Diffusion never creates new extrema

proved; `Props/Diffusion`: `C38_maximum_principle`, `C38_level`, `C38_flow`.

### C39 Slope collapse conserves volume and stops only when slopes are stable or the limit is hit

partial; `Props/Diffusion`: `C39_stops`, `C39_zero_fails`, `C39_stable_unchanged`, `C39_volume_and_bounds`, `C39_level`.

Refuted: With a critical slope of 0 nothing collapses, however steep the surface.

### C40 Node elevations are averages of their faces

proved; `Props/Diffusion`: `C40_average`.

### C41 Distances are great-circle distances

proved; `Props/Sphere`: `C41_great_circle`, `C41_metric`, `C41_points`.

### C42 Going a distance along a bearing ends at that distance, and back at the point it was taken to

proved; `Props/RoundTrip, Sphere`: `C42_round_trip`, `C42_distance`, `C42_range`, `C42_bearing`, `C42_bearing_range`.

### C43 Crater profile meets floor and rim

proved; `Props/Profile`: `C43_interior`, `C43_wall`, `C43_continuous`, `C43_exterior`, `C43_floor`, `C43_level`, `C43_defaults`.

### C44 Ejecta profile is zero inside and decays outside

proved; `Props/Profile`: `C44_profile`, `C44_extent`, `C44_beyond`.

### C45 Emplacing a crater conserves volume

proved; `Props/Emplace`: `C45_volume`, `C45_succeeds`.

### C46 The queue emplaces every crater once, in order, in non-overlapping batches

partial; `Props/Emplace`: `C46_exactly_once`, `C46_maximal`, `C46_emplaceable`, `C46_exception_exact_partial`, `C46_exception_fails`.

Refuted: If forming a crater raises an exception, the craters of its batch stay in the queue although the earlier ones were formed: the next run of the queue forms those a second time. Proved part (C46_exception_exact_partial): What an exception leaves, for every queue. Processing fails exactly if forming one of the craters raises. Then all craters up to the first one that raises were formed (that one was begun), but the queue still starts with the craters `pre` of its batch that were already formed. Processing the queue again, now without exceptions, forms those a second time. The craters formed twice share no node or face with each other or with the crater that raised. The craters of earlier batches are not formed again.

### C47 Saving surface data is crash safe

partial; `Props/Crash`: `C47_crash_partial`, `C47_complete`, `C47_other_device_fails`.

Refuted: If the temporary folder is on another device, the move is a copy, and a crash during the copy leaves a torn file in place of the saved state: for every readable file there is such a crash point. Proved part (C47_crash_partial): With the temporary folder on the same device as the simulation, a crash at any point of saving surface data leaves every file as it was, except that the file being saved may already be the complete new one; a completed save is the complete new one. Missing: temporary folders on another device, see `C47_other_device_fails`.

### C48 Rewriting the grid file is crash safe

partial; `Props/Crash`: `C48_crash_partial`, `C48_crash_fails`.

Refuted: The old grid is removed before the new one is written: on every disk and for every grid there is a crash point at which no grid is left, and the next start then discards the saved data of every interval but the first, without asking, even if the old grid is asked for (the data of the first interval is replaced by the initial state). Proved part (C48_crash_partial): A crash at any point of writing the grid leaves all surface data on disk, and the next start keeps that data exactly if the grid file on disk is then complete and has the identifier asked for (or there is no data to lose). If the temporary folder is on the same device, the grid file is, at every crash point, the old one, absent, or the complete new one. Missing: the grid is absent after some crashes, see `C48_crash_fails`.

### C49 Saving crater counts is crash safe

partial; `Props/Crash`: `C49_complete_partial`, `C49_crash_fails`.

Refuted: Saving a crater list over an existing file removes the old file first and writes the new one in place: there is always a crash point at which the list is gone, and one at which the file is torn. Proved part (C49_complete_partial): A completed save of the crater lists: every non-empty list is in its file, the file of an empty list is as before, and no other file is touched. Missing: crash safety, see `C49_crash_fails`.

### C50 Superdomain face sizes grow to the requested factor

partial; `Props/HiRes`: `C50_size_partial`, `C50_antipode_fails`, `C50_hemisphere_fails`, `C50_terminates_partial`, `C50_full_sphere_fails`, `C50_large_region_fails`.

Refuted: At the antipode of the local region the faces are larger than the requested factor times the pixel size. Refuted: The slope is a division by zero exactly when the local region is a hemisphere, which is accepted. Refuted: With a local region that is the whole sphere, which the setter accepts, the inner loop never ends. Refuted: With a local region larger than a hemisphere the face size decreases with distance; when it reaches zero before the antipode the outer loop never ends. Proved part (C50_size_partial): With a local region smaller than a hemisphere, the face size is the pixel size inside the local region, never decreases with distance, and is the requested multiple at the circle opposite to the border of the local region. At the antipode itself it is larger, see `C50_antipode_fails`. Proved part (C50_terminates_partial): The ring loops end: the inner one if the local region is not the whole sphere, the outer one if the face size is bounded below by a positive number, as it is when it does not decrease.

### C51 The local region is rotated to the requested location

partial; `Props/HiRes`: `C51_rotation_partial`, `C51_south_pole_fails`.

Refuted: For a local region at the south pole nothing is rotated: the region is laid out at the north pole. Proved part (C51_rotation_partial): Where the axis is not tiny (that is, away from the poles) the rotation takes the pole, where the local region is laid out, to the requested location, and it preserves all distances and angles everywhere. Missing: the south pole, see `C51_south_pole_fails`.

### C52 Loading a surface leaves the asking mode as the user set it

partial; `Props/Crash`: `C52_asking_partial`, `C52_asking_fails`.

Refuted: Loading a high-resolution surface without a reset, when its grid or index file is not in place (as on its first construction), turns asking off for the rest of the session. Proved part (C52_asking_partial): Loading a surface that is not a high-resolution one leaves the asking mode as it was; so does loading a high-resolution one with a reset, or with the grid and index files in place. Missing: a high-resolution surface whose files are not in place, see `C52_asking_fails`.

### C53 Selected DEM files cover the region

partial; `Props/Dem`: `C53_cylindrical_partial`, `C53_polar_partial`, `C53_selection_partial`, `C53_span_fails`, `C53_straddle_fails`, `C53_edge_fails`, `C53_polar_fails`.

Refuted: Regions wider than a tile are not covered: of a region from `b` south to `b` north, with `b` between 30° and 60°, no point between the equator and 30° north is in one of the files selected at 512 pixels per degree, whatever the longitudes. Refuted: Regions that reach across 60° at a resolution of more than 96 pixels per degree: no existing file with a point beyond 60° is selected, although polar files from 45° on are available. (At coarser resolutions the files are global.) Refuted: The edge 60° S itself is looked for in a tile that does not exist, at every longitude. Refuted: Close to the north pole at pixels of less than 7.5 m, the selection raises although the file with a resolution of 5 m covers the region. Proved part (C53_cylindrical_partial): Between 60° S (exclusive) and 60° N, a region that is no larger than 45° by 30° is covered by the files selected, all of which exist. Missing: larger or more extreme regions, see the `_fails` theorems. Proved part (C53_polar_partial): Polar files, if selected, cover the latitudes asked for; they are selected for every region beyond 60° that does not reach within 2.5° of the pole on its equatorward side. Missing: see `C53_polar_fails`. Proved part (C53_selection_partial): The selection as a whole, for regions of at most 45° by 30° that are within 60° of the equator, or beyond 60° and not within 2.5° of the pole, at a resolution for which polar files are used.

### C54 Ellipse coefficients convert to the right ellipse

partial; `Props/Fit`: `C54_shape_partial`, `C54_orientation_partial`, `C54_orientation_fails`, `C54_aligned_partial`, `C54_aligned_fails`.

Refuted: In the other half of the cases the orientation is wrong by a right angle: it is that of the semi-minor axis. Refuted: Every ellipse aligned with the axes that is longer in the x-direction gets an orientation that is wrong by a right angle. Proved part (C54_shape_partial): Center and semi-axes are right for every ellipse: with some orientation they describe the curve given by the coefficients. Proved part (C54_orientation_partial): The orientation is that of the semi-major axis, from the x-axis, if the coefficient of x² is at most that of y², that is if the ellipse is at least as long in the x-direction as in the y-direction, and it is not aligned with the axes. Proved part (C54_aligned_partial): For ellipses aligned with the axes it is the other way round: the orientation is that of the semi-major axis if the ellipse is at least as long in the y-direction as in the x-direction.

### C55 Circle fits minimise their objective

proved; `Props/Fit`: `C55_fixed`, `C55_free_minimises`, `C55_free_exact`, `C55_free_error`.

### C56 Random locations are uniform on the chosen face

proved; `Props/Law, Sampling`: `C56_uniform`, `C56_inside`, `C56_area_weighted`, `C56_triangles`.

### C57 Random sizes stay inside the distribution's range

partial; `Props/Sampling`: `C57_quantile`, `C57_range`, `C57_monotone`, `C57_constant_fails`.

Refuted: The sampling is not defined for every table the checks accept: if all numbers are equal, the only possible draw is 1 and the search runs off the end of the table (IndexError).

### C58 Random impact times lie in the window and are ordered

proved; `Props/Sampling`: `C58_times`.

### C59 Random velocities respect the escape velocity

partial; `Props/Sampling`: `C59_above`, `C59_below`, `C59_from_draws`, `C59_kept`, `C59_equal_never_ends_fails`.

Refuted: Sampling need not end even with good draws: once a draw equals the escape velocity it is neither replaced nor accepted, whatever is drawn later. In particular an escape velocity of zero loops for ever, the initial value being twice the escape velocity.

### C60 Interval navigation stays inside the saved intervals

partial; `Props/Display`: `C60_in_range`, `C60_back`, `C60_first_fails`, `C60_negative_fails`.

Refuted: At the first interval, stepping back shows the last one (and leaves the position at the first). Refuted: A plot opened on interval -1, which elsewhere denotes the last one, steps forward to the first interval.

### C61 Local connectivity tables refer to the same mesh elements

proved; `Props/Diffusion`: `C61_round_trip`.

### C62 Sub-pixel degradation covers the simulated time

partial; `Props/Emplace`: `C62_ordered_partial`, `C62_cover_fails`.

Refuted: Craters that overlap one another are processed one at a time, and then there is no degradation at all, however long the time between them. Proved part (C62_ordered_partial): With the craters in the queue from old to young, the windows are ordered: each ends before the next starts, so no time is used twice, and all lie within the time span of the queue. They need not cover the time span, see `C62_cover_fails`.

### C63 Noise adds no net volume

partial; `Props/SurfaceData`: `C63_noise_partial`, `C63_equal_fails`.

Refuted: In a region with as many nodes as faces the volume is kept as well, but the noise of the nodes goes to the nodes that have the numbers of its faces, also when these are outside the region. Proved part (C63_noise_partial): For every noise field, `apply_noise` changes the elevation of the region's faces without changing its volume, and changes nothing outside the region. Missing from the full statement: regions with as many nodes as faces, see `C63_equal_fails`.

### C64 Location extents contain the region

partial; `Props/Extents`: `C64_extents_partial`, `C64_longitude_fails`, `C64_longitude_always_fails`.

Refuted: Away from the equator the longitude span is too small: a region of half a radian around 60° N, 0° E contains the point 75° N, 60° E, but the extents only reach 57.3° E. Refuted: It is too small for every region that neither contains a pole nor is centred on the equator: some point of the region is always outside the extents. Proved part (C64_extents_partial): Latitudes of the region are within the extents, and so are the longitudes if the region contains a pole or is centred on the equator. Missing: longitudes of other regions, see `C64_longitude_always_fails`.

### C65 DEM composition picks the nearest pixel and applies data once

partial; `Props/Dem`: `C65_composed_partial`, `C65_nearest_to`, `C65_nearest_fails`, `C65_once`, `C65_open`, `C65_released`.

Refuted: Of two data sets, one with a pixel exactly at the point and one with a pixel 90° away, the second is used. Proved part (C65_composed_partial): The composed elevation is that of a data set that covers the point if there is one, and zero otherwise; if only one covers the point, it is that one. Missing: with several, not necessarily the nearest, see `C65_nearest_fails`.

### C66 Human-readable sizes denote the same quantity

proved; `Props/Display`: `C66_same_quantity`.

### C67 Region extraction is closed

partial; `Props/Region`: `C67_region`, `C67_absent`, `C67_subregion_faces_partial`, `C67_subregion_nodes_exact_partial`, `C67_subregion_nodes_fails`.

Refuted: The node list of a subregion lacks nodes of its buffer faces: of the two triangles, the region of radius 2 around the first is complete, its subregion of radius 1 has both faces but not the far node of the second. Proved part (C67_subregion_faces_partial): A smaller region taken out of a region has the same faces as that smaller region taken directly. Proved part (C67_subregion_nodes_exact_partial): Which nodes of its faces a smaller region taken out of a region has: exactly those of the faces within the radius. So a node of one of its faces that lies only on faces beyond the radius is always missing, whereas the same region taken directly has it.

### C68 Crater identity does not depend on later measurements

proved; `Props/Crater`: `C68_fixed`, `C68_variable`, `C68_unknown_ignored`.

### C69 Sampled craters respect the face size limits

proved; `Props/Limits`: `C69_limits`, `C69_exact`.

### C70 Reset clears memory only together with the files

partial; `Props/SimReset`: `C70_declined_reset_fails`, `C70_files_partial`.

Refuted: The full claim fails for every component: declining the deletion keeps the files, but the memory is as at the start. Proved part (C70_files_partial): The claim holds in the weaker form that nothing is deleted without consent; the memory part is missing, see `C70_declined_reset_fails`.

### C71 Locations are normalised element by element

partial; `Props/Location`: `C71_array_elementwise`, `C71_list_elementwise_partial`, `C71_single`, `C71_rejected`, `C71_list_of_two_fails`.

Refuted: A list of exactly two locations is taken for one pair and fails with a TypeError. Proved part (C71_list_elementwise_partial): Lists of pairs are normalised pair by pair, except lists of exactly two pairs. Missing from the full statement: the two-element list, see `C71_list_of_two_fails`.

### C72 Neukum size distribution is a cumulative distribution for every diameter

partial; `Props/Inverse, Production`: `C72_continuous`, `C72_positive`, `C72_branches_meet`, `C72_moon_decreasing`, `C72_moon_valid`, `C72_mars_decreasing`, `C72_mars_valid`, `C72_tangent_slope_fails`.

Refuted: Documented: outside the range the distribution is extrapolated with its slope at the end of the range. The exponent used is the polynomial with the shifted coefficients, without the factors of differentiation, so it is not the slope: at the lower lunar limit it is -3.3281 where the slope of the distribution is -3.1554.

### C73 Power law chronology is linear in age

partial; `Props/Production`: `C73_chronology_linear_fails`, `C73_number_linear_partial`, `C73_rate_partial`.

Refuted: Documented (`powerlaw.py:162-166`): the chronology is the ratio of the cumulative number at the given age to that at 1 My, hence linear in the age. The code returns a constant that does not depend on the age at all, so that for every power law the documented value is returned for a single age only: the number of craters of at least 1 km made per My, read as an age in My. Proved part (C73_number_linear_partial): What does hold: the number itself is linear in the age. Proved part (C73_rate_partial): What the constant is: the number of craters of at least 1 km made per My, so that multiplied by the length of the window it is the number made in the window.

### C74 Impact times follow the chronology

partial; `Props/Sampling`: `C74_actual_partial`, `C74_follows_chronology_fails`.

Refuted: Full statement: the probability of a part of the window is the fraction of the expected craters that form in it. False already for a constant rate: the oldest of the 999 parts gets no crater, although a fraction 1/999 of all craters is expected there. Proved part (C74_actual_partial): The actual probability that a crater gets a time in the `j`-th of the `n - 1` parts of the window: the cumulative number at the end of that part over the sum of all these, and zero for the oldest part.

### C75 The version of the Neukum production function decides its constants

partial; `Props/Production`: `C75_exact`, `C75_version_partial`, `C75_version_fails`.

Refuted: Full statement: after any history, evaluating uses the constants of the current version. It is false: assigning the version after an evaluation keeps the chronology of the old version. Proved part (C75_version_partial): Hence an evaluation uses the constants published for the version that is set exactly if the version at the first evaluation was the same. Missing from the full statement: all other histories.

### C76 Prescribed craters always get a usable time

partial; `Props/QuasiMC`: `C76_number_partial`, `C76_exact_time`, `C76_time_partial`, `C76_time_fails`.

Refuted: Full statement: the time drawn for a prescribed crater is never negative. It fails for every time with an uncertainty, because the clipped value is discarded: for every draw far enough below the mean the time is negative, and the crater is in no interval of any run, however long. Proved part (C76_number_partial): The time drawn from an N(D) value is never negative, whatever the draw. Proved part (C76_time_partial): A time given with an uncertainty comes out as it was drawn: it is usable exactly if the draw is not too far below the mean.

### C77 Impact angles are distributed as sin(2*theta)

proved; `Props/Law, Sampling`: `C77_law`, `C77_angle`.

### C78 Random locations are uniform over the sphere

proved; `Props/Law, Sampling`: `C78_law`, `C78_location`.

### C79 Age and diameter conversions invert the production function

proved; `Props/Inverse`: `C79_age`, `C79_neukum_age`, `C79_powerlaw_age`, `C79_diameter`.

### C80 N(D) pairs mean the same everywhere

partial; `Props/Inverse`: `C80_per_square_metre_partial`, `C80_factor_partial`, `C80_units_fails`.

Refuted: Full statement: the same N(D) pair means the same time for `Production.sample`, `quasimc_merge` and for `Simulation.run`. It fails for the default unit (per 10⁶ km², factor 1e12): the simulation divides by the factor, the production function multiplies by it. With a linear chronology the times differ by a factor 1e24. Proved part (C80_per_square_metre_partial): The two readings of an N(D) pair agree when numbers are given per square metre, the only unit with conversion factor 1. Proved part (C80_factor_partial): What a pair means to the production function is what the pair with its number multiplied by the square of the conversion factor means to a simulation.

### C81 Copied and loaded craters keep their attributes

partial; `Props/Crater`: `C81_copy_partial`, `C81_name_fails`.

Refuted: Full statement fails: a new name given to a copy is lost together with the old one, and a crater loaded from a file has no name. Proved part (C81_copy_partial): A copy without arguments equals the original; given attributes other than the name replace the old ones and nothing else changes.

### C82 Different craters have different identities

partial; `Props/Crater`: `C82_same_width_partial`, `C82_text_fails`.

Refuted: Full statement fails: the time 1.0 with semimajor axis 12.0 and the time 1.01 with semimajor axis 2.0 give the same text, whatever follows, so these two craters have the same id for every hash. Proved part (C82_same_width_partial): Two lists of attributes with the same lengths of the formatted values give the same text only if they are equal: collisions need values of different width.

### C83 Rim fitting options of tally apply to every crater

partial; `Props/Tags`: `C83_options_fails`, `C83_options_partial`.

Refuted: The rim options given to `tally` reach its first crater only. Proved part (C83_options_partial): With both options off, or a single crater, every crater gets what was asked for.

### C84 A CSV row holds the whole crater

partial; `Props/Crater, CsvWrite`: `C84_columns_partial`, `C84_lost_fails`, `C84_table`, `C84_attributes_partial`, `C84_shape_partial`, `C84_shape_fails`, `C84_measured_partial`, `C84_measured_fails`.

Refuted: Full statement fails: two craters that differ only in an attribute that the first crater of the list does not have get the same row. Refuted: If the first crater is a circle, the file has no column for the axes, and the line of every ellipse is the line of the circle of the same area: its shape is lost. Refuted: If the first crater has not been measured, the measured sizes of all others are left out. Proved part (C84_columns_partial): Every attribute that the first crater of the list has is written for every crater, in the column of that name: the row has as many entries as the header, and two craters with equal rows agree in all of these attributes. Proved part (C84_attributes_partial): Each line has the id and the diameter of its crater, and every other attribute for which the first crater has a column. Proved part (C84_shape_partial): If the first crater is an ellipse, the size and shape of every crater can be read from its line. Proved part (C84_measured_partial): When a crater and the first crater of the list have been measured, both as circles or both as ellipses, the measured size is in the file: the measured diameter of a circle, twice its radius, or both measured axes. Missing for the full property: craters measured while the first is not (next theorem), or measured as another shape than the first.

### C85 The axes of a crater are in order

partial; `Props/Crater`: `C85_circle_partial`, `C85_order_iff_partial`, `C85_order_fails`.

Refuted: Full statement fails: axes given in the wrong order stay in the wrong order. Proved part (C85_circle_partial): The axes are in order, unless a pair of axes was given in the wrong order. Proved part (C85_order_iff_partial): Exactly when the axes are in order: unless a pair of axes was given in the wrong order. Sizes other than a pair of axes give a circle.

### C86 Exported craters can be loaded

partial; `Props/Crater`: `C86_without_id_partial`, `C86_id_fails`.

Refuted: Full statement fails: a row with an id column, which every exported file has, always raises. Proved part (C86_without_id_partial): Without an id among the leftover columns a crater is made, with all attributes and leftover columns, and an id computed from its attributes alone.

### C87 A crater keeps its id when saved and loaded

partial; `Props/Crater`: `C87_same_text_partial`, `C87_integer_time_fails`.

Refuted: Full statement fails: a time given as the integer 3000 is read back as the float 3000.0, and the text of the id differs. Proved part (C87_same_text_partial): If the text of every attribute is the same before and after (as for floats, which are written exactly), the id is the same, however many attributes are missing.

### C88 A rim fit is stored

partial; `Props/Crater`: `C88_fit_partial`, `C88_shrinking_fit_fails`.

Refuted: Full statement fails: whenever the fit is smaller than the old semiminor axis, the old semiminor axis is kept as the new semimajor axis. Proved part (C88_fit_partial): The fitted axes are stored exactly when the new semimajor axis is not smaller than the old semiminor axis.

### C89 The outline of a crater is the ellipse with its axes and orientation

proved; `Props/Outline`: `C89_ellipse`, `C89_closed`.

### C90 A copy with a new size has that size

partial; `Props/Crater`: `C90_final_size_partial`, `C90_accepts_iff`, `C90_other_size_fails`.

Refuted: Full statement fails for every other size (transient diameter, projectile diameter or mass): unless the old semiminor axis happened to be the new radius, the copy is an ellipse with the old semiminor axis and a diameter other than the one that belongs to the new size. Proved part (C90_final_size_partial): A copy that is given a new final size has the diameter of that size.

### C91 The degradation state does not jump with crater size

partial; `Props/Degradation`: `C91_jump_fails`, `C91_continuous_partial`.

Refuted: The degradation state of a crater of given depth ratio jumps at a diameter of 10 km. Proved part (C91_continuous_partial): Away from 10 km it is continuous in the diameter.

### C92 The count lists only craters that are still on the surface

partial; `Props/Tags`: `C92_ghost_fails`, `C92_on_surface_partial`, `C92_ghost_reachable_fails`.

Refuted: A crater whose tags have all been overwritten (by C24 this happens on full faces) stays in the list for ever: tally never looks at it. Refuted: The first of nine craters is still listed as observed after them, with or without a tally, although none of its tags is left; the other eight are on the surface. Proved part (C92_on_surface_partial): As long as no face runs out of layers, after any history of additions and a tally every observed crater is still on the surface and below its visibility limit.

### C93 The transient crater is smaller than the final crater

partial; `Props/Scaling`: `C93_smaller_partial`, `C93_iff`, `C93_forced_class_fails`.

Refuted: With an explicit class that does not belong to the size, the transient crater can come out larger than the final one: a crater of one thousandth of the transition diameter called complex. Proved part (C93_smaller_partial): Without random factors (s > 1, c ≥ 1, nominal transition, and the exponents of the code), the transient crater is smaller than the final one for every diameter, with the class of that diameter.

### C94 Unsampled projectiles use the documented defaults

partial; `Props/Bodies`: `C94_defaults_partial`, `C94_defaults_fails`.

Refuted: Asteroid and comet projectiles cannot be made without sampling unless angle, direction and location are all given: the documented defaults are never used. Proved part (C94_defaults_partial): Without sampling, a generic projectile that is made at all gets for each of angle, direction and location that is neither stored nor given the documented default: a vertical impact towards north at the origin; and it is made whenever a velocity is stored and nothing is given.

### C95 Node elevations do not depend on the region used to update them

partial; `Props/Diffusion`: `C95_exact`, `C95_interior_partial`, `C95_border_iff`, `C95_border_fails`.

Refuted: At the border of a region the node elevation depends on the region: a node between face 0 (elevation 0) and face 1 (elevation 1) has elevation 1/2 on the mesh, but 0 when it is interpolated in a region that contains only face 0. So a local update that changes nothing still moves border nodes. Proved part (C95_interior_partial): A node whose faces all belong to the region gets the same elevation from the region as from the whole mesh.

### C96 Every crater that is excavated gets its ejecta

partial; `Props/Emplace`: `C96_no_volume_fails`, `C96_volume_partial`.

Refuted: A crater whose elevation change happens to have no net volume is excavated, but then an exception is raised: no ejecta, no degradation. Proved part (C96_volume_partial): If there is any ejecta to scale and the degradation is not negative, forming the crater succeeds exactly if the change is not of zero volume.

### C97 Deposited ejecta is never negative

partial; `Props/Emplace`: `C97_ejecta_nonneg_partial`, `C97_ejecta_fails`.

Refuted: When the crater shape adds volume (as on a steep slope, where the floor is raised to the mean level), ejecta of negative thickness is deposited: every face of the blanket is lowered. Proved part (C97_ejecta_nonneg_partial): The deposited ejecta is nowhere negative when the crater is a net excavation.

### C98 Sub-pixel degradation is neither lost nor applied twice

proved; `Props/Profile`: `C98_total`, `C98_bounded`.

### C99 Larger craters degrade the surface more

proved; `Props/Profile`: `C99_degradation`, `C99_anchor`.

### C100 Ray intensity is a fraction

partial; `Props/Profile`: `C100_unit_partial`, `C100_far_fails`, `C100_around`, `C100_wrap`.

Refuted: If all points are beyond 101 crater radii, the intensities are all undefined (NaN), not zero. Proved part (C100_unit_partial): Ray intensities lie between zero and one and vanish inside the crater, and if any point outside is reached by ejecta the largest is one and none is undefined.

### C101 Ejecta truncation limits the blanket

partial; `Props/Profile`: `C101_truncated_partial`, `C101_small_fails`, `C101_zero_fails`.

Refuted: With any smaller factor the extent is larger than the factor times the radius if the feature is thinner than the smallest thickness just outside the rim: it is then 1.0001 radii, whatever the factor. Refuted: A truncation factor of zero is taken as no truncation at all, so the blanket may reach the antipode. Proved part (C101_truncated_partial): With a truncation factor of at least 1.0001 the extent of a feature is at most the factor times the radius, provided the root finder returns a point of its bracket. Missing: smaller factors, see below.

### C102 Saved states are removed at start only with consent

partial; `Props/Crash`: `C102_declined_partial`, `C102_first_interval_fails`, `C102_other_grid_fails`, `C102_hires_fails`.

Refuted: On a reset the file of the first interval is removed before the user is asked, and the initial state written in its place even if they decline. Refuted: If the grid file does not match, all saved states are removed without asking, even without a reset. Refuted: A high-resolution surface whose index file is missing: the user is asked, declines, and the saved states are removed all the same. Proved part (C102_declined_partial): A user who is asked and declines keeps the saved states of every interval but the first, provided the grid is the same and no new grid is requested (and, for a high-resolution surface, the index file is in place); and without reset nothing is removed. Missing: the other cases, see the `_fails` theorems.

### C103 Resuming restores the crater lists of the last saved interval

partial; `Props/CountFiles`: `C103_resume_partial`, `C103_exact`, `C103_stale_fails`, `C103_emplaced_fails`, `C103_duplicate_fails`.

Refuted: If no observed craters were left at the last save, but there were some at an earlier one, resuming always brings back observed craters, those of the last interval that had any. Refuted: As long as nothing was observed, all emplaced craters are lost. Refuted: If two emplaced craters of the last save have the same identifier (the same crater emplaced twice), its emplaced craters are never restored. Proved part (C103_resume_partial): After any history of saves with increasing interval numbers, starting from an empty folder, resuming gives the observed and emplaced craters of the last save, up to order, provided the last observed list is not empty and neither list contains two craters with the same identifier. Missing: the other cases, see the `_fails` theorems.

### C104 Size limits set on a simulation read back and leave the other limit alone

partial; `Props/Limits`: `C104_smallest_partial`, `C104_largest_partial`, `C104_smallest_projectile_partial`, `C104_largest_projectile_partial`, `C104_projectiles_of_craters`, `C104_largest_projectile_fails`, `C104_smallest_projectile_all_fails`, `C104_smallest_projectile_fails`, `C104_contradiction_fails`.

Refuted: Limiting the projectiles of a crater production function does not do what it says: any assignment of the largest projectile makes the smallest crater as large as the target. Refuted: With a crater production function an assigned smallest projectile is never what is read back, as long as a projectile is smaller than the crater it makes: the value assigned is taken as a crater diameter. If it is at least as large as the smallest crater before and within the allowed range of craters, the value read back is the smaller projectile that makes a crater of that size, and every crater smaller than the value is dropped. Refuted: Assigning the smallest projectile of a crater production function takes the value as a crater diameter: with a slow projectile making craters twice its size, asking for projectiles of at least 10 reads back as 5. Refuted: With a projectile production function, reachable limits can be contradictory even though the smallest crater is well below the largest: every sample is then rejected. Proved part (C104_smallest_partial): After construction and any sequence of assignments, assigning the smallest crater reads back as the value assigned, clamped to the smallest face, and does not change the largest crater. Proved part (C104_largest_partial): Likewise for the largest crater, which is clamped to the target's diameter. Proved part (C104_smallest_projectile_partial): With a projectile production function, after construction and any sequence of assignments, assigning the smallest projectile reads back as the value assigned, but at least the projectile that can make the smallest allowed crater, and does not change the largest projectile. Proved part (C104_largest_projectile_partial): Likewise for the largest projectile.

### C105 Populating works for every mesh

partial; `Props/Limits`: `C105_populate_iff_partial`, `C105_large_face_fails`.

Refuted: A single face whose area is at least twice the square of the largest crater makes populating raise, whatever the other faces are, instead of giving no craters to the larger faces. Proved part (C105_populate_iff_partial): Populating raises exactly when the requested limits exclude each other or some bin only has faces larger than the largest crater (only the converse part of the property holds).

### C106 Settings of a resumed simulation

partial; `Props/Startup`: `C106_keyword_partial`, `C106_saved_partial`, `C106_replaced_fails`, `C106_top_level_fails`.

Refuted: A component that the user replaces when resuming still receives every setting of the old one which is not overridden, although the code says that these are to be dropped. Refuted: A top-level entry of the file wins over the same keyword argument. Proved part (C106_keyword_partial): A keyword argument given to the simulation reaches every component, whatever the file says about that component. Proved part (C106_saved_partial): Without one, the component keeps its saved settings, and a component not named by the user keeps its kind.

### C107 A resumed run continues the random sequence

partial; `Props/Startup`: `C107_ignores_file_fails`, `C107_repeats_fails`, `C107_argument_partial`, `C107_seed`.

Refuted: The generator of a resumed simulation is the one a new simulation with the same arguments has: nothing in the configuration file can change it. Refuted: So a script with a fixed seed that is run again to resume draws the same numbers again from the start, rather than continuing from the state that was saved. Proved part (C107_argument_partial): What does work: giving the saved state (and no seed) as an argument restores it.

### C108 An old run is discarded only with consent

proved; `Props/Startup`: `C108_consent`, `C108_explicit`.

### C109 The reported orientation of a fitted rim is its bearing

partial; `Props/Fit`: `C109_bearing_partial`, `C109_bearing_fails`.

Refuted: In the other half of the cases it is wrong by a right angle. Proved part (C109_bearing_partial): The orientation reported for a fitted rim is the bearing of its semi-major axis, clockwise from north, if the ellipse is longer in the north-south direction than in the east-west direction and not aligned with these.

### C110 Sign of the distance to a rim

proved; `Props/Fit`: `C110_sign`.

### C111 Measured floor and rim are the mean elevations of the crater's own faces

partial; `Props/Measure`: `C111_mean_partial`, `C111_relative_partial`, `C111_missing_fails`.

Refuted: A missing elevation shifts the elevations against the distances: if the first face of the crater has none, its floor and its rim are measured as if every other face were at the distance of the face before it. Proved part (C111_mean_partial): The floor is the mean elevation of the faces that carry the crater and lie within a fifth of its radius; the rim is that of the faces that carry it and lie between 0.95 and 1.2 radii. Proved part (C111_relative_partial): Raising the whole region does not change the measured depth, and stretching its relief stretches the depth by the same factor.

### C112 A crater that has lost its floor or its rim leaves the count

proved; `Props/Measure`: `C112_lost`, `C112_present`.

### C113 Measurements do not depend on the regional slope

partial; `Props/Reference`: `C113_tilt`, `C113_plane`, `C113_balance`, `C113_small_fails`, `C113_outside_fails`.

Refuted: With fewer than five faces in the circle everything comes out at height zero, whatever the elevations: the depth of a crater that small cannot be told. Refuted: Faces outside the circle come out at height zero, whatever their elevation.

### C114 The rim fit ends and refines step by step

partial; `Props/FitLoop`: `C114_ends`, `C114_chain_partial`, `C114_extent_fails`.

Refuted: The region that is looked at never grows or shrinks with the fit: in every pass it has the same extent, although the code says that it surrounds the best-fit radius. Proved part (C114_chain_partial): The first pass starts from the crater itself, and every other from the centre and axes that the pass before has found and from the orientation found, in degrees; the weights are those of the number of the pass.

### C115 Rim scores are fractions and enough rim points are kept

proved; `Props/RimScore`: `C115_quantile`, `C115_sectors`, `C115_range`, `C115_enough`, `C115_order`.

### C116 Outlines across the antimeridian are cut without tearing

partial; `Props/Outline`: `C116_shift_partial`, `C116_flip_partial`, `C116_pole_fails`.

Refuted: **C116 fails** for outlines around a pole. For a centre on the prime meridian no vertex is moved, so vertices close to each other on both sides of the antimeridian stay up to 360 degrees apart; and for any other centre vertices on both sides of the prime meridian, however close to each other, end up on the other side of the globe from each other. Proved part (C116_shift_partial): **C116, part.** A vertex whose longitude, counted continuously from the centre, keeps the sign of the centre's longitude (that is, the outline does not also reach across the prime meridian) is moved from its representative in [-180, 180] to that continuous longitude, so neighbouring vertices stay neighbours. Missing: outlines around a pole, see `C116_pole_fails`. Proved part (C116_flip_partial): **C116, part.** The piece beyond the antimeridian is moved back to the same points with longitudes in [-180, 180].

### C117 The slope of a plane is its gradient

partial; `Props/Slope`: `C117_slope_partial`, `C117_isotropic_fails`, `C117_every_mesh_fails`, `C117_collapse_fails`, `C117_polygon_fails`.

Refuted: If the directions of the neighbours have no preferred axis, the computed slope of a plane is exactly half its slope. Refuted: On no mesh whatever are all slopes right: around every face with at least two neighbours there is a direction in which the plane of slope 1 has a computed slope of at most 1/2. Refuted: Hence slope collapse does not act on planes up to twice the critical slope. Refuted: On a face that is a regular polygon of any number of sides, in particular a hexagon, the computed slope of every plane is half its slope. Proved part (C117_slope_partial): The computed slope of a plane is never larger than its slope.

### C118 Prescribed craters form in the order of their sequence numbers

partial; `Props/Sequence`: `C118_settled_partial`, `C118_checked_partial`, `C118_fails`, `C118_two_partial`.

Refuted: **C118 fails.** Three prescribed craters with sequence numbers 1, 2, 3 and N values 1 ± 0, 9 ± 2, 9 ± 1: the ten rounds end before the extents decrease, processing succeeds, and the crater with the last number is older than the others. The check of the order takes the last number out of the comparison; with two sequence numbers nothing is compared. Proved part (C118_settled_partial): **C118, part.** If the lower and the upper ends of the extents decrease with the sequence number — which is what the ten rounds of adjustment look for — every time drawn for a sequence number is at least every time drawn for a later one: for any number of sequences, any metadata and any draws that keep to their bounds, including the last number, which is never checked. Missing: the rounds can end without reaching that, see `C118_fails`. Proved part (C118_checked_partial): **C118, part.** Whatever the extents and the draws: if processing succeeds, the craters of all sequence numbers but the last are in order. Proved part (C118_two_partial): **C118, part.** With one or two sequence numbers the times are always in order, whatever their metadata and uncertainties, even when the number of the later one is the larger: four rounds are enough for the extents to decrease. With three they may not be, see `C118_fails`.

### C119 Processing a valid list of prescribed craters does not divide by zero

partial; `Props/Sequence`: `C119_partial`, `C119_fails`.

Refuted: **C119 fails.** When the first of two sequence numbers has an N value with an uncertainty that reaches or exceeds it, and the second, the last one, has no metadata and so is anchored at zero, the extent of the second is empty at zero: processing ends in a division by zero, whatever the draws. By `C119_partial` it does not when the uncertainty is smaller. Proved part (C119_partial): **C119, part.** No division by zero occurs if every sequence number with metadata has an N value that exceeds its uncertainty: the other numbers, the last one included, may have metadata or not. Ages of positive numbers are positive, and that of zero is not negative. Missing: uncertainties that reach the value, see `C119_fails`.

### C120 Clearing the prescribed craters restores the size range

partial; `Props/Sequence`: `C120_partial`, `C120_history`, `C120_fails`.

Refuted: **C120 fails.** Taking the prescribed craters away again, or replacing them by larger ones, does not give the size range back. Proved part (C120_partial): **C120, part.** While prescribed craters are set, the sampled size range ends at or below each of them and not above where it ended before.

### C121 Exporting writes the saved crater lists

partial; `Props/Export`: `C121_files_partial`, `C121_vector_fails`, `C121_nothing`, `C121_second`, `C121_asking_fails`, `C121_type`, `C121_mixed_case_fails`.

Refuted: **C121 fails** for the vector formats: the driver is listed as valid, the export ends without an error, and nothing is written. Refuted: **C121 fails** after an error: an unknown crater type is reported only after the asking mode has been set to the one asked for in the call, which then stays. Refuted: A driver listed in mixed case can never be asked for: names are compared in upper case. Proved part (C121_files_partial): **C121, part.** With an SCC, VTK, VTP or CSV driver, in any spelling, an export writes for every list asked for and every saved interval of it one file with exactly the craters of that interval, and leaves the asking mode as it was. Missing: the vector formats, see `C121_vector_fails`, and the asking mode after an error, see `C121_asking_fails`.

### C122 Crater lists are written in every documented form

partial; `Props/Export`: `C122_partial`, `C122_fails`.

Refuted: **C122 fails** for the current observed craters and for dictionaries, which are among the documented forms: whatever craters they hold, none of them is written. A dictionary of craters, such as the observed list, ends in an error about an unset variable; from a dictionary of datasets the datasets come back in place of craters. Proved part (C122_partial): **C122, part.** Craters are written exactly for a list of craters, for a dataset, and without an argument for the emplaced list; and then they are those given, in the same order. Missing: the other documented forms, see `C122_fails`.

### C123 The crater style applies to exported meshes

partial; `Props/Export`: `C123_partial`, `C123_fails`.

Refuted: **C123 fails.** Whatever style is asked for, the file is the same; so wherever the style matters, some request is not honoured. Proved part (C123_partial): **C123, part.** With the default style and measured properties the file holds the mesh asked for.

### C124 Crater files are read by their extension

partial; `Props/Export`: `C124_partial`, `C124_fails`.

Refuted: **C124 fails.** A crater count file in another spelling is refused although the extension was recognised, and for any other extension an unset variable is returned, not an error about the format. Proved part (C124_partial): **C124, part.** A file is read in the format of its extension, whatever the case of `nc` and `csv` and for `scc` in lower case.

### C125 Cumulative counts from R values cover the whole range once

partial; `Props/Sfd`: `C125_positive_partial`, `C125_fails`.

Refuted: **C125 fails** for diameters that are not positive: with a positive limit the conversion then never returns. Proved part (C125_positive_partial): **C125, part.** (Missing: diameters that are not positive, see `C125_fails`.) For every positive diameter the conversion ends with exactly one number of craters; it covers the diameters from `D` up to some `E` that lies between the limit and the limit times the square root of two (for `D` at or above the limit it is zero); and if R lies between `m` and `M` over these diameters, the number is at least 94% of the integral of `m / D³` and at most 95% of the integral of `M / D³` from `D` to `E`.

### C126 Saturation and equilibrium curves fall as the inverse square of diameter

proved; `Props/Sfd`: `C126_curves`.

### C127 Measurements of a crater reflect the present surface

partial; `Props/Cache`: `C127_ratio_partial`, `C127_since_partial`, `C127_stale_fails`.

Refuted: **C127 fails.** Once rim height or floor depth has been read, they stay those of the elevations at that time, whatever edits of the surface follow, until the crater is tagged, stripped of its region or has its ratio read. Proved part (C127_ratio_partial): **C127, part.** The depth to diameter ratio is always that of the present surface, after any history of edits and readings. Proved part (C127_since_partial): **C127, part.** Rim height and floor depth are those of the present surface when the elevations have not changed since the crater was last tagged, stripped of its region, or had its depth to diameter ratio read. Missing: any other history, see `C127_stale_fails`.

### C128 A saved mesh is recognised by its settings

partial; `Props/GridId`: `C128_injective_partial`, `C128_layout_fails`, `C128_given`.

Refuted: **C128 fails** for what is not part of the identity: every mesh whose superdomain was laid out automatically carries the same factor into the identity as one that was given this factor, but near the antipode the cells of the latter are larger by more than the size of the local cells in metres. Proved part (C128_injective_partial): **C128.** Two sets of settings have the same identity only if they are the same: same kind of mesh, same target name and radius, and the same settings of that kind. It is required that printing is faithful, the hash has no collision and target names contain no colon.

### C129 A new mesh is made exactly when the saved one does not fit

proved; `Props/GridId`: `C129_regrid`, `C129_settings`.

### C130 Elevations outside the local region come from the file the user named

partial; `Props/DataSurface`: `C130_deferred_partial`, `C130_unnamed`, `C130_ignored_fails`, `C130_reused_fails`.

Refuted: **C130 fails.** When the scale factor is given, or found automatically at once (the default), a new mesh gets the elevations of the default file outside the local region, whatever file the user named. Refuted: **C130 fails** also when a saved mesh is used again: the saved elevations stay, whatever file is named now. Proved part (C130_deferred_partial): **C130, part.** When the scale factor is left open at first and found later, and no elevations were saved before or a new mesh is made, the elevations outside the local region come from the file the user named. Missing: every other way of building the surface, see `C130_ignored_fails` and `C130_reused_fails`.

### C131 Missing pixels of elevation files are filled with the mean, in any unit

partial; `Props/DataSurface`: `C131_metres_partial`, `C131_exterior_partial`, `C131_no_reading`, `C131_kilometres_fails`, `C131_units_fails`.

Refuted: **C131 fails** for files in kilometres: the marker is compared after the conversion to metres, so that a missing pixel comes out as 1000 times the marker, for every marker other than zero; inside and outside the local region. Refuted: **C131 fails** for the units: whenever the unit of the file's only band, in any case, contains the word for kilometres but is not this very word in capitals, the elevations are converted to metres outside the local region but not inside. Proved part (C131_metres_partial): **C131, part.** In files in metres every missing pixel gets the mean of the others, which stay as they are, provided there is at least one pixel that is not missing. Missing: files in kilometres, see `C131_kilometres_fails`. Proved part (C131_exterior_partial): The same for the elevations outside the local region, with or without marker.

### C132 A mesh of uniform resolution has the requested number of distinct points

partial; `Props/Uniform`: `C132_count`, `C132_sphere`, `C132_fits_partial`, `C132_coarse_fails`.

Refuted: C132 (no bound is checked): the size of a face may be set to any positive number, but a surface whose faces are wider than about two and a half radii of the body cannot be made: either not one point fits and None is indexed, or two coordinates of the points agree and one of them is dropped, so that the poles no longer fit. Proved part (C132_fits_partial): C132 (which sizes give a mesh): exactly those for which at least two squares of side `pix` fit on the surface.

### C133 Exporting a surface leaves the saved states alone

partial; `Props/SurfaceExport`: `C133_all_partial`, `C133_latest_partial`, `C133_same_partial`, `C133_overwrites_fails`, `C133_negative_fails`, `C133_ask_fails`, `C133_names_partial`, `C133_silent_fails`, `C133_raster_fails`.

Refuted: C133 (an earlier interval is lost): exporting an earlier interval by its number first saves the present surface under that number. The saved state of the interval is gone, its times stay, and what is exported is the present surface. Refuted: C133 (a negative interval makes a new state): given to the surface, a negative number does not only count from the end: the present surface is also saved as an interval of that number, which comes before all others. Refuted: C133 (an error changes the asking mode): if the writer raises an error, the asking mode given for one export stays. Refuted: C133 (silence): a driver that is none of these writes nothing, reports nothing and is no error, although with an interval given the present surface is saved. The names of two drivers of the table are not in upper case, and the short name for shapefiles, which `to_vector_file` accepts, is not in the table. Refuted: C133 (rasters replace files): the default export of a simulation writes a raster, and an existing raster is overwritten whatever the user answers. Proved part (C133_all_partial): C133 (all intervals): exporting without naming an interval changes no saved state, writes every saved state with its own data, and leaves the asking mode as it was. Proved part (C133_latest_partial): C133 (the present interval): exporting a simulation without naming an interval writes the present state under the present interval number, and saves that state with its times; all other saved states stay as they were. Proved part (C133_same_partial): C133 (an interval named): the saved states of the other intervals stay as they were; if the surface is in the state that was saved for the interval, so does that one, and the export is made of it. Proved part (C133_names_partial): C133 (names of drivers): the name of a driver is accepted in any mixture of upper and lower case, and then all saved states are exported.

### C134 Rasters are as fine as the mesh

partial; `Props/SurfaceExport`: `C134_global`, `C134_region_partial`, `C134_border_fails`.

Refuted: C134 (regions are blurred): the border of four faces is added to the extent of the raster but not to its number of pixels, so that every pixel is wider than a face whenever the region is a whole number of faces across; for a region ten faces across it is 1.8 faces wide. Proved part (C134_region_partial): C134 (regions): a pixel of the raster of a region is at most wider than a face by the part four faces have of the radius of the region.

### C135 Noise added to a surface has the requested height

partial; `Props/Noise`: `C135_bound_partial`, `C135_linear`, `C135_amplitude_fails`.

Refuted: C135 (far too low): the height is divided by the radius of the body, as the coordinates are, but the noise is added to the elevations without multiplying by the radius again. On every body of more than four kilometres radius, noise of any height changes no elevation by as much as a thousandth of that height; on the Moon noise of one kilometre is less than three millimetres high. Proved part (C135_bound_partial): C135 (bound): no elevation changes by more than four times the height of the noise over the radius of the body.

### C136 Diffusion applies the whole amount asked for

proved; `Props/DiffusionTime`: `C136_whole_time`.

### C137 Operations on a surface with a local region act on the local region only

partial; `Props/Overlap`: `C137_shared`, `C137_masks`, `C137_aligned`, `C137_diffusion`, `C137_uniform_diffusion`, `C137_collapse_noise`, `C137_tags`, `C137_identifiers`, `C137_margin_fails`.

Refuted: C137, the gap: regions keep the edges of their inner faces only, so a region and the local region can share faces of their margins without an edge; those faces are then left out of every operation, for example they are not tagged. The witness is a chain of faces with the edge `i` before face `i`: the region around face 0 and the local region around face 2, which share face 1.

### C138 A plot label shows the numbers of the state that is plotted

partial; `Props/Label`: `C138_present_partial`, `C138_saved_partial`, `C138_not_saved`, `C138_from_end_fails`, `C138_diameter`, `C138_units_exact_partial`, `C138_metres_fails`.

Refuted: C138, the gap: a state counted from the end, as in `plot(interval=-1)`, is read and drawn, but its label has neither time nor age, whatever was stored. Refuted: C138, another gap: the diameter of the N(D) piece is documented in kilometres, but with diameters in metres (`D_conversion_factor = 1`) it is taken in metres: here N(1) is 1000 times as large as it should be. Proved part (C138_present_partial): C138, for the present state: with diameters in kilometres the label shows the present interval, time, age and number of craters, as far as they are asked for and known. Proved part (C138_saved_partial): C138, for a saved state given by its number: the label shows what was stored with it. Proved part (C138_units_exact_partial): C138, exactly when the number shown is the one for the diameter in kilometres, for every unit of diameter: the label gives the number of craters above `d` of the production function's own units, which is the number above `d` kilometres exactly if the production function has equally many craters above both.

### C139 A region shows its own part of the mesh data

partial; `Props/Attr`: `C139_slice_partial`, `C139_other`, `C139_read_back_partial`, `C139_kind_fails`.

Refuted: On a mesh with as many nodes as faces the values of nodes are not available: the numbers of the region's faces are used to pick nodes, without any error, whatever the region and the values. Such a mesh, with three edges at each node, has four faces. Proved part (C139_slice_partial): On every such mesh, a variable on faces, nodes or edges read through a region has exactly the values of the region's faces, nodes or edges, in the order of the region. What is missing: meshes of other shape, see `C139_kind_fails`. Proved part (C139_read_back_partial): What is put in through a region is what is read through it: after an overwrite with data of the size of the region's faces (nodes) the region shows exactly these data, whether the variable existed (of this kind) or not, and another region shows the old values wherever it does not overlap. `hd`: the region has not as many nodes as faces.

### C140 The production function belongs to the target body

partial; `Props/Defaults`: `C140_named_partial`, `C140_default_fails`, `C140_guide_fails`, `C140_version_default_fails`, `C140_version_fails`, `C140_case`, `C140_version_partial`, `C140_valid`.

Refuted: Without a production function the lunar one of Neukum is used for every target body, also for Mars, for the bodies documented to have a function of projectiles, and for those documented to have a power law. Refuted: The user guide promises Neukum's function for Vesta and Ceres as well; they never get it, whatever is asked for by this name: always a power law. Refuted: A version given with the default production function is an error. Refuted: The version is not obeyed: for every target body, any version other than the exact word `projectile` is ignored, also if it names another body or is the documented spelling `Projectile`; and without a target, any version other than this word and the names of the two bodies gives the lunar function. Proved part (C140_named_partial): Asked for by the name `neukum` (in any case) and without a version, the documented function of the body is used, whatever the body. What is missing: the default, see `C140_default_fails`. Proved part (C140_version_partial): The version is obeyed when it is `projectile` and the body one of the five, and when it is `Moon` or `Mars` and no target is given.

### C141 The projectiles belong to the target body

partial; `Props/Defaults`: `C141_default_partial`, `C141_default_fails`, `C141_velocity`, `C141_main_belt`, `C141_generic`.

Refuted: For Phobos, Deimos and Arrokoth, which are in the catalogue of targets, neither asteroids nor comets are used but generic projectiles of 20 km/s. Proved part (C141_default_partial): Without a projectile model, asteroids are used for the documented rocky bodies, and comets for every other body that the comets know. What is missing: bodies of neither list, see `C141_default_fails`.

### C142 N(D) values are understood in the units of the object

partial; `Props/Units`: `C142_units`, `C142_accepted`, `C142_reading`, `C142_assigned`, `C142_constructor_partial`, `C142_constructor_fails`, `C142_powerlaw_fails`.

Refuted: Craters given to the constructor with other units are understood in the default units all the same: for numbers per km², one million times too low. Refuted: A power law cannot be constructed with a prescribed crater given by a number: the coefficients of the function are not set yet. Proved part (C142_constructor_partial): Craters given to the constructor are understood in the units given to it if these are the default ones and the function is Neukum's. What is missing: other units and the power law, see `C142_constructor_fails` and `C142_powerlaw_fails`.

### C143 A table of craters is read as it is written

partial; `Props/CsvRead`: `C143_cells_partial`, `C143_location`, `C143_measured_location`, `C143_time`, `C143_number`, `C143_rows`, `C143_arguments`, `C143_name_fails`, `C143_unreadable`, `C143_incomplete_fails`, `C143_integer_fails`.

Refuted: C143 refuted (text): a name that reads like a number, such as that of the asteroid or crater "1054", does not come back as the text that was written: every such name is turned into a number. Refuted: C143 refuted (pairs): a row with a longitude and an empty latitude is accepted without an error, and the longitude is dropped: the crater gets no location from the file. Refuted: C143 refuted (integers): a sequence number in a cell that `int` rejects (for instance `3.0`, as spreadsheets may write it) makes reading the whole file fail, whatever the other rows hold. Proved part (C143_cells_partial): C143 (numbers): a filled cell with a number gives that number under the column's name, for every column other than the integer columns and the tuples; the integer columns give the integer; an empty or missing cell gives nothing.

### C144 Reported face sizes describe the mesh

proved; `Props/MeshSize`: `C144_faces`, `C144_statistics`, `C144_total`.

### C145 The level of an icosphere decides its mesh and nominal size

partial; `Props/MeshSize`: `C145_counts`, `C145_nominal`, `C145_level_partial`, `C145_level_fails`, `C145_read_partial`, `C145_history`, `C145_read_fails`, `C145_arbitrary`.

Refuted: C145 (setting) refuted: a value that is not a whole number is not rejected, although the message says that the level must be a non-negative integer; it is cut down to the whole number below. Refuted: C145 (histories) refuted: a new level takes effect or not depending on whether the size was read before. After reading it, the new level leaves it unchanged; without reading it, the size changes although the mesh is still the old one. Proved part (C145_level_partial): C145 (setting): a level is accepted exactly when it is not negative, and a whole number is kept. Proved part (C145_read_partial): C145 (histories): as long as the level is not assigned again, the nominal size is that of the mesh, however often it has been read.

### C146 A local region is covered by a complete grid of points and surrounded by rings

proved; `Props/Rings`: `C146_grid`, `C146_grid_ends`, `C146_inside`, `C146_distinct`, `C146_rings`, `C146_rings_end`, `C146_outside`, `C146_spacing`, `C146_antipode`, `C146_separate`.

### C147 An ellipse fit finds the best ellipse

proved; `Props/EllipseFit`: `C147_least`, `C147_error`, `C147_succeeds`, `C147_exact`, `C147_parabola`.

### C148 An ellipse fit with a fixed centre finds the best ellipse around it

proved; `Props/EllipseFit`: `C148_least`, `C148_error`, `C148_succeeds`, `C148_exact`.

### C149 The error of an ellipse fit is the distance of the points from the ellipse

partial; `Props/EllipseFit`: `C149_zero_partial`, `C149_rms_fails`, `C149_nan_fails`.

Refuted: Points that lie exactly on the fitted circle are given an error above zero: the distance of a point is computed from the radius of the ellipse in its direction and does not depend on the distance of the point. Refuted: One weight that is no number makes the error no number, although the point has no part in the ellipse. Proved part (C149_zero_partial): Leaving out points of weight zero changes nothing, neither the ellipse nor the error.

### C150 A rim fit changes only what it is asked to fit

proved; `Props/EllipseFit`: `C150_flags`, `C150_circle`.

### C151 A sample of a production function follows the production function

partial; `Props/Between, Sample`: `C151_between`, `C151_power_law`, `C151_sample`, `C151_law`, `C151_expected_partial`, `C151_overcount_fails`, `C151_no_range_fails`, `C151_single_fails`.

Refuted: The number of craters is drawn for all craters larger than the smallest diameter, but all of them are then given diameters up to the largest: of every size too many craters are expected, by the fraction of craters above the range. Refuted: The documentation says that without a range of diameters the one of the production function is used, but every such call ends in a TypeError. Refuted: A range of a single diameter passes the checks, but no crater can be drawn from it: every sample that is not empty ends in an IndexError. Proved part (C151_expected_partial): The expected numbers are right up to a common factor, which is close to one when few of the craters larger than the smallest diameter are larger than the largest.

### C152 Sampled impact velocities have the mean that is asked for

partial; `Props/Velocity`: `C152_mean_partial`, `C152_escape_fails`, `C152_truncated_fails`.

Refuted: With an escape velocity below the mean, the mean of the sampled velocities is larger than the mean that was asked for. Refuted: With an escape velocity at or above the mean, the mean of the velocities below the escape velocity, which are the ones that are returned, is smaller than the mean that was asked for. Proved part (C152_mean_partial): The mean of the sampled velocities is the mean velocity that is asked for, when there is no escape velocity (missing: with an escape velocity it is not, as the next two theorems show).

### C153 Velocities below the escape velocity follow the truncated Maxwell law

proved; `Props/Velocity`: `C153_law`, `C153_maxwell`.

### C154 The transition factors of a scaling model stay in their ranges

partial; `Props/Recompute`: `C154_bounds`, `C154_deviation`, `C154_recompute`, `C154_ctem`, `C154_off`, `C154_same_fails`, `C154_gravity`, `C154_transition`, `C154_conversions`, `C154_smaller`.

Refuted: The guide says that the CTEM model is the random one with its randomness turned off. It is another law: on every body the two give the same transient diameter for exactly one final diameter of a complex crater.

### C155 Populating samples the same period everywhere on the surface

proved; `Props/Populate`: `C155_window`.

### C156 Populating makes one crater for each sampled diameter, where it was sampled

proved; `Props/Populate`: `C156_craters`.

### C157 Craters form everywhere in proportion to area

proved; `Props/Independent, Populate`: `C157_independent`, `C157_face`, `C157_region`, `C157_poisson`.

### C158 The radial gradient is the outward rate of change

partial; `Props/Radial`: `C158_component`, `C158_half_partial`, `C158_half_fails`, `C158_pole_fails`.

Refuted: So the radial gradient is not the rate of change: on a face with `n ≥ 3` equal neighbours all around, every plane that is not level along the bearing gets another value (half of it). Refuted: Near a pole the radial gradient can have the wrong sign. The stored bearing of a face is the one at the centre of the region, but it is used at the face, where north is another direction. For a region centred near the north pole and a face beyond the pole, a surface that rises away from the centre (with slope `s > 0`) gets the negative value `-s / 2`. Proved part (C158_half_partial): Where the neighbours have no preferred axis, the radial gradient of a plane is half its rate of change along the bearing that the region stores for the face.

### C159 Lengths, areas and positions belong to the present body

partial; `Props/Geometry`: `C159_reads_partial`, `C159_early_partial`, `C159_smallest_partial`, `C159_stale_fails`, `C159_mixed_fails`.

Refuted: Whatever has been read once stays as it was for the old target: after any reads, a new target changes nothing about the property read last. Refuted: Areas of one body can then be combined with lengths of another: when the areas were read before the new target and the edge lengths after it, the areas are those of the old body and the lengths those of the new one. Proved part (C159_reads_partial): As long as the target is not replaced, every property is that of the sphere with the target's radius, whichever properties are read, in whatever order and however often. Proved part (C159_early_partial): A new target given before anything is read counts as well. Proved part (C159_smallest_partial): The smallest length is 10⁻⁵ times the size of some face, and no face is smaller.

### C160 Raised positions lie above the point of the surface

proved; `Props/Geometry`: `C160_raised`, `C160_export`.

### C161 Every variable keeps its own column in a shapefile

partial; `Props/Shapefile`: `C161_short_partial`, `C161_layers_fails`, `C161_crater_id_fails`, `C161_geometry_fails`, `C161_ten`, `C161_spelling_fails`, `C161_names`, `C161_standard_partial`, `C161_alias`.

Refuted: The layers of a variable whose name has nine characters or more all get the same column in a shapefile: what tells them apart is cut off. Refuted: In particular those of the ids of the craters that a surface carries as soon as craters are counted: with two layers or more the columns of a shapefile are never distinct. The rule that leaves out variables whose names start with `id` does not apply to `crater_id`. Refuted: The column of the geometry is renamed as well: in a shapefile's table no column is called `geometry`, for any variables. Refuted: The limit is not kept for any other spelling of the driver, which is accepted as well: all names are written as they are. Proved part (C161_short_partial): Names in lower case with at most ten characters that contain none of the long names keep columns of their own, whatever their number. Proved part (C161_standard_partial): The usual variables on the faces keep different columns, in any selection and order. Missing for the full property: other long names, see the theorems above.

### C162 Reading an interval gives the surface as it was saved

partial; `Props/SurfaceSave`: `C162_never_fails`, `C162_saved_partial`, `C162_added`, `C162_others`, `C162_stale_fails`.

Refuted: Saving a surface never fails: neither does any history of changes and saves. Refuted: The full claim fails: a variable that the surface had at an earlier save of the same interval, and no longer has, is read back as if it belonged to the new state. Proved part (C162_saved_partial): After a save, and whatever happens later to the surface and to other intervals, reading the interval gives the values the surface had at the save, and the time variables that were given. What is missing from the full claim: a variable that was in the file before and that the surface no longer has is still there (`C162_stale_fails`).

### C163 Saving a region leaves the saved surface usable

partial; `Props/SurfaceSave`: `C163_refused_partial`, `C163_created_partial`, `C163_fails`.

Refuted: Saving a region is not harmless: whenever there is no file of the interval yet, saving a region with fewer faces than the surface makes one in which a variable has the values of the region only, and saving the whole surface for that interval is an error from then on, whatever its data are by then. Proved part (C163_refused_partial): Saving a local region when the file of the interval already holds data on the faces of the whole surface is an error that changes nothing, unless the region has as many faces as the surface. Proved part (C163_created_partial): Saving a local region when there is no file of the interval makes one that holds the values of the region as if they were the state of the whole surface. Without an interval number it is interval 0.

### C164 A file named by the user keeps all intervals saved to it

partial; `Props/SurfaceSave`: `C164_last_partial`, `C164_apart`, `C164_fails`.

Refuted: The full claim fails: saving a second interval to the same file erases the values of the first, although the file still lists both intervals. Proved part (C164_last_partial): A file with a given name holds the interval saved last, whatever was in it.

### C165 A copy of a crater has the measured size it is given, or else that of the original

partial; `Props/CraterCopy`: `C165_kept_or_diameter`, `C165_ellipse_partial`, `C165_radius_fails`, `C165_axes_fails`.

Refuted: The full claim fails: a measured radius given to a copy of a circle is lost if it is smaller than the old one, and otherwise makes an ellipse with the old radius as the other axis. Refuted: The full claim fails: measured axes given to a copy of a circle are lost. Proved part (C165_ellipse_partial): If the original is not a circle, a copy has the measured radius or the measured axes that it is given; a single axis is combined with the other axis of the original. Missing from the full claim: originals that are circles, see `C165_radius_fails` and `C165_axes_fails`.

### C166 A crater made with a size is measured with this size

partial; `Props/CraterCopy`: `C166_new`, `C166_single`, `C166_resized_partial`, `C166_smaller_fails`.

Refuted: The full claim fails: a crater made from a circle with a smaller size is measured as an ellipse with the old radius as its semimajor axis. Proved part (C166_resized_partial): A crater made from another one with a new size has measured axes equal to the new axes, except exactly when the original was a circle with a radius larger than the new semimajor axis.

### C167 Assigned attributes of a crater read back, None clears them, others stay

partial; `Props/CraterCopy`: `C167_measured`, `C167_prescribed_partial`, `C167_rejected`, `C167_clear_fails`.

Refuted: The full claim fails: None does not clear a prescribed time, number, sequence number or name. Proved part (C167_prescribed_partial): Prescribed times, numbers, sequence numbers and names read back: a single time has deviation zero, as has a pair of diameter and number; nothing else changes.

### C168 A converted crater keeps all its variable attributes

partial; `Props/CraterCopy`: `C168_converted_partial`, `C168_same_point`, `C168_minor_fails`.

Refuted: The full claim fails: a crater keeps its measured axes in a conversion exactly if it has a measured semimajor axis or no measured semiminor axis either; otherwise it has none afterwards. Proved part (C168_converted_partial): Converting a crater with any history keeps all its variable attributes, except that a measured semiminor axis is lost if there is no measured semimajor axis, and that a location whose longitude was left out of range is normalised again.

### C169 The ejecta layer is what all craters deposited minus what later craters removed

partial; `Props/EjectaLayer`: `C169_history_partial`, `C169_interior`, `C169_nonneg`, `C169_outside_fails`.

Refuted: The full claim fails: whatever the mesh, the crater that is formed and the ejecta already there, on a face that lies outside the rim but touches one inside nothing is left of the older ejecta: afterwards it holds the deposit of this crater only. Proved part (C169_history_partial): After any history of craters the thickness on each face is what was there before plus what all craters deposited, in each case without what later craters removed; only craters that are formed count, and they are recorded in order; nothing else changes. A crater removes the ejecta from the faces with centres inside its rim and from all faces that touch these. Missing from the full claim: only ejecta inside the rim should be removed, see `C169_outside_fails`.

### C170 Exactly the craters that are larger than the face at their centre are formed

partial; `Props/EjectaLayer`: `C170_formed_partial`, `C170_area_fails`, `C170_raises_fails`.

Refuted: The full claim fails: every crater with a face near its centre is formed if it has less than the area of the face at its centre but more than four ninths of it. Refuted: The full claim fails: if the nearest face is within one and a half times the radius, but not within reach of the ejecta, a crater that is large enough ends in an error. Proved part (C170_formed_partial): A crater is formed exactly if a face lies within one and a half times its radius (or that is half way around the target) and two and a quarter times its area exceeds that of the face at its centre. Missing from the full claim: the area compared should be that of the crater, see `C170_area_fails`, and it should not fail, see `C170_raises_fails`.

### C171 A crater shows the mesh it lies on

partial; `Props/CraterState`: `C171_shows_partial`, `C171_kept`, `C171_mesh_fails`.

Refuted: On another mesh the crater is a mixture: it is still said to be large enough, although there is no region for it on that mesh; `form_crater` then fails with an AttributeError. Proved part (C171_shows_partial): A new crater shows what the mesh gives, whatever is read and given up before, in whatever order, as long as there is no other mesh: nothing before the surface has data, the right values afterwards. Missing: after a change of the mesh the values are wrong, see `C171_mesh_fails`.

### C172 Emplacing changes the surface it is asked to change

partial; `Props/CraterState`: `C172_surface_partial`, `C172_other_fails`, `C172_empty_fails`.

Refuted: A crater object that was made for another surface is dug into that other surface, but listed among the craters of this one. Refuted: An empty list, for instance of a period without craters, is rejected. Proved part (C172_surface_partial): A crater, a list or tuple of craters or keyword arguments: every crater is returned, in order, and those that are large enough are dug into the surface and listed, in order, and no other surface changes. Missing: craters made for another surface and the empty list, see `C172_other_fails` and `C172_empty_fails`.

### C173 Rays become fewer and narrower with distance

partial; `Props/Rays`: `C173_lengths_partial`, `C173_longest_fails`, `C173_width`, `C173_count`, `C173_count_fails`.

Refuted: The first two rays are longer than the greatest extent of the rays. Refuted: The number of rays that the intensity is divided by is not the number of rays that reach the distance: three rays reach the greatest extent, where the number is one. Proved part (C173_lengths_partial): Rays have different lengths, the first being the longest; all are longer than the shortest possible ray, and the third ends where the ejecta are cut off. Missing: the first two go on beyond, see `C173_longest_fails`.

### C174 Populating with lunar elevation data covers the whole surface or region

partial; `Props/Lola`: `C174_global_partial`, `C174_fine_fails`, `C174_region_partial`.

Refuted: At finer resolutions, for every such pixel size, the point 10° N, 90° E is in none of the files, and one of the files does not exist. Proved part (C174_global_partial): On a global surface, at most 192 pixels per degree (pixels of at least 158 m): the files added all exist, and every point of the Moon is covered by one of them. Missing: finer resolutions, see `C174_fine_fails`. Proved part (C174_region_partial): For a local region of at most 15° around a point of the equator, or one that contains a pole and lies beyond 60° (but does not lie within 2.5° of the pole), every point of the region is in one of the files. Missing: other regions, the longitudes of which are underestimated, see `C64_longitude_fails`; regions across 60°, see `C53_straddle_fails`.

### C175 The local region consists of faces of the present mesh

partial; `Props/LocalIndex`: `C175_region_partial`, `C175_stale_fails`, `C175_torn_fails`, `C175_crash`, `C175_again_fails`.

Refuted: In a directory with a surface made for other settings: a crash after the new grid is written, and the next start, with the same settings, silently takes the faces with the numbers determined for the old mesh. Refuted: After a crash while the indices are written, every later start with these settings raises, with a forced new grid as well, until the file is removed by hand. Refuted: Loading again in the same process with settings that give another mesh, as `set_superdomain` does on a surface that was made with a scale factor, keeps the numbers of the faces of the old mesh; and so does every later start. Proved part (C175_region_partial): As long as every process gets through making its surface, and makes it once, the local region always consists of faces of the present mesh that were determined for its settings, whatever surfaces, also of other kinds, were made in the directory before. Missing: crashes, see `C175_stale_fails` and `C175_torn_fails`; a second loading in the same process, see `C175_again_fails`.

### C176 The data of a surface tell its local faces

partial; `Props/LocalIndex`: `C176_flags_partial`, `C176_reset_fails`.

Refuted: With a reset, which is the default, the marks are removed again at once. Proved part (C176_flags_partial): A surface made without a reset has the marks of the local faces and nodes, and all the variables of the data that was read, or, with a new mesh, the initial ones. Missing: with a reset, the default, see `C176_reset_fails`.

### C177 Mesh files show the surface or region that was exported

partial; `Props/VtkFiles`: `C177_states_partial`, `C177_grid_iff_partial`, `C177_grid_fails`, `C177_negative_fails`.

Refuted: The full claim fails: after any number of exports of regions, in whatever order, the geometry file is that of the first one. Refuted: The full claim fails: every number below -1 raises, although the state it means has been saved and read. Proved part (C177_states_partial): Without an interval, with the number of an interval, or with -1 for the last one: the call succeeds exactly if such a state has been saved; then the file of each state asked for holds that state on the present mesh, unless there was a file already and the user declined to replace it; no other file of an interval changes. Missing: intervals counted further from the end, see `C177_negative_fails`, and the geometry file, see `C177_grid_iff_partial`. Proved part (C177_grid_iff_partial): The geometry file shows the present mesh exactly if there was none before, or one of the same mesh.

### C178 A plot of an interval shows the saved state

partial; `Props/Plot`: `C178_interval_partial`, `C178_negative_partial`, `C178_refused_partial`, `C178_last_fails`, `C178_width_fails`, `C178_width_partial`.

Refuted: **C178 fails** for the last number: whatever is in memory is drawn, under the number of the saved state. A plot of the last saved interval after more craters have been emplaced (and not saved) shows the new craters, and is filed as that interval; asked for as `-1` the same interval is drawn as saved. Refuted: **C178 fails** without a minimum width, which the documentation gives as the way to turn the minimum off: every such plot raises. Proved part (C178_interval_partial): **C178** (proved part). Without an interval a plot shows the data in memory, and its file carries no number. For a number of a saved state it shows that state, under that number — provided the number is not the last one, or the data in memory is what was saved last. Proved part (C178_negative_partial): **C178** (proved part). A negative interval counts back from the last saved state, and is drawn as saved, under its own number; this includes the last one. Proved part (C178_refused_partial): **C178** (proved part). A number that is not that of a saved state is refused, and so is every interval if nothing is saved or if it counts back too far. Proved part (C178_width_partial): With a minimum width the picture is at least that wide and at least one dot per pixel of the raster, and no larger than the larger of both.

### C179 The scale bar states its length and covers nothing of the region

partial; `Props/Plot`: `C179_bar_partial`, `C179_exists_partial`, `C179_small_fails`.

Refuted: **C179 fails** for regions smaller than about three metres: there is no length to choose, and the plot raises unless the scale bar is turned off. Proved part (C179_bar_partial): **C179** (proved part). The text at the scale bar states the length of the bar; the bar lies inside the picture, which reaches from `-R` to `R` in both directions, and outside the disc of radius `R` around its centre — so it covers nothing of the region; and it is the longest of the lengths the code chooses from that is at most `R / (2 √2)`. Proved part (C179_exists_partial): There is a scale bar exactly if the picture reaches at least `2 √2` metres from its centre.

### C180 The three-dimensional view shows the whole region

partial; `Props/Plot`: `C180_in_view_partial`, `C180_visible_partial`, `C180_hidden_fails`.

Refuted: **C180 fails** for regions of the size of a hemisphere: a point a quarter of the way round from the centre belongs to the region, but the body is in front of it, however wide the view. Proved part (C180_in_view_partial): **C180**. The camera looks at the region so that all of it is in the picture: let `p` be the centre of the region and `c` that of its face, all on a body of radius `R`. If the centre of the face is within a fifth of the radius `r` of the region from `p`, every point `P` within `r` of `p` along the surface is seen at an angle of at most half the angle of view from the centre of the picture. Proved part (C180_visible_partial): **C180**. None of these points is hidden behind the body, if the region is at most five sixths of the radius of the body and the angle of view at most a right angle (it is 30 degrees unless changed): the line from the point to the camera stays outside the body.

### C181 The key j cycles through all variables

partial; `Props/Plot`: `C181_cycle_partial`, `C181_reached_partial`, `C181_empty_fails`.

Refuted: **C181 fails** without variables on the faces: the first press raises. Proved part (C181_cycle_partial): **C181** (proved part). If there are variables on the faces, pressing the key goes round: the plain surface, then every variable in order, then the plain surface again. From any place `i` of this round `k` presses lead `k` places on. Proved part (C181_reached_partial): Every variable is reached from every place, within one round.

### C182 A raster shows the value of a face at each pixel

partial; `Props/Plot`: `C182_region_partial`, `C182_surface_fails`, `C182_antimeridian_fails`.

Refuted: **C182 fails** for the method of the surface: it passes on the name of the variable where the values are expected, so that it raises for every variable of every surface. Refuted: **C182 fails** for whole surfaces even when values are given: a pixel that is touched only by faces across the antimeridian is left empty, whatever their values. Proved part (C182_region_partial): **C182** (proved part). The raster of an array on the faces of a region: a pixel that shows a number shows the value of a face that touches it, and the last such face with a value; a pixel shows none exactly if no face with a value touches it.

### C183 Profile functions take numbers, lists and arrays of any shape

partial; `Props/ProfileCall`: `C183_profile_partial`, `C183_ejecta_partial`, `C183_whole_fails`, `C183_rays_partial`, `C183_list_fails`, `C183_grid_fails`.

Refuted: **C183 fails** for whole numbers: the crater profile at a distance of, say, 5000 metres raises when the distance is written without a decimal point, as do lists of whole numbers, because the reference elevations become whole numbers too; arrays of whole numbers raise in every function. Refuted: **C183 fails** for the functions with rays on anything but arrays: numbers, lists and tuples, which the documentation allows, raise. Refuted: **C183 fails** for the ejecta with rays on a grid of distances with more than one row and more than one column: it raises, although the intensity alone can be computed on it. Proved part (C183_profile_partial): **C183** (proved part). Without reference elevations, the crater profile of floats — a number, a list or an array of any shape, but not empty — is an array of the same shape (one element for a number), and each element is what the function gives for that distance alone. Proved part (C183_ejecta_partial): **C183** (proved part). The ejecta profile of numbers and lists, of whole numbers or floats, and of arrays of floats, is an array of the same shape (one element for a number), and each element is what the function gives for that distance alone. Proved part (C183_rays_partial): **C183** (proved part). The ejecta with rays at one-dimensional arrays of floats: as many thicknesses and intensities as points, and each thickness is the thickness without rays times the intensity.

### C184 The ray pattern does not depend on where it is evaluated

partial; `Props/ProfileCall`: `C184_ratio_partial`, `C184_alone_fails`, `C184_far_fails`.

Refuted: **C184 fails**: the intensity at a point depends on the points that are asked for with it. Alone, every point outside the crater that any ray reaches has the intensity 1. Refuted: **C184 fails**: a point that no ray reaches has intensity 0 if some point with a ray is asked for with it, and is not a number alone. A point on the rim and a point 102 radii away, with the same random numbers. Proved part (C184_ratio_partial): **C184** (proved part). With the same random numbers, the ratio of the intensities of two points outside the crater is the same, whichever other points are asked for with them.

### C185 A new crater replaces the ground within its rim and keeps the ground outside

proved; `Props/CraterShape`: `C185_inside`, `C185_outside`, `C185_small`, `C185_erases`, `C185_level`.

### C186 An exported spatial crater count holds every crater, its share in the region, and reads back

partial; `Props/SccFile`: `C186_readback_partial`, `C186_fraction`, `C186_share_partial`, `C186_area`, `C186_moved_fails`, `C186_unmeasured_fails`.

Refuted: A crater is tested against the region by where it was made, but measured and written where it was found: every crater that was made far enough inside is written as lying wholly in the region, wherever it was found and whatever the share of its outline. Refuted: A crater without a measured diameter or place ends the export with an error; the lines of the craters before it stay in the file, those after it are not written. Proved part (C186_readback_partial): Every measured crater gets one line, in order, and reading the file gives the measured diameters and places back. Proved part (C186_share_partial): For a crater that was measured where it was made, the fraction is the share of its outline that lies within the region.

### C187 Going by distance and bearing, and measuring again

partial; `Props/Points`: `C187_distances_partial`, `C187_bearings`, `C187_two_fails`, `C187_accepted`, `C187_each`.

Refuted: Two places reached cannot be measured: the list of two tuples that is returned is taken for one pair of numbers, and measuring raises a `TypeError`. Proved part (C187_distances_partial): Going out from a place by distances up to half the circumference, in any directions, and measuring the distances of the places reached gives the distances gone, in their order, whatever the place is. Missing from the full statement: exactly two places, which cannot be measured at all (`C187_two_fails`).

### C188 Prescribed craters are emplaced once over interruptions

partial; `Props/Prescribed`: `C188_once_partial`, `C188_session`, `C188_redrawn_fails`, `C188_file_partial`, `C188_reassigned_fails`, `C188_list_fails`.

Refuted: A crater with an uncertain time is drawn again whenever the simulation is opened: it can be emplaced twice, or not at all although both times drawn are in the period of the run. Refuted: A file assigned after the simulation has been opened again is used until the process ends, but is not the one found at the next start, because the configuration is not written any more: a crater whose turn comes after that is never emplaced. Refuted: Craters given as a list are gone when the simulation is opened again: whatever the times, none of them is emplaced afterwards. Proved part (C188_once_partial): A simulation made with a file of prescribed craters emplaces each of them exactly once, if its time is in the period of the run, however often the process ends and the simulation is opened again, provided the time is given without uncertainty. Missing from the full statement: uncertain times (`C188_redrawn_fails`), craters given as a list (`C188_list_fails`) and files assigned after the simulation was opened again (`C188_reassigned_fails`). Proved part (C188_file_partial): The same for a file that is assigned to a new simulation, from the first round on, which saves the simulation; whatever was assigned before.

### C189 Prescribed craters are used whenever they were assigned

partial; `Props/Prescribed`: `C189_assigned_partial`, `C189_late_fails`, `C189_flag`.

Refuted: After the first round of a session without prescribed craters, assigned craters are never emplaced: the decision is kept. Setting `do_quasimc` to true helps. Proved part (C189_assigned_partial): Craters assigned, as a list or by a file, before the first round of the session, or after `do_quasimc` was set to true, are emplaced once each by the rounds that follow, whatever was assigned before. Missing from the full statement: craters assigned after a round that had none (`C189_late_fails`).

### C190 A map of crater counts for an interval shows the craters saved for it

partial; `Props/CountPlot`: `C190_interval_partial`, `C190_now`, `C190_from_end`, `C190_emplaced_fails`, `C190_stale_fails`.

Refuted: C190 fails: a map of an interval with saved emplaced craters, when emplaced craters were also saved later, is never drawn: the code asks `None` for its intervals (`counting/__init__.py` line 700: `emplaced.interval` for `emplaced_ds.interval`) and raises. Refuted: C190 fails: the interval saved last is drawn from memory, also when the lists have changed since: after a round without craters (for which no file is written) the map of the round before shows none of the craters emplaced in it. Proved part (C190_interval_partial): C190. A map of the crater counts for an interval shows exactly the observed and the emplaced craters saved for it, **provided** the lists in memory are still those saved last (for each kind of which the interval is the last one saved) and the emplaced craters of the interval need not be read from a file.

### C191 A three-dimensional view shows the kinds of craters asked for

partial; `Props/CountPlot`: `C191_observed_partial`, `C191_emplaced`, `C191_both_fails`, `C191_color_fails`, `C191_list_fails`, `C191_keys`.

Refuted: C191 fails: a view of both kinds shows only the emplaced craters, whatever the interval, style and colours: the actors of both kinds are named after the argument (`counting/__init__.py` line 841), so that the second replaces the first. Refuted: C191 fails: one colour for both kinds, which is accepted for each of them, raises for both. Refuted: C191 fails: a list of craters, which the documentation allows, raises for lack of names. Proved part (C191_observed_partial): C191. A three-dimensional view of the observed craters of an interval adds one actor, with these craters in the first colour given and their measured properties, and leaves what else the plotter shows; it adds nothing if none were saved for the interval.

### C192 Projected coordinates of faces and the region's coordinate system agree

partial; `Props/Projection`: `C192_forward`, `C192_close_partial`, `C192_back`, `C192_inverse`, `C192_fails`, `C192_area`.

Refuted: C192 fails: the projected coordinates of a face are not those of the coordinate system of its region: turned into longitude and latitude they give, for every face off the centre (and nearer than two radii of the body), a point in the same direction but farther from the centre. `set_face_proj` uses distances along the surface, `get_crs` an equal-area projection (called equidistant in the comments); the rim fit takes its start and its result through the one and the faces through the other. Proved part (C192_close_partial): C192. The projected coordinates of a face and what the transformation makes of its longitude and latitude have the same direction; their distance is at most `d³ / (24 R²)` for a face `d` from the centre. **Missing:** they are not the same, see `C192_fails`.

### C193 The projectile version of the Neukum production function is a cumulative distribution

partial; `Props/Projectile`: `C193_projectiles_partial`, `C193_valid_partial`, `C193_zero_fails`.

Refuted: Full statement: every diameter that the function accepts has a value. It is false: "diameter must be greater than or equal to 0.0", but for the diameter zero the conversion of the R values never ends. Proved part (C193_projectiles_partial): **C193, part.** (Missing: the diameter zero, see `C193_zero_fails`.) For every positive diameter the size distribution of the projectiles has exactly one value. It is never negative, it decreases strictly with the diameter below a million kilometres, and from there on it is zero. Proved part (C193_valid_partial): So whatever function returns the values of the calls with positive diameters, the production function of the projectiles is a valid cumulative distribution.

### C194 The Neukum production function gives the chronology's number of 1 km craters

partial; `Props/Projectile`: `C194_ages`, `C194_one_km_partial`, `C194_one_km_fails`.

Refuted: Full statement: the production function gives for 1 km the number of craters of the chronology, which is "the number of craters per square meter greater than 1 km in diameter". It is false for every window: the Moon gets less than 82% of them and Mars less than 42%, because the size distribution is multiplied by a thousand instead of being divided by its value at 1 km. Proved part (C194_one_km_partial): **C194, part.** (Missing: the factor is one, see `C194_one_km_fails`.) For the crater versions the number of craters larger than 1 km that the production function gives for a window is the same fraction of the chronology for every window: a thousand times the number of craters per km² that the size distribution has at 1 km.

### C195 Several diameters and ages at once give the table of the single calls

partial; `Props/ManyAges`: `C195_table_partial`, `C195_refused_fails`, `C195_accepted`.

Refuted: Windows that end after the present are accepted when they are asked for one at a time; as the only element of an array the same window is refused. Full statement: an array is accepted when each of its windows is. Proved part (C195_table_partial): **C195, part.** (Missing: the call is accepted whenever the single calls are, see `C195_refused_fails`.) If a call with any combination of single numbers and arrays is accepted, the result has one number for every diameter and every age, and the number for the `i`-th diameter and the `j`-th age is the result of the call for this diameter, start and end alone.

### C196 A scaling model has the target and projectiles it is made with

partial; `Props/ScalingMaker`: `C196_objects_partial`, `C196_name_fails`, `C196_projectile_fails`, `C196_generic_fails`, `C196_replace_fails`.

Refuted: With the target given by its name, the target of the scaling model is made anew after the construction, so a density (or a material) that was asked for never reaches it, whatever the values. Refuted: With the projectiles given by their name, they are made anew for the Moon, whatever the target is. Refuted: Generic projectiles asked for by name are refused, even with the mean velocity they need. Refuted: An existing scaling model given a new target and new projectiles has these, but its material and constants stay those of the old target, whatever the new one is made of. Proved part (C196_objects_partial): With the target and the projectiles given as objects, or left out, a new scaling model has this target (the Moon when left out) and these projectiles (those of the target when left out), the density that was asked for becomes that of the target, and this is the density the scaling model uses. Missing for the full property: names, see the next theorems.

### C197 The mesh made from elevation data resolves the whole local region

proved; `Props/DemWindow`: `C197_kept`, `C197_square`, `C197_resolved`.

### C198 Every place of a raster lies in exactly one pixel

proved; `Props/Raster`: `C198_global`, `C198_local`.

### C199 A crater lies where it is placed

partial; `Props/Place`: `C199_here_partial`, `C199_relative`, `C199_once`, `C199_first`, `C199_refused`, `C199_stays`, `C199_given`, `C199_moved_fails`, `C199_copy_fails`.

Refuted: A copy that is moved is measured where the pattern is: the measured location, which is used to count and draw craters, is not moved. Refuted: The location of a moved copy is never brought into the range of longitudes, and any number of further numbers is accepted, whereas a crater with a size is brought into the range and refused with further numbers. Proved part (C199_here_partial): A new crater with a size and one location lies there, in whichever of the three ways the location is written, and its measured location is the same unless another is given. What is left out: latitudes beyond the poles.

### C200 The count is kept up to date while craters are emplaced

partial; `Props/Tallies`: `C200_often`, `C200_rims_partial`, `C200_rims_fails`, `C200_few`.

Refuted: If 2000 craters or more are emplaced with `measure_rim=True`, the rims are measured in the first count only: the final count, whose result the user sees, does not measure them. Proved part (C200_rims_partial): The first count measures the rims as asked. What is missing: this holds for no later count.

### C201 A raster file holds the variable and interval asked for

partial; `Props/Geotiff`: `C201_file_partial`, `C201_names`, `C201_succeeds`, `C201_replaced_fails`, `C201_method_fails`, `C201_by_name`.

Refuted: Exporting a second variable replaces the file of the first: the name of the file does not tell the variable. Refuted: The method of the surface itself never writes a file: it calls a method of the view that does not exist. Proved part (C201_file_partial): A raster export of a view writes, for every interval that is meant, a file that holds the raster of the variable asked for in the state saved for that interval, and changes no other file. Missing from the full statement: the export of a whole surface by its own method (`C201_method_fails`), and the files of other variables, which are replaced (`C201_replaced_fails`).

### C202 Every pixel of a raster shows a face that reaches it

partial; `Props/Geotiff`: `C202_pixel_partial`, `C202_inside`, `C202_seam_fails`.

Refuted: In the raster of the whole surface a pixel that only faces across the antimeridian reach is blank, although they have values. Proved part (C202_pixel_partial): A pixel of a raster shows the value of a face that reaches it, the last one of these, and it is blank only if there is none, faces across the antimeridian in the raster of the whole surface apart. Missing from the full statement: those faces (`C202_seam_fails`).

### C203 Craters of different sizes and places occur independently

partial; `Props/Joint`: `C203_joint_partial`, `C203_power_law_partial`, `C203_mean_fails`, `C203_between_fails`.

Refuted: The mean is larger than the density of craters of these sizes times the area of the region, in every box that is not empty. Refuted: For a production function that is not a power law the probability of a crater in a region with a size above a diameter between two entries of the table is not the fraction of such craters that the production function has, whatever the mesh and the region (unless it is never hit). Proved part (C203_joint_partial): The numbers of craters in boxes of sizes and regions without common craters are independent of each other and Poisson. The mean is the density of craters of these sizes times the area of the region, too large by the factor that belongs to craters beyond the range; the density is the one of the production function at the 50 diameters of the size table and follows power laws between them. Sizes are those before the noise of 10⁻⁸. Missing from the full statement: a mean without the factor (`C203_mean_fails`), and the density of the production function between the diameters of the table (`C203_between_fails`), unless it is a power law (`C203_power_law_partial`). Proved part (C203_power_law_partial): For a production function that is a power law of the diameter the density is that of the production function at every diameter. Missing: a mean without the factor (`C203_mean_fails`).

### C204 The files given for a data surface settle the size of its faces

partial; `Props/DemFiles`: `C204_smallest_partial`, `C204_automatic`, `C204_refused`, `C204_single_fails`, `C204_unreadable_fails`, `C204_degrees_fails`.

Refuted: **C204 fails** for one file that is not in a list, though it is not refused by the check: for a string the files named by its single characters are opened, and a `Path` raises TypeError. In both cases it has been stored. Refuted: **C204 fails** when a file of the list cannot be opened, or the list is empty: an error is raised, but the list is kept and the size is the one from before. Refuted: **C204 fails** for the unit: for every file whose coordinates are not in metres (degrees for instance, as in most files with longitudes and latitudes) the size of the faces is not the width of a pixel in metres. Proved part (C204_smallest_partial): **C204, part.** With a list of one or more files that can all be opened, the faces of the local region get the size of the finest pixels among these files, whatever size was asked for before, and the list is kept as given. The size is the number written in the file. Missing: a single file that is not in a list (`C204_single_fails`), files measured in degrees (`C204_degrees_fails`), lists that cannot be read (`C204_unreadable_fails`).

### C205 A data surface starts from the elevations of its files whatever happened in its directory

partial; `Props/DemSave`: `C205_restored_partial`, `C205_stuck_fails`, `C205_again_fails`.

Refuted: **C205 fails** for other settings: once the elevations of one region are saved in the directory, a data surface whose mesh has another number of faces or nodes cannot be built there when it needs a new mesh: an error is raised because the elevations of the two meshes cannot be merged into one file. The saved elevations are never replaced, however often and with whatever such settings it is tried. Refuted: **C205 fails** also after that: the directory then holds the new mesh and the old elevations, and building the surface again with the same settings never ends with elevations for all faces and nodes, whether a new mesh is asked for or not. Proved part (C205_restored_partial): **C205, part.** In a directory without saved elevations a data surface starts from the elevations of its files. It does so again whenever it is reset or built again with the same settings, with or without new mesh, whatever happened to it before. Missing: other settings in the same directory, see `C205_stuck_fails`.

### C206 Craters are counted exactly when asked

partial; `Props/CountFlag`: `C206_asked_partial`, `C206_unknown`, `C206_unasked_fails`, `C206_removed_fails`, `C206_switched_fails`, `C206_resumed_fails`, `C206_history`, `C206_simulation`.

Refuted: **C206 fails** without counting object and flag: the documentation says that no counting is done then, but an object is made and every crater is counted. Refuted: **C206 fails** when the counting object is removed with `counting = None`: the next crater, whatever `do_counting` says, is shaped into the surface and then an AttributeError is raised; it has no ejecta and is not listed. Refuted: **C206 fails** when a counting object is assigned to a model for which counting was switched off: it is switched on. Refuted: **C206 fails** when a simulation is resumed: counting that was switched off, which the configuration file says, is switched on unless the argument is given again. Proved part (C206_asked_partial): **C206, part.** When the morphology model is made with `do_counting` true or false, or with a counting object, every crater formed afterwards is listed as emplaced, and counted exactly when `do_counting` is not false; the assignments of `do_counting` that follow are obeyed in the same way. A counting object that is given is the one used. Missing: without counting object and flag (`C206_unasked_fails`), when the counting object is removed or assigned later (`C206_removed_fails`, `C206_switched_fails`), and when a simulation is resumed (`C206_resumed_fails`).

### C207 The outline of a local region can be written to a file

partial; `Props/RegionPolygon`: `C207_region_fails`, `C207_whole_partial`.

Refuted: **C207 fails**: for every local region and every driver a ValueError is raised and nothing is written, because the table is given one row and two row numbers. Proved part (C207_whole_partial): **C207, part.** For the whole surface nothing is written; an unknown driver is refused with ValueError. Missing: local regions, see `C207_region_fails`.

### C208 The number of intervals of a run does not change the statistics of its craters

proved; `Props/Schedule`: `C208_schedule`, `C208_functions`.

### C209 Results do not depend on how the work is shared between threads

partial; `Props/Parallel`: `C209_collect`, `C209_ends`, `C209_sum_partial`, `C209_rays_partial`, `C209_sum_fails`.

Refuted: The intensity of the rays depends on how the threads share the work: the same contributions of the five rays give 1 when one thread adds them from left to right, and the next larger number of double precision when they are added in halves, as with another number of threads or another one being free. So a run with the same seed need not give the same surface to the last digit. Proved part (C209_sum_partial): In exact arithmetic a sum does not depend on how it is divided. Missing: the sums of the ray pattern are sums of rounded numbers, where it does, see `C209_sum_fails`. Proved part (C209_rays_partial): How far apart two evaluations of the intensity of the rays at a place can be: at most `2 ^ -48` of it. Missing: they can be different, see `C209_sum_fails`.

### C210 A generator, seed or state that is assigned is used from then on, by all parts of a simulation

partial; `Props/RngShare`: `C210_one_sequence`, `C210_continues`, `C210_parts`, `C210_generator_partial`, `C210_seed_fails`, `C210_state_fails`, `C210_parts_fails`, `C210_none_seed_fails`, `C210_none_fails`.

Refuted: Assigning a seed changes no later draw of any object. Refuted: Assigning a state changes nothing: it is accepted without an error, whatever it is, the state that is read back is the old one, and all objects draw what they would have drawn. Refuted: Assigning a generator to a simulation leaves its parts with the old one: the part goes on with the sequence the simulation had before. Refuted: Assigning None asks, as documented, for a new generator from the seed. With a seed it raises ValueError. Refuted: Without a seed the new generator is a twin of the old one: the object draws the same numbers as the parts that have the old one, as long as both go on. Proved part (C210_generator_partial): An object that is assigned a generator draws from it, and so does every object it makes afterwards. Missing: objects it made before keep the old one, see `C210_parts_fails`; seeds and states are not used, see `C210_seed_fails` and `C210_state_fails`.

### C211 The volume of the surface is the same after any history

partial; `Props/History`: `C211_volume_partial`, `C211_elsewhere`, `C211_no_ejecta_fails`.

Refuted: A crater that excavates something but whose ejecta region gets no ejecta makes the surface not finite: the factor that would conserve the volume is a division by zero. Proved part (C211_volume_partial): After any history of craters, ejecta, diffusion, collapse of slopes and noise, on any regions of a surface and in any order, the volume of the surface is the one it had, also if an exception ends the history. Missing: craters whose ejecta has no volume, see `C211_no_ejecta_fails`.

### C212 Face sizes found automatically let ejecta just reach the local region

partial; `Props/Superdomain`: `C212_search`, `C212_just_reaches_partial`, `C212_truncated_fails`, `C212_explicit_partial`, `C212_again_fails`, `C212_pixel_fails`, `C212_metres_fails`, `C212_identity_fails`.

Refuted: **C212 fails** where the ejecta are cut off near the rim (`ejecta_truncation`, here 1.1 crater radii): at some distance the size found is that of a crater whose ejecta do not reach that far, because no crater's do and the last size is kept. Refuted: **C212 fails** for a factor that is set again: once a face size has been read (the mesh made), another factor is accepted and reported, and enters the identity of the mesh, but face sizes stay those of the first factor everywhere. Refuted: **C212 fails** for a pixel size that is set again: once a face size has been read, another pixel size is accepted and holds inside the local region, but outside faces grow as before, so that at the local radius before the antipode a face is not the factor times the new pixel size; it is too small if pixels became larger, and too large if they became smaller. Refuted: **C212 fails** for the factor that is reported after an automatic search: it is not the ratio of the farthest face size to the pixel size, but the farthest face size in metres; only for pixels of one metre is it the same. Refuted: **C212 fails** for a surface that is made again with the factor reported after an automatic search: it has the same identity, so that its mesh counts as the same, but its farthest faces are larger than those of the first surface. Proved part (C212_just_reaches_partial): **C212**, the part that holds of "ejecta of a crater of that size just reach": at every sampled distance, craters of the size found reach that far, if a crater as large as the body does; and where larger craters throw farther, no crater smaller by more than one step of the trial diameters (of at most `(20 R) ^ (1/999)`, 1.018 on the Moon) does. Sizes below ten centimetres are never tried. What is missing: see the `_fails` theorems below. Proved part (C212_explicit_partial): **C212**, the part that holds of an explicit factor: read for the first time after it has been set, the face size is the pixel size inside the local region, grows linearly outside and is the factor times the pixel size at the local radius before the antipode.

### C213 All files of a simulation are in its directory

partial; `Props/SimDir`: `C213_together_partial`, `C213_apart`, `C213_stays_partial`, `C213_chdir_fails`, `C213_assign_fails`, `C213_other_fails`.

Refuted: **C213 fails** when the process changes its working directory: a simulation in the working directory, or in a directory below it that was named by a string (even by its absolute path), continues in another directory; what was saved before is not seen there, and what is saved then is not with the rest. Refuted: **C213 fails** when the directory of a simulation is assigned: the configuration goes to the new one, all files of the components stay in the old. Refuted: **C213 fails** for values that are no directory: they are not refused, and the old directory is kept. Proved part (C213_together_partial): **C213**, the part that holds: while the process stays in its working directory, the configuration of a simulation and the files of all its components are in (subdirectories of) the directory that the user named, or in the working directory if none is named. Proved part (C213_stays_partial): **C213**, the part that holds when the process changes its working directory: a directory kept as an absolute path, which is so for an absolute `Path` and for the name of a directory outside the working directory, stays the same.

### C214 Cleaning up removes what a simulation has written, and nothing else

partial; `Props/Cleanup`: `C214_cleaned_partial`, `C214_exports_fails`, `C214_others_fails`, `C214_stops_fails`.

Refuted: **C214 fails** for exported files, which the description says are removed: all of them stay. Refuted: **C214 fails** for directories of the user: what is in a directory called `target`, `production`, `scaling`, `morphology` or `projectile` (or the same with `_images`) is removed, although no simulation writes there. Refuted: **C214 fails** where a file has the name of a component, for example a file `target`: the clean-up stops with an exception when it comes to it. The configuration is gone then, but the saved surface, whose turn is last, is still there and is found by the next run. Proved part (C214_cleaned_partial): **C214**, the part that holds: after `cleanup` neither the configuration nor any saved data or picture is left, so that a new simulation begins as new; and files outside the simulation's directory, and those inside which are not in a directory called like a component, are all still there.

### C215 Craters that are emplaced together do not influence each other

partial; `Props/Batch`: `C215_any_order`, `C215_interior`, `C215_count_partial`, `C215_marks_fails`.

Refuted: **C215 fails** for the marks on the faces when ejecta end close to the rim (they are thin, or `ejecta_truncation` is below 1.5), since the region that is marked reaches to 1.5 radii: where the marked region of a crater lies in the interior of a larger crater of the same batch, its marks are cut out if it comes first, and stay if it comes second. Proved part (C215_count_partial): **C215**, for the count: when the marked region of each crater lies within the reach of its ejecta, the marks on the faces and the craters that are counted are the same too, in whichever order the craters of each batch are taken. Missing: ejecta that end before the marked region does, see `C215_marks_fails`.

### C216 Diffusion and slope collapse only smooth

proved; `Props/Levels, Smooth`: `C216_levels`, `C216_roughness`, `C216_unchanged`, `C216_smoother`, `C216_linear`, `C216_errors`, `C216_order`, `C216_collapse`.

### C217 Every crater of the production acts on the surface once: it is made, or it is part of the degradation by craters below the resolution

partial; `Props/SubPixel`: `C217_amount`, `C217_errors`, `C217_windows`, `C217_monotone`, `C217_combined_partial`, `C217_combined_fails`, `C217_none_lost_partial`, `C217_twice_partial`, `C217_twice_fails`, `C217_lost_fails`.

Refuted: For a power law of slope one or steeper, what is added is at most a fiftieth of the combined effect of the craters that the mesh does not resolve: the number of craters larger than each diameter takes the place of the number of craters of that diameter, and π·100·D/2 that of the area within a hundred crater radii. Refuted: In every bin with faces of different sizes, craters are made that are also accounted for by degradation: those on the smallest face of the bin with diameters from its size, where populating begins, to that of the largest face. Refuted: Whatever the mesh, a crater is not made if no face has its middle within three quarters of its diameter, also if it is larger than the largest face of its bin, so that it is not part of the degradation either. Proved part (C217_combined_partial): For a power law what is added is proportional to the combined effect of the craters: the factor is `1 / (50 |slope|)` for all faces and periods. What is missing: the factor is not one, see `C217_combined_fails`. Proved part (C217_none_lost_partial): No crater is lost: one with its center on a face, not farther from the middle of the face than three quarters of the size of the face, is either made, or its diameter is within the range that is degraded on that face. What is missing: craters with their center farther from the middle of an elongated face, see `C217_lost_fails`. Proved part (C217_twice_partial): A crater that is both made and within the range degraded on the face of its center has a diameter between three quarters and the square root of two of the size of the face. What is missing: that there is none, see `C217_twice_fails`.

### C218 Distances, bearings and destinations do not depend on the prime meridian, and a mirrored surface behaves as the mirror image

proved; `Props/Meridian`: `C218_meridian`, `C218_east_west`, `C218_north_south`.

### C219 The intervals of a run with a time step, as computed in double precision

partial; `Props/Steps`: `C219_adjoin_partial`, `C219_exact_partial`, `C219_resume_partial`, `C219_refused_fails`, `C219_error_fails`, `C219_extra_fails`, `C219_short_fails`, `C219_repeat_fails`.

Refuted: A period of 0.1 million years, from 0.3 to 0.2, is refused with a time step of 0.1: the difference of the two times is less than the time step in double precision. Refuted: A run from 0.4 to 0.1 in steps of 0.1 simulates the three intervals, and stops with an error then: a fourth interval is begun, which starts after the end of the period. Refuted: A run from 0.4 to 0.3 in steps of 0.1 has two intervals, the second one of which is shorter than `10 ^ -16`. Two states are saved after the first one, and the elapsed time is 0.2 at the end. Refuted: A run of age 0.9 in steps of 0.3 ends before the present: at a time that is not zero. Refuted: A run of age 0.4 in steps of 0.1 that is resumed after the first interval simulates the first interval once more. Proved part (C219_adjoin_partial): Whatever the rounding, the intervals that a new run simulates follow each other without gaps and overlaps from the start, and do not go past the end of the period. Missing: they can fall short of the end (`C219_short_fails`), one of them can be empty or fail (`C219_extra_fails`, `C219_error_fails`), and a run that is resumed can repeat one (`C219_repeat_fails`). Proved part (C219_exact_partial): Times that are whole multiples of a power of two, at most `2 ^ 52` of it: whole numbers, halves, quarters. Here the intervals are what they are with exact numbers: `n` of them, the smallest number that covers the period, the last one shortened to end with the period. A run that is resumed after `j` intervals goes on with interval `j`. Proved part (C219_resume_partial): A run of two or more intervals that is resumed after `j` of them goes on with interval `j`, or repeats the one before it; it never leaves one out, when the time step is not less than `2 ^ -40` of the start time. Missing: it should not repeat one, see `C219_repeat_fails`.

### C220 The intervals of a run with equal numbers of craters, as computed in double precision

partial; `Props/Steps`: `C220_binary_partial`, `C220_last_partial`, `C220_negative_fails`.

Refuted: A run to 29 craters in seven intervals stops with an error in the last one: the number of craters at its end is less than zero in double precision. Proved part (C220_binary_partial): A run down to no craters, divided into a number of intervals that is a power of two: all of them are simulated, the first one begins with the number given, each begins where the last one ended, and the last one ends with none. Missing: other numbers of intervals, see `C220_negative_fails`. Proved part (C220_last_partial): A run down to no craters in any number of intervals up to `2 ^ 50`: all intervals but the last one are always simulated, beginning with the number given, each where the one before ended, and none of these ends at a negative number. If the run fails, it fails in the last interval. Missing: the last interval can fail (`C220_negative_fails`) or not end at zero.

### C221 A run with equal numbers of craters resumes where it stopped

partial; `Props/Resume`: `C221_resume_partial`, `C221_repeat_fails`.

Refuted: However small the error `δ` of the times that belong to numbers, an interval can be repeated: here two craters form in two intervals at a constant rate, the time found for one crater is too large by `δ`, and a run that is resumed after the first interval simulates both intervals. Proved part (C221_resume_partial): Resuming a run with equal numbers of craters after `j` intervals. The times that belong to numbers are found up to an error: the number at the time found is off by at most `ε`. As long as this is less than a sixth of an interval, the run goes on with interval `j`, or repeats the interval before it; it does not leave one out. Without an error it goes on with interval `j`. Missing: with an error it can repeat an interval, see `C221_repeat_fails`.

### C222 Longitudes stay in their range in double precision

partial; `Props/LocationDouble`: `C222_lat_range`, `C222_range_partial`, `C222_idempotent_partial`, `C222_exact_partial`, `C222_near`, `C222_over_pole`, `C222_range_fails`, `C222_idempotent_fails`, `C222_unchanged_fails`.

Refuted: The longitude just below -180, which is a number of double precision, is normalised to 180, outside the documented range. Refuted: A location that was normalised changes when it is normalised again: its longitude was 180 and becomes -180. A crater made there has another location, and so another identifier, once it has been written to a file and read. Refuted: A longitude inside the documented range is not left as it is: the one just below 180 becomes -180, and a small one becomes 0. Proved part (C222_range_partial): The normalised longitude is in [-180, 180), except for one number: the one just below -180, which becomes 180. A latitude that is one stays as it is. Missing: that number, see `C222_range_fails`; and latitudes beyond the poles, see `C01_lon_range_fails`. Proved part (C222_idempotent_partial): A location that was normalised stays as it is when it is normalised again, as it is when a crater is read from a file or copied, except for the longitude just below -180. Missing: that number, see `C222_idempotent_fails`. Proved part (C222_exact_partial): Longitudes that are multiples of `2 ^ -g`, such as whole and half degrees, are normalised without any error: the result is that of exact numbers, of which C01 speaks.

### C223 A measured orientation lies in [0, 360)

partial; `Props/LocationDouble`: `C223_orientation_partial`, `C223_range_fails`.

Refuted: A small negative orientation, as a measurement of an axis towards north gives it, is reported as 360, and as 0 after the crater has been converted or read. Proved part (C223_orientation_partial): An assigned orientation is reported in [0, 360), up to full turns and a rounding error of less than `2 ^ -45` degrees equal to the one given, unless the one given lies below a full turn by at most `2 ^ -45` degrees; and it stays as it is when it is assigned once more. Missing: these numbers, see `C223_range_fails`.

### C224 A region given by a slice is the same region for numpy and for the compiled code, and reports its size

partial; `Props/SliceRegion`: `C224_same_faces`, `C224_rejected`, `C224_range`, `C224_plain`, `C224_whole`, `C224_count_partial`, `C224_count_fails`.

Refuted: The number of faces of a region given by a slice is the number of faces of the whole surface: a region of the first two of five faces reports five. Whenever a slice leaves out a face, every compiled loop over the faces of the region reads past the end of its values and panics. Proved part (C224_count_partial): The number of faces that a region reports is the number of its faces exactly if the slice selects every face of the surface (for one that selects fewer it is wrong).

### C225 Diffusion keeps its properties under rounding

partial; `Props/DiffusionDouble`: `C225_volume_partial`, `C225_volume_fails`, `C225_flat`, `C225_summits`, `C225_exact`.

Refuted: Two faces of areas 1 and 3 that exchange a flux of 2: in double precision the second one does not lose exactly what the first one gains. Proved part (C225_volume_partial): The volume that a round of diffusion creates or destroys is at most a fraction of all that crosses the edges: with at most `k` edges per face, `5 (k + 1)` times the relative error `2 ^ -53` of an operation. Missing: it should be none, see `C225_volume_fails`.

### C226 Elevations of nodes are means of the faces around them under rounding

partial; `Props/DiffusionDouble`: `C226_mean_partial`, `C226_equal_fails`, `C226_zero`.

Refuted: Three faces of area 1 at the elevation 0.1 (the number of double precision): the node between them is higher than all of them. Proved part (C226_mean_partial): The elevation of a node in double precision is the mean of the elevations of its faces, weighted with their areas, up to `4 (k + 1)` times `2 ^ -53` of the largest of them in absolute value, where `k` is the number of faces. Missing: the mean of equal elevations should be this elevation, see `C226_equal_fails`.

### C227 A random point on a face is inside the face under rounding

partial; `Props/TriangleDouble`: `C227_choice_partial`, `C227_found_partial`, `C227_one`, `C227_found_fails`, `C227_inside_partial`, `C227_inside_fails`.

Refuted: A face of four triangles with areas 1, 4, 1 and 1, and the largest number that a generator can draw, `1 - 2 ^ -53`: the cumulative areas end below it, so that no triangle is found and the code reads past the end of its table. Refuted: Draws of `1/2 + 2 ^ -53` and `1/2`: their sum is rounded to 1, so that they are not folded, and the weight of the first corner is negative; the point lies outside the triangle. Proved part (C227_choice_partial): The choice is the exact one unless the number that is drawn is within a few rounding errors of a border between two triangles: with `n` triangles, `3 (n + 1)` times `2 ^ -53`. Missing: a triangle should be found for every number, see `C227_found_fails`. Proved part (C227_found_partial): A triangle is found for every number below 1 by a few rounding errors. Proved part (C227_inside_partial): The weights of the corners add up to one exactly, and the weights of the second and third corners are in [0, 1], for all numbers that a generator draws (multiples of `2 ^ -53` below 1). The weight of the first corner is in [0, 1] except for draws whose sum is `1 + 2 ^ -53`, where it is `- 2 ^ -53`. Missing: it should not be negative, see `C227_inside_fails`.

### C228 A draw from a table of crater numbers always finds its place under rounding

partial; `Props/SfdDouble`: `C228_found_partial`, `C228_found_fails`, `C228_normalised`.

Refuted: A table that begins with 1/2 and the largest number that a generator can draw, `1 - 2 ^ -53`: the draw is rounded to 1, which is not below the last entry, and the code raises an IndexError; this for every logarithm that keeps the order. Proved part (C228_found_partial): Two entries of the table are found around the draw, different ones, with the draw between them, so that nothing is divided by zero; for every sorted table that ends with 1 and every draw whose distance from 1 and whose range are not of the order of the rounding error. The logarithm need only keep the order and be negative below 1. Missing: all other draws, see `C228_found_fails`.

### C229 The grid of a local region is complete under rounding

partial; `Props/RingsDouble`: `C229_grid_partial`, `C229_ends`, `C229_centre_fails`, `C229_axis_fails`, `C229_exact`.

Refuted: On the Moon (1737.4 km) with pixels of 1 km and a local radius of 3.5 km, the local region has no point at its centre: the first ring, which would hold it, is left out because 1737400 · (1000 / 1737400) is rounded to a number below 1000. Refuted: On a body of 100 m radius with pixels of 3 m and a local radius of 20 m, the place five pixels north of the centre has no point, while the one five pixels south has. Proved part (C229_grid_partial): In double precision, every point made for the local region lies at a whole number of pixels from the centre in both directions, within the local radius; a place whose distance from the centre is not a whole number of pixels gets at most one point, and exactly one if it lies within the local radius in whole pixels. What is missing: places at a whole number of pixels from the centre - the centre itself, the axes, and places such as (3, 4) - fall on the limit of two rings, and either ring may leave them to the other, see `C229_centre_fails` and `C229_axis_fails`.

### C230 Rounding the coordinates keeps the points of a mesh in place and apart

partial; `Props/MeshRounding`: `C230_moved`, `C230_kept_partial`, `C230_spacing_fails`.

Refuted: Points one pixel apart do not stay one pixel apart: on a body of 1000 km radius with pixels of 1.5 m, the points that were made 1.5 m and 3 m north of the centre are moved to 1 m and 3 m, two thirds and four thirds of a pixel from their neighbours. Proved part (C230_kept_partial): Points that are all more than `√3` of the last decimal apart from each other all stay, as different points. What is missing: points that are closer; the last decimal may be as large as a pixel.

### C231 The spectrum of a crater surface is that of a real surface around the frequency zero

partial; `Props/Spectrum`: `C231_symmetric`, `C231_quadrants`, `C231_falls`, `C231_kept_partial`, `C231_wide_fails`.

Refuted: C231 For wider ejecta it fails: with 400 rows, a largest frequency of 40 and ejecta that reach out to 7 radii (a width of 6), the first row to be returned is counted from the end of the array, and only the waves of the highest frequencies, above 26 per radius, are returned. Proved part (C231_kept_partial): C231 As long as the largest frequency asked for is one that the grid has, the waves returned are those around the frequency zero: every wave whose frequency is a step below the one asked for is there, and none above that frequency by more than a part in `2 m - 1`.

### C232 The spectrum of a crater outline is the drawn broken line at the longest waves

partial; `Props/Spectrum`: `C232_waves`, `C232_kept_fails`, `C232_line_partial`, `C232_tie_partial`, `C232_longest_fails`.

Refuted: C232 The documentation says that the waves shorter than the circumference over `n` are kept; none of those returned is. Refuted: C232 For the longest wave it fails: whatever was drawn for it, its power before the noise is 2π, the length of the wave itself. Proved part (C232_line_partial): C232 Apart from the longest wave, the logarithm of the power before the noise is a broken line in the logarithm of the wavelength: below the drawn break it is the line of the drawn slope through the break, and above it the line through the break and the point drawn for half the circumference. Proved part (C232_tie_partial): C232 The mean from which a coefficient is drawn is one of two straight lines in the diameter. It depends continuously on the diameter exactly if the lines meet at the diameter where the file changes from one to the other; the code does not check that they do.

### C233 A crash during a save leaves a surface and crater lists that belong together

partial; `Props/SaveRound`: `C233_whole_partial`, `C233_surface_first_fails`, `C233_torn_fails`, `C233_emplaced_fails`, `C233_points`.

Refuted: C233 It fails for a crash after the surface is saved: the next process starts from the new surface with the crater lists of the save before, so that the craters of the last interval are on the ground but neither counted nor listed. Refuted: C233 It fails for a crash while the observed craters are written: the simulation cannot be opened any more. Refuted: C233 It fails for a crash after the observed craters are written and before the emplaced ones are: the next process has no emplaced craters at all. Proved part (C233_whole_partial): C233 After any history of saves and a crash during one more, before its first or after its last step, the next process starts from the surface and the crater lists of one and the same save: the one before, or the new one. Missing: the crash points in between, see the `_fails` theorems.

### C234 Face size bins partition the mesh under rounding

partial; `Props/FaceBinsDouble`: `C234_error_iff`, `C234_partition_partial`, `C234_below_fails`.

Refuted: C234 With rounding the error also occurs for areas that are not a power of two apart: a mesh whose largest face is, by one unit in the last place, less than 16 times as large as its smallest, if the logarithm is the double next to the true one. Proved part (C234_partition_partial): C234 Otherwise the bins are a partition of all faces, and the areas of two faces of a bin differ by less than a factor of two, up to the error of the levels.

### C235 The saved lists of emplaced craters tell every crater that was formed, once

partial; `Props/EmplacedLists`: `C235_lists_partial`, `C235_numbers`, `C235_unsaved_fails`, `C235_reset_fails`.

Refuted: C235 It fails for craters placed by hand before a run: `emplace` followed by `run`, on a simulation of any history, leaves them in no saved list at all, though they are on the saved surfaces: `emplace` makes the simulation no longer new, so that `run` does not save before its first interval, and then empties the list. Refuted: C235 `save` does not reset the list of emplaced craters, as its documentation says: whenever there are emplaced craters they are still there after it. Proved part (C235_lists_partial): C235 After any history of `emplace`, `populate`, `save` and `run` in which craters placed by hand are saved before the next run, and a final save, the saved lists of emplaced craters of all intervals have every crater that was formed, once for each time it was formed, and no other. Missing: runs called with craters not yet saved, see `C235_unsaved_fails`.

### C236 Looking at a simulation shows the state asked for and leaves the saved states alone

partial; `Props/Looking`: `C236_present_partial`, `C236_saved_partial`, `C236_replaced_fails`, `C236_rounds_partial`.

Refuted: The full claim fails: a plot without an interval replaces the saved state of the present interval by the present one, whenever the surface was changed since; what the run had saved for the interval is lost. Proved part (C236_present_partial): Without an interval a plot shows the present surface under the number of the present interval, with a label made from the same; the present state is saved under that number; the saved states of other intervals, the surface and the times stay. Proved part (C236_saved_partial): With the number of a saved interval it shows that state, with a label made from its times, and changes nothing; provided it is not the last one saved, or the surface is still as it was saved. Proved part (C236_rounds_partial): However often a simulation is looked at during and between runs, by plots with or without an interval and by exports of the present or of all states, each saved state is the one in which its interval ended, and the earlier ones stay. Missing: changes by hand between, see `C236_replaced_fails`, and exports of an earlier interval, see `C133_overwrites_fails`.

### C237 The mesh of craters has their outlines and marks in the right places

partial; `Props/MeshView`: `C237_rings`, `C237_points_partial`, `C237_styles`, `C237_measured_fails`, `C237_impacts_fails`.

Refuted: C237 fails: in these styles the choice of measured properties makes no difference. A crater whose measured location is another one is shown at the place where it was emplaced (`counting/__init__.py` line 1240). Refuted: C237 fails: the marks of the style `impacts` are above the surface by half the size they are shown with only when this size is not scaled: the size goes with the factor, the height with its square root (`counting/__init__.py` lines 824 and 1239). Proved part (C237_points_partial): C237. In the other styles the mesh has one point for each crater, in the order of the craters. It lies in the direction of the place where the crater was emplaced, above the surface there by half the scaled size of the face for points and by the scaled radius of the projectile for spheres.

### C238 A mesh of the surface is made of the state of the interval asked for

partial; `Props/MeshView`: `C238_own`, `C238_given_partial`, `C238_given_fails`, `C238_single_fails`.

Refuted: C238 fails: from a dataset given whose numbers do not begin with 0, as every dataset of one later interval read from the files, the mesh of an interval is never made of the state with its number: the number is taken as a position (`surface/__init__.py` line 2958), so the mesh is of another interval, or the call raises. Refuted: One interval read from the files: the mesh of its number raises. Proved part (C238_given_partial): C238. From a dataset given with the states of intervals numbered from 0 without a gap, the mesh of an interval is made of the state with its number.

### C239 The tables of a region form a complete mesh

partial; `Props/LocalMesh`: `C239_faithful`, `C239_complete`, `C239_agree`, `C239_subregion_fails`.

Refuted: C239 fails for a region taken out of a region: the row of a face lacks each node that lies only on faces beyond the radius, so that the face is no polygon of the region's mesh.

### C240 Reading all saved intervals at once gives every interval as it is read alone

partial; `Props/ReadAll`: `C240_each_partial`, `C240_layered_partial`, `C240_region_partial`, `C240_layered_fails`, `C240_region_fails`.

Refuted: Reading all intervals at once does not always show what was saved: a surface whose craters are counted only after the first save has no crater numbers at that interval when it is read alone, but numbers when all are read. Refuted: A saved surface with two faces, and a region with one of them saved for the next interval. Proved part (C240_each_partial): After any history of changes and saves of a surface, all saved intervals can be read at once. The result has exactly the saved intervals, in order, and every variable has at every interval the values that reading this interval alone gives. For a layered variable, such as the numbers of the craters on each face, this holds where it was saved; see `C240_layered_fails` for the other intervals. Proved part (C240_layered_partial): Exactly what a layered variable is at an interval where it was not saved: as many times what NaN converts to as there are faces, although reading the interval alone shows that the variable was not there. Proved part (C240_region_partial): Saving a region for an interval that has no file yet makes it impossible to read all intervals at once, for every region with another number of faces than the surface: each interval alone can still be read.

### C241 A crater and its ejecta conserve volume under rounding

partial; `Props/EjectaDouble`: `C241_volume_partial`, `C241_surface_partial`, `C241_sign`, `C241_exact`, `C241_volume_fails`.

Refuted: Two faces of area 1, of which one loses 1, with ejecta of thickness 1 and 2: the ejecta does not add up to 1. Proved part (C241_volume_partial): The volume of the ejecta of a crater, as it is computed, is nearly what the crater takes away, whatever the order in which the faces are added up: if no number goes through more than `d` additions, the difference is at most `7 (d + 1)` times the relative error `2 ^ -53` of the volume that is moved. Missing: it should be none, see `C241_volume_fails`. Proved part (C241_surface_partial): The volume of the surface after a crater and its ejecta differs from the volume before by what the ejecta misses and by the roundings of the two additions on each face.

### C242 A resumed simulation has the settings of the session that was saved

partial; `Props/Settings`: `C242_session`, `C242_recorded_partial`, `C242_again`, `C242_exact_partial`, `C242_unrecorded_fails`, `C242_kept_partial`, `C242_power_law_fails`, `C242_monte_carlo_fails`, `C242_target_fails`, `C242_generic_fails`, `C242_population_fails`.

Refuted: **C242 fails**: a setting that neither construction nor assignment records is lost, whatever was given and assigned; the resumed simulation has the default of the resumed leading setting. Refuted: **C242 fails** for a power law production: whatever coefficient and slope were given, a simulation that is resumed has those of the Moon, for the kind of generator that was saved; in particular the density of craters larger than a metre after a million years is 0.007883 per square metre, whatever it was. Refuted: **C242 fails** for Monte Carlo scaling: switched off with the argument, it is on again in the resumed simulation; switched off by assignment it stays off. The constants of the material are kept in both cases. Refuted: **C242 fails** for the mass and kind of transition of a target: in the resumed simulation they are those of the catalogue. A body that is not in the catalogue cannot be resumed at all; radius and material are kept. Refuted: **C242 fails** for projectiles of a body that is in neither catalogue of velocities: made without naming projectiles, with any arguments that let velocities be drawn, they have a mean velocity, but the resumed simulation has none and an error is raised, unless the mean velocity was assigned later or is given again. Refuted: **C242 fails** for projectiles of a catalogued population: a mean velocity that was assigned is written to the configuration file, but the resumed simulation has the catalogue's; and `sample=False` given as an argument is lost, so that velocities are drawn. Proved part (C242_recorded_partial): **C242, part.** A setting that the component records, at construction or when it is assigned, is in the resumed simulation what it was in the saved session, after every history of assignments, unless it is given again. Missing: settings that are not recorded and settings assigned `None`. Proved part (C242_exact_partial): **C242, part**, exactly: when the leading setting is kept, a setting that is not given again is in the resumed simulation what it was if and only if it was recorded (and not ignored, and not `None`) or happens to be the default. Proved part (C242_kept_partial): **C242, part**, the settings that are kept whatever they are: the kind of generator of a power law, and the density of projectiles of every population that was given or assigned.

### C243 The components of a simulation belong to each other

partial; `Props/Wiring`: `C243_exact_partial`, `C243_new_partial`, `C243_reused_partial`, `C243_objects_fails`, `C243_assign_fails`.

Refuted: With a surface given as an object and a target given by name or not at all, the surface belongs to another target than the simulation, whatever they are; with a morphology model given as an object and a surface given by name or not at all, the craters are formed on another surface than the one that is saved and plotted; and unless its counting object is given too, they are recorded elsewhere than in the object that is saved and shown. Refuted: Assigning an object to a component of a simulation never adapts the others: of components that belong to each other, only the production function of a simulation whose morphology model uses none can be replaced by another object so that they still do. Proved part (C243_exact_partial): Exactly when the components of a new simulation belong to each other: the objects given to it fit together. A component given as an object is never adapted to the others, except that a scaling model gets the target and the projectiles, and that a new morphology model takes over the counting object. Proved part (C243_new_partial): Without objects for projectiles, surface, counting and morphology, that is with names or nothing, the components of a new simulation always belong to each other, whatever target, scaling model and production function is given. Proved part (C243_reused_partial): A simulation made with the components of another one has all of them.

### C244 A crater has the impact velocities, angle, direction and projectile density it is given

partial; `Props/Impact`: `C244_rejects`, `C244_copy_exact_partial`, `C244_copy_vertical_fails`, `C244_copy_density_fails`, `C244_new_partial`, `C244_density_partial`, `C244_accepts`, `C244_ignored_fails`, `C244_resized_partial`, `C244_resized_vertical_fails`.

Refuted: **C244 fails** for a vertical velocity that is given to a copy: the copy has no vertical velocity at all, whatever else is given, unless it is made without the check and velocity and angle are given too; then its vertical velocity is that of velocity and angle. Refuted: **C244 fails** for a density that is given to a copy: it is not used, the copy has the density of the original. Refuted: **C244 fails** for a vertical velocity or a mean velocity that is given to a new crater: once accepted it is ignored. The crater is the same as without it. Refuted: **C244 fails** for a copy with a new size that is given a vertical velocity: not only is that ignored, the velocity of the original is lost too, and another one is drawn. Proved part (C244_copy_exact_partial): C244, exactly what a copy without a new size has. Its direction is the one given, as orientation or direction, or else the old one; its velocity and angle are those given. If they are not given they are the old ones, except that the velocity is lost if a vertical velocity is given without a velocity, and the angle is lost if a velocity and a vertical velocity are given (both are kept if also a mean velocity is given and nothing is checked). The size and mass of the projectile are the old ones. Proved part (C244_new_partial): C244, the part that holds of a new crater: it is refused if more is given than may be; otherwise it has the velocity, the angle, the direction (as orientation or direction) that it is given, and its vertical velocity follows from these; what is not given is drawn, if the projectiles draw. Proved part (C244_density_partial): C244: a new crater that is given a density reports that density, whatever the scaling gives for the size of the projectile, as long as the projectile is a ball whose mass is its volume times that density. Proved part (C244_resized_partial): C244, the part that holds of a copy with a new size: the velocity, the angle and the direction are those given, and if no vertical or mean velocity is given, those of the original that are not given, whether or not the projectiles draw; likewise the density, which the new projectile has whatever its size.

### C245 The list of prescribed craters can be changed at any time

partial; `Props/PrescribedList`: `C245_read`, `C245_stable`, `C245_limit`, `C245_timed_fails`, `C245_once_partial`, `C245_uncertain_fails`.

Refuted: A crater that is added with a time of its own and without metadata to a list that was read stays where it was put and does not limit the sizes of random craters; it is lost as soon as any crater without a time is added and the list is read, whatever the two are. Refuted: A crater with an uncertain time can be emplaced twice, or never although all its times are in the period, when any other crater is added between two rounds, whatever the time, its uncertainty, the periods and the other crater are. Proved part (C245_once_partial): A crater whose metadata have no uncertainty is emplaced once by the rounds that follow if its time is in their period, and otherwise not at all, however often other craters are added to the list and the list is read between the rounds. Missing from the full statement: craters with an uncertainty, see `C245_uncertain_fails`.

### C246 Prescribed craters with sequence numbers form at the age that is given for them

partial; `Props/SequenceApart, SequenceGroup`: `C246_apart_partial`, `C246_uncertain_fails`, `C246_exact_partial`, `C246_shared_fails`, `C246_combined`.

Refuted: **C246 fails** for an exactly known number after an uncertain one whose range reaches below it, although the numbers themselves are in order: the crater forms later than its age, at that of a number smaller by a quarter of the overlap. Refuted: **C246 fails** for craters of one sequence number whose numbers are exactly known but different: whatever they are, all of them form at the same time, the age of their mean, and none at its own unless its number is the mean. Proved part (C246_apart_partial): **C246, part.** Under the same conditions the craters of a sequence number whose number is exactly known form exactly at their age, however uncertain the numbers of the other sequence numbers are. Missing: an uncertain number whose range reaches beyond the exactly known one, see `C246_uncertain_fails`. Proved part (C246_exact_partial): **C246, part.** If all craters of a sequence number have the same number without uncertainty, given as a number or as an age, and the numbers do not increase with the sequence number, every crater forms exactly at the age that its metadata give, for any number of sequence numbers and of craters in each. `num` is the number of craters made since an age and `d.age` its inverse. Missing: craters of one sequence number with different numbers, see `C246_shared_fails`.

### C247 A crater without a time gets a time drawn for its own size

partial; `Props/UntimedOrder`: `C247_list_order_partial`, `C247_own_time_partial`, `C247_own_time_fails`.

Refuted: The property fails for every two craters whose own times rise along the list: the merge gives the first of them the time drawn for the size of the second, and the second the time drawn for the size of the first. Proved part (C247_list_order_partial): Of two craters handed to the merge without a time, the one that is earlier in the list is never younger than the other in the result, whatever their sizes, the production function and the random numbers, and whichever prescribed craters and craters with a time there are. Proved part (C247_own_time_partial): Exactly when every crater gets the time that was drawn for it: when the draws happen to fall along the list.

### C248 What a surface says about its mesh is about the mesh it has now

partial; `Props/Remesh`: `C248_same_mesh_partial`, `C248_new_mesh_partial`, `C248_kept_fails`, `C248_bins_fails`.

Refuted: The property fails for every quantity that is kept: once it has been answered, it is answered in the same way for ever, however often the mesh is made anew and whatever the new meshes are. Refuted: With fewer faces in the new mesh, the bins of faces then name faces that the present mesh does not have: the next craters are to fall on faces that do not exist. Proved part (C248_same_mesh_partial): As long as the mesh is not made anew, every answer is right, whatever else is asked before, in whatever order and however often; loading the same mesh again changes nothing. Proved part (C248_new_mesh_partial): Exactly what is answered after the mesh has been made anew: the areas and sizes of the faces, their mean and their number are those of the new mesh; every other quantity is that of the old mesh if it was asked for (successfully) before, and that of the new mesh if it was not.

### C249 The mesh settings a surface reports are those of its mesh, and saved states survive opening the simulation again

partial; `Props/MeshSettings`: `C249_mesh_partial`, `C249_kept_partial`, `C249_given_partial`, `C249_exact_partial`, `C249_lost_fails`, `C249_reopened`.

Refuted: **C249 fails**: settings of the mesh that are assigned to the surface of a new simulation change neither the mesh nor what is saved, but are reported as its settings; once the simulation is saved or run, opening it again silently replaces the mesh and removes all saved states. Proved part (C249_mesh_partial): **C249, part.** In every folder in which a simulation was made anew, after every history of assignments, saves, runs and openings, the mesh in memory is the one in the grid file and every saved state belongs to it. Proved part (C249_kept_partial): **C249, part.** If the settings of the mesh are only given when the simulation is made, then after every history of saves, runs and openings the surface reports the settings of its mesh, the folder has the states of exactly the intervals that were saved, and opening the simulation again leaves everything in the folder as it is. Missing: settings that are assigned to the surface later, see `C249_lost_fails`. Proved part (C249_given_partial): **C249, part.** The same holds if a simulation is opened, without a reset, with settings other than those of the mesh in its folder: the old states are gone, the surface reports the settings of its new mesh, and from then on the folder has exactly the states that were saved, also when the simulation is opened again without settings. Proved part (C249_exact_partial): **C249, part**, exactly, for the process that made the simulation with settings `v`: what counts is what was assigned before the configuration file was written last, by saving or by running. If these are the settings of the mesh, the simulation that is opened again has all saved states; otherwise it has a new mesh and no saved state at all.

### C250 Arrays of values that were read from a surface or a region are snapshots

partial; `Props/Arrays`: `C250_snapshot_partial`, `C250_mine_partial`, `C250_live_fails`, `C250_left_behind`, `C250_added_fails`, `C250_reference_partial`, `C250_slice_fails`.

Refuted: Values read from the whole surface are no snapshot: until the variable is made anew the array shows what the surface has at the moment, so that a state kept for comparison never differs from the present one, and a write of the user to the array is a change of the surface. Refuted: Adding to a variable changes the variable at the elements given, by the amounts given, and nothing else; an array held of the whole variable changes with it. Refuted: For a region that is given by the slice of all faces it replaces the elevations of the surface within the reference radius by those of the plane. Proved part (C250_snapshot_partial): Values read from a region are a snapshot: the array has the values of the surface at that time in the order of the region, and whatever happens to the surface afterwards, as long as the user does not write to the array, it keeps them. Proved part (C250_mine_partial): And they belong to the user: reading changes no value of the surface, and neither do writes of the user to the array, whatever has happened to the surface in between. Proved part (C250_reference_partial): Asking for the reference surface of a region changes no value of the surface.

### C251 A prescribed crater with a sequence number only forms around the number of craters interpolated between its neighbours

partial; `Props/SequenceApart, SequenceRange`: `C251_uncertain_partial`, `C251_range_partial`, `C251_unique`, `C251_centre_fails`.

Refuted: **C251 fails** for the centre of the range. One sequence number `s` without metadata lies between two whose numbers are known, and every draw gives the centre of its normal distribution. The crater forms at the age of a number half of which is the promised one and half the mean of the neighbours; this is the promised number exactly if `s` is half way between the neighbours. Proved part (C251_uncertain_partial): **C251, part.** The same with uncertain numbers: the range of each crater number, promised or given, lies below those of the sequence numbers before. The craters of each sequence number between two others form between the ages half way from the range of its own number to those of its neighbours. Missing: ranges that overlap, see `C252_fails`. Proved part (C251_range_partial): **C251, part.** Some sequence numbers have craters whose numbers are exactly known and do not increase, beginning with the first, and others have craters with nothing else. Processing succeeds and gives a time to every crater. The craters of each sequence number between two others form between the ages half way, in numbers, from the number promised for it to those of its neighbours. Uncertain numbers: see `C251_uncertain_partial`. Missing: the range is not centred at the promised number, see `C251_centre_fails`.

### C252 Prescribed craters whose crater numbers are in the order of their sequence numbers are accepted

partial; `Props/SequenceApart`: `C252_apart_partial`, `C252_two_partial`, `C252_fails`.

Refuted: **C252 fails** for four craters with the numbers 11 ± 7, 10 ± 4, 9 ± 0 and 7 ± 6: the numbers decrease as they should, but with every increasing chronology and whatever is drawn the list is rejected. The ten rounds leave the second and the third with ranges that are out of order. Proved part (C252_apart_partial): **C252, part.** If all sequence numbers have crater numbers and the ranges `n ± sig` are apart and in the order of the sequence numbers, processing succeeds and the craters form in the order of their sequence numbers, for any number of them and any craters in each. Missing: ranges that overlap, see `C252_fails`. Proved part (C252_two_partial): **C252, part.** With one or two sequence numbers processing succeeds and the craters are in order, even if the ranges overlap.

### C253 Craters, surfaces and regions work with Python's own tools for copying and listing

partial; `Props/Lookup`: `C253_read_partial`, `C253_copy_fails`, `C253_dir_fails`, `C253_repaired`, `C253_data_partial`, `C253_mesh_copy_fails`.

Refuted: **C253 fails** for every crater: however many nested calls Python allows, copying it with `copy.copy`, `copy.deepcopy` or `pickle` ends in a `RecursionError`, because the new object is asked for an attribute before it has its parts. Refuted: **C253 fails** for listing, too: `dir(crater)`, which is what completion in a terminal or notebook uses, raises an `AttributeError` for every crater. Refuted: **C253 fails** for every surface (`part` is `_uxds`) and every region (`part` is `_surface`), too: copying ends in a `RecursionError`. Proved part (C253_read_partial): Reading an attribute of a crater that has been made gives what the class defines, else the value of the fixed part, else that of the variable part, and otherwise an `AttributeError`; it never recurses without end. Proved part (C253_data_partial): Mesh data of a surface or region that has been made are found by name, and other names give an `AttributeError`.

### C254 Numbers added to mesh data of an integer type are added

partial; `Props/IntegerData`: `C254_whole_numbers_partial`, `C254_fraction_fails`, `C254_whole_fails`, `C254_loss`, `C254_positive`.

Refuted: **C254 fails** for fractions: numbers below one that are added to a value that is not negative are lost, however many they are and whatever they add up to. Refuted: **C254 fails** for the whole surface: without the integer type every call that adds raises an error, even for whole numbers, while the same call for a region works. Proved part (C254_whole_numbers_partial): **C254, part.** Whole numbers are stored as given and added exactly, in any number of calls for regions, or for the whole surface if the integer type is given with every call. Missing: numbers with fractions, see `C254_fraction_fails`, and calls for the whole surface without a type, see `C254_whole_fails`.

### C255 Printed descriptions show the sizes of a crater and the file of prescribed craters

partial; `Props/Describe`: `C255_original`, `C255_measured_partial`, `C255_measured_fails`, `C255_file_fails`, `C255_number`.

Refuted: **C255 fails** for a crater that is measured with the same semimajor axis and another semiminor axis: the description is the one of a crater that has not been measured at all. Refuted: **C255 fails** for the file of prescribed craters: the description of the production function is the same for all files, and does not contain any of their names. Proved part (C255_measured_partial): **C255, part.** A crater that is measured with another semimajor axis shows its measured size: two such craters with the same description have the same measured size. Missing: a measured size that differs in the semiminor axis only, see `C255_measured_fails`.

### C256 A plot is saved, shown and closed as asked

partial; `Props/PlotOptions`: `C256_new_partial`, `C256_current_partial`, `C256_other_fails`, `C256_filename_fails`, `C256_close_fails`.

Refuted: **C256 fails** for axes of a figure that is open but not the current one: the plot is drawn there, but the file shows the current figure, without the plot; and where a figure is closed at the end, it is the current one and not the one with the plot. Refuted: **C256 fails** for the name of the file: whatever name is given, nothing is written unless saving is asked for as well, and then the file has the standard name. Refuted: **C256 fails** for `close_when_done` in plots of whole surfaces: it is ignored. A plot that is saved and not shown is closed although it is to stay open, and one that is shown stays open although it is to be closed. Proved part (C256_new_partial): **C256** (proved part). A plot for which no axes are given is drawn on a figure of its own: the file that is written shows exactly this plot, all figures that were open stay open and as they were, and the new figure is closed at the end or left open as current figure, as `close_when_done` says (if it says nothing: closed if the plot was saved and not shown). Proved part (C256_current_partial): **C256** (proved part). A plot on axes of the current figure is added to that figure, and the file shows the figure with it.

### C257 The colour bar of a plot tells the value of every pixel

partial; `Props/PlotOptions`: `C257_value_partial`, `C257_whole_partial`, `C257_limits_partial`, `C257_constant_fails`.

Refuted: **C257 fails** for a variable that has the same value everywhere and is laid over a hillshade: no pixel gets a colour, as if there were no data, though the colour bar is drawn. In a map it has the colour of the lower end. Proved part (C257_value_partial): **C257** (proved part). The colour bar tells the value of every pixel: if the limits are apart, the place of the colour of a value that lies between the limits is where the colour bar states this value, in maps and in overlays; a value beyond a limit has the colour of that limit. In particular values and colours are in the same order. Proved part (C257_whole_partial): **C257** (proved part). Without limits from the user, every value of the raster lies between the limits, which are values of the raster themselves, so that the colour bar tells every value as it is. Proved part (C257_limits_partial): **C257** (proved part). There are limits exactly if the raster has a value or the user gives both; a limit that the user gives is used.

### C258 Line options of a plot of craters apply to all craters

partial; `Props/PlotOptions`: `C258_one_partial`, `C258_kinds_partial`, `C258_several_fails`.

Refuted: **C258 fails** for several kinds: only the kind that is drawn first gets the options, all others are drawn with the defaults. Proved part (C258_one_partial): **C258** (proved part). One kind of craters is drawn as asked; every option that is not given has its default: no filling, a line of width 0.1, dotted for the original outlines and solid for the others. Proved part (C258_kinds_partial): **C258** (proved part). The outlines are those of the kinds asked for, in order: the emplaced craters lie below the observed ones.

### C259 The keys of the three-dimensional view work whatever interval is shown

partial; `Props/ViewKeys`: `C259_moved_fails`, `C259_keys_partial`.

Refuted: **C259 fails** after a step to another interval: whatever has happened to the view before and whatever keys are pressed afterwards, from the first arrow key on the view shows the surface and the default label. The keys for the craters and the label do nothing any more, the craters cannot be shown, the help text is gone, and a label is shown even if none was asked for. Proved part (C259_keys_partial): **C259** (proved part). As long as no other interval is gone to, the keys work, however often they are pressed: the help text is to be seen after an odd number of `h`, the label, if there is one, after an even number of `l`, and the key of the craters, if there are any, goes through the four styles and then hides them; the surface is always to be seen.

### C260 A copy of a projectile has the properties of the original

partial; `Props/ProjectileCopy`: `C260_generic_partial`, `C260_velocity_fails`.

Refuted: **C260 fails** for the velocity of asteroids and comets: a copy has all properties of the original but the velocity, which is the mean velocity of the target body. A copy of a projectile with a sampled or given velocity thus has another velocity. Proved part (C260_generic_partial): **C260** (proved part). A copy of a projectile of the generic kind equals the original in all properties.

### C261 A region has the faces within the radius it reports

partial; `Props/RegionRadius`: `C261_shrinking_partial`, `C261_larger_fails`, `C261_growing_fails`.

Refuted: Asking a region for a subregion that is not smaller is not refused. The result reports the larger radius, but has the faces of the region: of the faces within the reported radius it lacks exactly those that touch no face within the radius of the region. Refuted: After that a subregion with a radius in between has more faces than the region it is taken from: all faces that touch one of the region's faces within that radius. Proved part (C261_shrinking_partial): However many regions are taken out of one another, as long as no radius is larger than the one before it, the last has every face within the radius it reports, reports the last radius asked for, and has only faces that the first has.

### C262 Replacing the morphology model keeps the crater lists

partial; `Props/Promotion`: `C262_lists`, `C262_refused_fails`, `C262_shared`, `C262_shared_fails`, `C262_removed`.

Refuted: **C262 fails** when the new model refuses a crater: the exception comes after the model was replaced, and leaves the lists with craters of two models. Exactly the craters before the refused one, emplaced before observed, are made anew. Refuted: **C262 fails** for craters that are both emplaced and observed: after the model was replaced they are different objects. Whatever is assigned to an observed crater then is not seen in the emplaced list, neither before nor when that list is saved.
