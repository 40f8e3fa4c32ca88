# Formal model of BeamIO-Inc/resippy in Lean 4 - design

## 1. What is proved, and about what

`/repo/resippy` is a Python/numpy library (image chipping, ENVI/GeoTIFF handling, camera
models, orthorectification, navigation interpolation, spectral detectors, text readers).
`/verif/lean/Verif` contains

* `Verif/Base.lean`, `Verif/Str.lean` - the few Python/numpy notions the models use
  (exceptions as values `Py`, negative-index wrap-around, slices, row-major arrays `A1`,
  `A2`, `A3`, non-finite division `fdiv`; strings as `List Char`, split/join/strip);
* `Verif/Model/*`  - the model, function by function; every definition cites the file and
  lines it models and states its simplifications;
* `Verif/Lemmas/*` - helper lemmas;
* `Verif/Props/*`  - for each property of `properties.jsonl` a small independent
  specification, the theorem(s), and beside each theorem an `example` showing that a
  concrete, non-trivial case meets the hypotheses.

Naming: theorems of property Cnn are named `Cnn_...`.  The suffix `_partial` marks a theorem
that proves only part of its English property; its comment says what is missing.  The suffix
`_false` marks a theorem that proves that the code violates (part of) the property: where the
failure needs a particular input it gives a witness, where it happens for a whole class of
inputs it is proved for the whole class.  Every property of status `partial` has such a
theorem: the missing part is missing because the code does not satisfy it, not because the
proof stopped.  `MANIFEST.json` maps properties to theorems.

## 2. Trusted base

**Kernel and axioms.**  Lean 4.33.0's kernel.  `AXIOMS.md` lists the axioms of every property
theorem as printed by `#print axioms`: none uses any axiom but `propext`, `Classical.choice`
and `Quot.sound`.  There is no `native_decide`, no `bv_decide`, no axiom of our own.
`decide +kernel` is used for closed string computations; it is evaluated by the kernel.

**Statements.**  Mathlib's definitions used in statements (`ℚ`, `ℝ`, `Real.sin`, `Real.cos`,
`Real.sqrt`, `Real.log`, `Complex.arg`, `Matrix`, finite sums, ordered fields, `Int.floor`),
the definitions in `Base.lean`/`Str.lean`, and the specifications at the top of each
`Props` file.

**The reading of the source.**  The model is hand written from the text of `/repo`; the code is
not run.

**Numbers.**  Python `int` is `Int`/`Nat`.  Floating point numbers are exact elements of an
ordered field (`ℚ` in computable examples, `ℝ` where sin/cos/sqrt occur): rounding, overflow
and numpy's fixed-width dtypes are NOT modelled, except where a property is about them: a
division by zero is an explicit non-finite outcome (`fdiv`), NaN is `none` where data may be
missing (spectra, DEMs), int8 indices (C12), int8 masks (C37), the conversion to an image's
data type (`cast`), `int()` truncation, two's-complement images (C126, C127).  Rounding is modelled in
C129-C137 and C155-C157: there the same functions are written again with a rounding function after every operation
(`Model/Rounded.lean`; with the identity they are the exact models, which is proved), and `fl p` rounds
to `p` significant bits, half to even, for every `p` (float64: 53, float32: 24).  Exponents are unbounded
there: overflow, subnormal numbers and signed zeros are modelled in `Model/Ieee.lean` (C188-C191: means and spectral angles) and `Model/SolverIeee.lean` (C201, C202: inversion of RPC images) only.  NaN inputs are modelled, with exact
arithmetic, in `Model/Missing.lean` and `Model/Voids.lean` (C160-C168; NaN is `none`, infinities are identified with NaN).

**Arrays.**  Numpy arrays are (shape, index function) pairs; equality is in-bounds extensional
equality (`.Same`).  Aliasing is modelled with a heap where a property is about it
(C50, C70, C99, C109), and with strided arrays over numbered buffers in C193-C195, where `np.reshape`
is taken to return a view exactly when the axes it joins follow one another at equal distances (size-one
axes ignored) and `np.array`, arithmetic and `np.zeros` to return new buffers; elsewhere functions are pure.

**External libraries** appear as parameters with a contract stated where they are introduced, or
as explicit formulas:

| library | what is assumed |
|---------|-----------------|
| `gdal.InvGeoTransform` | inverse of the affine map by its formula; fails on a singular one |
| GDAL datasets | a value (size, bands, geotransform, projection, no-data); `Create`/`WriteArray` store it, `Open` returns it; a missing file gives None |
| `gdal.Warp` | arbitrary function of options and dataset that may also fail (C107) |
| pyproj | arbitrary functions; where a round trip needs it, mutually inverse 2-D maps; vertical shifts as a parameter (C91) |
| `np.linalg.inv` | any two-sided inverse, LinAlgError when there is none (`InvContract`) |
| `scipy.linalg.fractional_matrix_power` | a symmetric square root, resp. inverse square root (`PowContract`) |
| `scipy cKDTree.query` | any answer with valid indices, the true distances, in ascending order |
| `map_coordinates`, `skimage.transform.warp`, `RectBivariateSpline` | parameter kernels; clipping and constant fill outside as in skimage 0.15 |
| `np.argsort` | any sorting permutation; `np.searchsorted`, `np.interp` on sorted data by their documented formulas |
| `np.histogram` | documented binning (last bin closed) |
| scikit-learn `PCA(copy=False)` | centres its argument in place (C99) |
| pint | a product with a unit is a quantity; a product with text or None is a TypeError |
| regular expressions | the two substitutions of the snake-case converter, by their leftmost non-overlapping semantics |
| `glob`, `os.listdir`, `os.walk` | the matching names in an arbitrary order |
| `float()`, `int()` on text | a parameter `pf` (any partial function from text to numbers), int literals by their grammar |
| `csv.reader` | on files without quotes: split at commas |
| file system | a map from names to contents; a crash leaves a prefix of the writes (C62, C138, C141, C142); a file opened for writing is incomplete until it is closed |
| processes | run one effect or system call at a time, in the order of an arbitrary schedule (C139, C140); `mkdir`, `exists`, `isdir` are atomic and nobody removes directories; `os.makedirs` as in Python 3 |
| ENVI files | bytes for the data, ASCII text for the header |
| EXIF/imread/PIL/imageio | the tag dictionary and the pixel array are inputs |
| keras | `predict` is an arbitrary row-wise function; class numbers are those of the sorted folder names |
| `utm` | the documented latitude letters |
| shapely | a polygon's bounds as the minimum and maximum of its points |

**Not modelled at all:** plotting, the numerical work of keras training, demos and tests, the
GUI code, downloads, driver code that only forwards to external packages.

## 3. Property by property

`proved`: every sentence of the property is a theorem about the model.  `partial`: some part is
refuted by a `_false` theorem and the rest proved.

| id | status | model | how it is proved |
|----|--------|-------|------------------|
| C01 | proved | `Chipper`: `chip_entire_image_to_memory` with arange, clamp, set, sort, nested loops, chip copy | arithmetic on the last multiple of the step; membership in the clamped sorted set |
| C02 | partial | `Chipper`: `chip_images_by_pixel_upper_lefts` incl. Python slices, shape check, broadcasting | loop invariant over the list of upper lefts; FALSE when off-image chips are not kept (witness) |
| C03 | proved | `Chipper`, same function | strict sortedness of the deduplicated sorted list, pairwise order of the product |
| C04 | proved | `Chipper`: clamping branch by branch | case analysis + loop |
| C05 | partial | `Chipper`: `chip_images_by_pixel_centers` | `int()` truncation toward zero, then C04; FALSE for 1-pixel chips |
| C06 | partial | `Chipper`, same | exact acceptance criterion; FALSE (numpy broadcasting of a length-1 slice) |
| C07 | proved | `Chipper`: `write_chips_to_disk`, file names and contents | injectivity of zero-padded decimal numerals |
| C08 | proved | `ImageUtils`: flatten/unflatten of bands and cubes | div/mod arithmetic |
| C09 | proved | `ImageUtils`: `create_pixel_grid` | `arange` with a fractional step = ceil |
| C10 | proved | `ImageUtils`: `normalize_grayscale_image` | field arithmetic; constant image = non-finite outcome |
| C11 | proved | `ImageUtils`: `create_detection_image_from_scores`, any ascending argsort | invariant: later (larger) scores overwrite |
| C12 | partial | `ImageUtils`: `apply_colormap`, continuous and discrete, int8 index array | interpolation algebra; FALSE beyond 128 colours |
| C13 | proved | `ImageUtils`: `blend_images` | field arithmetic |
| C14 | partial | `ImageUtils`: point masks (image_mask_utils) | `numpy.where` = row-major filter; FALSE for shared labels |
| C15 | proved | `Registration`: `image_mmi` with `np.histogram` binning | log-sum inequality (Gibbs) over ℝ |
| C16 | proved | `PointCalc`: `lon_lat_alt_to_pixel_x_y` (ndim dispatch, flatten/unflatten, alt None/scalar) | case analysis on the shapes |
| C17 | proved | `Geotiff`: affine maps, `InvGeoTransform` by formula | algebra |
| C18 | partial | `Geotiff`: extent by corners | unrotated case; FALSE for rotated rasters |
| C19 | partial | `PointCalc`: iterative solver incl. delta search and Newton update | algebra for affine projections, an open region of convergence; FALSE if the x-derivative in lon vanishes |
| C20 | partial | `PointCalc`, same | holds whenever the loop broke early; FALSE (silent non-convergence) |
| C21 | partial | `PointCalc`: ray caster (steps, reverse first-hit loop, line intersection) | loop invariant + algebra; FALSE for vertical rays |
| C22 | partial | `PointCalc`, same | FALSE (one-sample ray, IndexError); otherwise proved |
| C23 | partial | `Geotiff`: `RPCPointCalc.compute_p` | exact difference to RPC00B; FALSE (term 19) |
| C24 | proved | `Rotation`: `create_M_matrix`, six orders | `ring`/trigonometric identities; invalid order = zero matrix |
| C25 | proved | `Rotation`: `solve_for_omega_phi_kappa` with atan2 = `Complex.arg` | trigonometric identities |
| C26 | proved | `Rotation`: boresight offsets | matrix algebra |
| C27 | proved | `Camera`: `PinholeCamera` | algebra, independence of two rows |
| C28 | proved | `Camera`: `IdealPinholeFpaLocalUtmPointCalc` pixel formula | algebra |
| C29 | proved | `Camera`: `FixturedCamera` state machine | induction over setter calls + orthogonality |
| C30 | proved | `Camera`: `OpenCVPointCalc` | algebra |
| C31 | partial | `Camera`: `Pix4dPointCalc` | algebra; FALSE (third radial coefficient index) |
| C32 | partial | `Grids`: `IgmPointCalc`, inverse-distance weights | convexity; FALSE for a scalar altitude |
| C33 | partial | `Grids`: `EarthOverheadSensorModel` | refinement to a map band -> calculator; FALSE for missing bands, shared list |
| C34 | proved | `Grids`: `create_ground_grid` | linspace algebra |
| C35 | partial | `Grids`: `world_poly_to_geo_t` against the grid | exact error; FALSE (divides by npix+1) |
| C36 | partial | `Ortho`: per-pixel resampling with masks | pointwise case analysis; FALSE for the other path |
| C37 | partial | `Ortho`: `mask_image` | pointwise; FALSE for int8 data |
| C38 | proved | `Ortho`: `get_extent` border pixels | membership both ways |
| C39 | partial | `Ortho`: `are_pixels_obstructed_by_dem` | exact characterisation; FALSE (walks the wrong way) |
| C40 | partial | `Ortho`: `get_pixel_values` | mean between min and max; FALSE at edges and for window 1 |
| C41 | proved | `Ortho`: `ConstantElevationDem` | pointwise |
| C42 | partial | `Ortho`: `GeotiffDem` nearest | clamp arithmetic; FALSE for one-row rasters |
| C43 | partial | `Ortho`: `GeotiffDem` bilinear | convexity part; FALSE (weights are the distances) |
| C44 | proved | `Nav`: interpolation, `searchsorted` | bracket lemma by sortedness |
| C45 | proved | `Nav`, same | case analysis |
| C46 | partial | `Nav`: headings | FALSE at the 0/360 wrap; otherwise proved |
| C47 | partial | `Nav`: EO loader, per-column appends, swallowed exception | FALSE on partially parsed lines; otherwise loop invariant |
| C48 | partial | `Nav`: leap-second table, both conversions | monotone search; FALSE just before leap instants and before 1980 |
| C49 | proved | `Nav`: week/seconds | division algorithm |
| C50 | partial | `Spectrum` with a heap of arrays (aliasing) | invariant: returned addresses are fresh; FALSE for integer data |
| C51 | proved | `Spectrum`: `resample_spectrum_direct` values, `np.interp`, `trapz` | weighted-average algebra |
| C52 | proved | `Spectral`: mean/demean with masks | finite sums |
| C53 | partial | `Spectral`: covariance | positive semidefiniteness, affine change; FALSE for one band (0-d result) |
| C54 | partial | `Spectral`: RX | quadratic form; total over the image |
| C55 | proved | `Spectral`: ACE | Cauchy-Schwarz for the covariance inner product |
| C56 | proved | `Spectral`: SAM | Cauchy-Schwarz |
| C57 | partial | `Spectral`: the 2-D functions against the 1-D ones | flattening lemmas; FALSE for transform without masks |
| C58 | partial | `Spectral`: covariance equalisation, `PowContract` | matrix algebra |
| C59 | partial | `Envi`: byte-level layout, file-system map | div/mod layout algebra; FALSE for interleaves other than 'bil' |
| C60 | partial | `Envi`: header reader with lines as a stream | termination by structural recursion; FALSE for an unclosed brace (infinite loop value `loops`) |
| C61 | partial | `Envi`: data-type tables | table lookup for all codes |
| C62 | partial | `Envi`: crash points = prefixes of the write script | case analysis on the crash point; FALSE cases by witness |
| C63 | partial | `TextUtils`: write/read list of lines | list induction; FALSE for an empty last line |
| C64 | partial | `TextUtils`: newline removal, POSIX and Windows | list induction |
| C65 | proved | `TextUtils`: snake case (two regex substitutions) | word decomposition by induction |
| C66 | proved | `TextUtils`: tuples <-> lists | transpose induction |
| C67 | partial | `TextUtils`: directory listings | filter characterisation |
| C68 | proved | `Rotation`: `create_r_matrix` | trigonometric algebra |
| C69 | partial | `Readers`: pix4d parameter files | reader/grammar equivalence by line induction |
| C70 | partial | `Images`: band store with a heap | refinement with aliasing |
| C71 | proved | `Images`: metadata setters/getters | induction over the history |
| C72 | partial | `Ortho`/`Images`: disk fallback | FALSE when unloaded; otherwise proved |
| C73 | partial | `Camera`: simulator orientation | C25; FALSE for units |
| C74 | partial | `Readers`: SVC, ENVI ASCII, CSV, USGS | reader/grammar equivalence |
| C75 | proved | `Grids`: `get_nx_ny_pixels_in_extent` | floor arithmetic |
| C76 | partial | `Nav`: leap table, epochs and `bisect_right` through the machine's time zone, a function of the date (parameter) | exact: right, one second off or off by the zone's move; FALSE for a non-UTC machine |
| C77 | partial | `Envi`: header guessing of `EnviImage.init_from_file` | case analysis on which files exist; FALSE with a stale header |
| C78 | partial | `Images`: `read_band_from_disk` against `read_all...` | pointwise; FALSE for negative bands |
| C79 | partial | `Images`: GeoTIFF write/open with a GDAL dataset as value | round trip; FALSE for fractional no-data, larger data, NaN no-data |
| C80 | partial | `Images`: MicaSense time stamps | decimal numerals; FALSE with leading zeros |
| C81 | partial | `Images`: EXIF rationals | field algebra; FALSE for denominators |
| C82 | partial | `Readers`: pix4d master dictionary | dictionary induction; FALSE for camera 0 and >= 10 |
| C83 | proved | `Csv`: `csv_to_dict` | reader/grammar equivalence |
| C84 | partial | `Scoring`: window generation, prediction, ledger | alignment by induction; FALSE for one chip, default ledger |
| C85 | partial | `Scoring` + `ImageUtils`: heat map | composition with C11 |
| C86 | proved | `Scoring`: label file | sorted class numbering |
| C87 | partial | `NavObject`: named getters, records | column lookup for all histories |
| C88 | partial | `DemObject`: set/replace no-data histories | invariant over the history |
| C89 | partial | `Micasense`: factory by file names | string decomposition, dictionary induction |
| C90 | partial | `Micasense`: from array, `np.squeeze` | pointwise; FALSE for one row |
| C91 | partial | `Workflow`: pixel->world->pixel through projections | composition of solver and transforms; FALSE for 3-D transforms |
| C92 | partial | `Workflow`: `get_pixel_lon_lats` | FALSE on slopes; one correction step characterised |
| C93 | partial | `Workflow`: full-size orthophoto spacing | floor arithmetic; FALSE default gsd |
| C94 | partial | `Workflow`: camera simulator image | pointwise; FALSE when a projection is set |
| C95 | partial | `Workflow`: `create_igm_image` | pointwise; FALSE for unloaded/2-D data |
| C96 | proved | `Workflow`: UTM letter bands | case analysis over the letters |
| C97 | partial | `Readers`: P-matrix file | reader/grammar equivalence |
| C98 | partial | `Workflow`: shifts in metres | algebra; FALSE away from the equator (Mercator scale) |
| C99 | partial | `Workflow`: PCA, `copy=False` | pointwise + heap; FALSE (caller's array is centred in place) |
| C100 | proved | `ImageUtils`: `create_uniform_image_data` | pointwise |
| C101 | partial | `Readers`: USGS library file selection over any glob order | string lemmas; FALSE (depends on the order) |
| C102 | proved | `TextUtils`: folder listings, paths | filter/join characterisation |
| C103 | partial | `Setup`: RPC text file to calculator | line grammar, 92 values; FALSE for short files |
| C104 | proved | `Setup`: `init_from_wgs84_params`, IFOV | trigonometric identities |
| C105 | partial | `Setup`: projections of sensor model and calculators | state-machine invariant; FALSE for later additions |
| C106 | partial | `Setup`: OpenCV parameter dictionary | parameter-by-parameter; FALSE for the zone |
| C107 | partial | `Warp`: `gdalwarp_geotiff_image`, DEM height conversion; GDAL's warp is a parameter that may fail | case analysis on files and outcomes |
| C108 | partial | `Warp`: `grid_warp_image_band`, backup ortho | pointwise, clip algebra |
| C109 | partial | `SpectrumObject`: heap of spectra and arrays, units | induction over histories, frame lemmas |
| C110 | partial | `Shapes`: n-dimensional arrays as shape and index function, PIL images; the filter is a parameter | case analysis on the number of axes; FALSE for four axes, `gdal_grid_image_band` |
| C111 | partial | `ImageObjects`: `EnviImage`; GDAL's dataset is a parameter | induction over the band loop, composed with C77; FALSE for stale headers |
| C113 | partial | `ImageObjects`: attributes of overhead images, the factories | induction over histories; FALSE for unset attributes and unchecked metadata |
| C114 | partial | `ImageObjects`: attributes of DEM objects | induction over histories; FALSE before the first assignment |
| C112 | proved | `Training`: Keras' directory iterator, epochs and batches as contracts | chunking lemma, permutations, composed with C86 |
| C115 | proved | `Training`: heap of layers, networks as lists of layers | fold lemma, frame |
| C116 | proved | `Training`: `ModelCheckpoint` as a fold over losses | invariant by induction over epochs |
| C117 | partial | `Training`: numbering of folders in both directories | permutation argument; FALSE for other names |
| C118 | partial | `Training`: rank of a network's output | direct; FALSE with classification layers |
| C119 | partial | `Training`: one default optimizer object for all calls | induction over calls; FALSE |
| C120 | proved | `Chipper.writeChips` with given names | induction over the chips, injectivity of the path |
| C121 | proved | `ImageUtils.applyColormapBins` (recursive call on a linspace row) | palette position calculus, uniqueness of the interpolated colour |
| C122 | proved | `OrthoFile.orthoImage` (ortho, from_numpy_array), `Images.DImage.write`/`openImage`, `Geotiff` calculator | C36 exact formula + C79 round trip + inverse of the geo transform |
| C123 | partial | `Ortho.ortho` with mask | C36 + C37; FALSE for dark pixels and for no-data values the type cannot hold |
| C124 | proved | `Collect.makeMasterDir`, `Collect.initFromMaster` | filter of the listing; reader theorems C69, C82 composed with the camera of C31 |
| C125 | proved | `Exif.gpsTimestampAndCenter`, `Exif.Civil` (Gregorian calendar) | induction-free calendar successor law, C49; order from monotone leap seconds |
| C126 | partial | `IntImages.normalizeInt`, `discretePixelInt` (two's-complement `wrap`) | exact characterisation (`C126_iff_partial`); FALSE for signed types whose range overflows |
| C127 | partial | `IntImages.samInt`, `samSame` | exact for unsigned types (`C127_unsigned_iff_partial`); FALSE when squares or inner products overflow |
| C128 | partial | `Collect.makeMasterAll`: the whole of `make_master_dict`, with the projection (osr/pyproj as a parameter) and the key 'r_matrix_computed' it writes in every turn | Induction over the images with the dictionary as invariant; the special names have no one-character camera number, so no image can carry them. `_false`: one matrix for the whole collect, that of the last image |
| C129 | partial | `Rounded.createPixelGridR` with `Rounding.fl p`: every operation rounded to p bits, ties to even | relative error of each operation (`fl_rel`) and monotonicity of rounding; `C129_count` says when the count is exact; exact for powers of two. FALSE at scale 49 |
| C130 | partial | `Rounded.blendImagesR` | product of (1+d) factors; 1-w exact for w >= 1/2 (Sterbenz). FALSE: a blend of two pixels 255 can be 255.00000000000003 or 254.99999999999997 |
| C131 | partial | `Rounded.normalizeGrayscaleR` | monotone rounding; a quotient of equal floats is 1; exact ends when the width is a float. FALSE for [0.3, 0.9] |
| C132 | partial | `Rounded.interpAtR`, `nativeR` | the bracketing records of C44, then the error of one interpolation. FALSE: the record at 0.1 is returned as 0.10000000000000002 |
| C133 | partial | `Rounded.pixelsInExtentR` | floor of two numbers less than one apart. FALSE: 5 instead of 4 pixels of 0.1 in 0.5 |
| C134 | proved | `Rounded.utcToGpsR`, `gpsToUtcR` | multiples of 2^e below 2^(p+e) are floats, so nothing is rounded; then C48 |
| C135 | proved | `Rounded.gpsWeekR` | fraction of a float is a float (`isFloat_frac`), two multiplications rounded; `C135_not_exact` shows the error is real |
| C136 | proved | `Rounded.pixelToWorldR`, `worldToPixelR`, `invNorthUpR` | products of (1+d) factors; 15u * 2^(p-5) < 1/2; `C136_truncation`: truncation instead of rounding loses pixel 31 |
| C137 | proved | `Rounded.groundGridR` | error propagated through the step and the half step (`fl_near`); `C137_tiny_cells` shows that the condition on the cell size is needed |
| C138 | proved | `Jobs`: `write_chips_to_disk` as the list of its effects (file opened, file complete) | invariant over every prefix of the effects; refinement to `Chipper.writeChips` |
| C139 | proved | `Jobs.Work`: any number of such lists run by an arbitrary schedule | induction on the schedule; chip file names tell directory, base, number and format |
| C140 | partial | `Jobs`: `os.makedirs`, `make_dir_if_not_exists` as trees of system calls, `World` = processes + directory tree | rely/guarantee (`Sure`) over any other processes and any schedule, with a bound on the turns; FALSE for `make_dir_if_not_exists` (race) |
| C141 | partial | `TextUtils.writeTextList`/`readTextList` with any prefix of the file | every prefix reads as the first lines plus the beginning of one; FALSE (a cut label is read) |
| C142 | partial | `TrainFiles.trainActs`: label file, then the model after each better epoch | every prefix; best epoch between epochs; FALSE while the model file is rewritten |
| C143 | partial | `TrainFiles` run again on the disk left behind | FALSE: the first epoch replaces a better model; within one call best of its epochs |
| C144 | partial | `TrainFiles`: both files with the training they come from | every prefix; FALSE for a directory with a model of other classes |
| C145 | partial | `Model/MicaHistory.lean`: calls one after another on one disk, effects kept when a call raises | induction over the calls against a "last write wins" specification of the disk; consequence for every band of every image; reused names refuted by a witness |
| C146 | partial | `Model/MicaHistory.lean`: the band loop with the disk kept at the exception | induction over the bands: exact disk and answer; the failed call that has overwritten a file as witness |
| C147 | partial | `Model/SharedDem.lean`: a heap of image objects, DEMs holding image numbers, GDAL's files | frame lemma per operation, then induction over the history; the closing of the shared image proved for every scene |
| C148 | partial | `Model/SharedDem.lean`: the same operations with the DEM kept when they raise | case analysis of each failure point: exact state left behind |
| C149 | partial | `Model/SharedGeot.lean`: a heap of six-element lists, calculators holding list numbers and the inverse computed at `set_geot` | frame lemma per operation and induction over the history; exact characterisation after an assignment; two images from one list proved wrong for all geotransforms |
| C150 | proved | `Model/EnviJobs.lean`: each call as its list of byte-level effects on the disk, processes taking turns by an arbitrary schedule | invariant over the schedule: on files no other process touches the disk shows a prefix of the call's own effects; then the single-writer round trip |
| C151 | partial | `Model/EnviJobs.lean`: `FileOp` (emptying a file, writing a byte at an offset), several processes with the same file open | invariant "the process that emptied the file last finds everything it wrote still there" by induction over the schedule; a mixed image for the false part |
| C152 | partial | `Model/CalcObject.lean`: attributes as unset / None / value, one factory type with what each factory assigns, the public call with native method and solver as parameters | case analysis over the factories of one general call lemma; OpenCV and bare sensor models proved to fail for all arguments |
| C153 | partial | `Model/CalcObject.lean`: the setters as operations | induction over the history |
| C154 | partial | `Model/NavHistory.lean`: the object's four attributes, both loaders as state transformers that keep what was assigned before an exception, the factory | case analysis per failure point; induction over the history of loads gives the exact state |
| C155 | proved | `Model/FloatSpectral.lean`: the order of additions is a binary tree over the samples, each addition and the division rounded | induction on the tree gives the error bound for every rounding with relative error u; whole-number sums are exact by induction |
| C156 | proved | `Model/FloatSpectral.lean`: inner products are trees of rounded products, fused multiply-adds and rounded sums; square roots, product and quotient rounded | induction on the tree and Cauchy-Schwarz; scaling by powers of two commutes with rounding |
| C157 | partial | as C155 and C156 | whole-number means by monotone rounding, the bound on the score from C156; witnesses: three samples of 0.1 have a mean above 0.1 (`C157_mean_false`), (1,1,1) scores above 1 against itself (`C157_sam_false`) |
| C158 | proved | `Model/Spectral.lean`; `np.linalg.inv` a parameter satisfying `InvExact` (the inverse when there is one, LinAlgError otherwise) | the default scores are quadratic forms in the inverse sample covariance (`C54_default`, `C55_default`); the covariance becomes `A C A^T`, whose inverse is computed in Mathlib's matrices |
| C159 | proved | `Model/Spectral.lean`, both versions | a bijection of the samples leaves sums over kept samples unchanged; a rearrangement of an image induces one of the flattened samples |
| C160 | proved | `Model/Missing.lean`: the routines of `Model/Spectral.lean` with samples that may be NaN (`none`); sums and products with a NaN are NaN | sums over the samples the mask leaves; on whole images the model is that of C52-C56 (`meanN_whole`, `covN_whole`, `rxN_whole`) |
| C161 | partial | `Model/Missing.lean` | NaN spreads through sums; with computed statistics one missing value makes all RX and ACE scores NaN (`C161_rx_false`, `C161_ace_false`) |
| C162 | proved | `Model/Missing.lean`: `nanmin`/`nanmax`, comparisons with NaN false | case analysis on one pixel; the limits are the minimum and maximum of the numbers only |
| C163 | partial | `Model/Missing.lean`; numpy sorts NaN last, so a NaN score is the top element | one NaN makes every normalised pixel NaN (`C163_normalise_false`), paints over the other chips (`C163_detection_false`), and has the first colour of the discrete colormap (`C163_discrete_false`) |
| C164 | proved | `Model/Voids.lean`: bilinear interpolation over cells that may be NaN; nearest is the generic model of C42 | the cells used are exactly the cells next to the point (floor and ceiling, clipped); case analysis on the four |
| C165 | proved | `Model/Voids.lean`: the ray caster of C21 with comparisons with NaN false | the search loop finds the first sample known to be above the ray; if there is none the last sample is a void and the wrapped index meets it |
| C166 | partial | `Model/Voids.lean` | C21's statement when all samples up to the hit are known; voids before are never looked at again (`C166_unnoticed_false`), instance `C166_behind_false` |
| C167 | partial | `Model/Voids.lean`: the obstruction test of C39 with comparisons with NaN false | marked exactly when known to be above; monotone in the known terrain; a pixel in a void is never marked (`C167_void_seen_false`) |
| C168 | partial | `Model/Voids.lean`: the solver of C19 with altitudes that may be NaN: NaN average, steps 2, no early stop | induction on the iterations: each other pixel is updated `max_iter` times with steps 2; exact for affine sensors, NaN for another (`C168_others_lost_false`) |
| C169 | proved | `Model/FloatGeom.lean`: `rpcR` rounds after each operation of `compute_p` and the final scaling | relative-error calculus `Approx` (Lemmas/FloatGeom): at most 22 roundings per polynomial term, then the quotient bound; binary64 instance by arithmetic |
| C170 | proved | `Model/FloatGeom.lean`: matrices with rounded sin/cos/products, matrix product over an arbitrary summation tree | `Approx` through products and sums; orthonormality from the exact rotation (C24) plus perturbation |
| C171 | proved | `Model/FloatGeom.lean`: `imagePlaneR` | `Approx` for the three dot products, quotient bound |
| C172 | partial | `Model/FloatGeom.lean`: `anglesR` with asin/acos undefined outside [-1,1] | error propagation through asin and acos (Lipschitz away from the ends) gives the partial theorem; witnesses where rounding pushes the acos argument above 1 (`C172_level_false`, and with correctly rounded binary64 `C172_binary64_false` using rational trig bounds of Lemmas/TrigBounds) |
| C173 | proved | `Model/PointCalc.lean`: the iterative solver; spec `CloseTo`, `Sees`, `Request`, `Found`, `Projective` in Props/Convergence*.lean | the finite-difference step contracts the distance to the target by a factor that depends on the distance from affine; induction over the iterations; a projective sensor is close to its tangent map (explicit constant), the ideal pinhole camera is projective |
| C174 | proved | `Model/PointCalc.lean`: `castRay`; spec `Gentle` (bounded slope) in Props/RaySlope.lean | between two samples the height of the ray above the terrain changes at most by slope times half the spacing (from `C21_first_hit` and `raySteps_spacing`) |
| C175 | proved | `Model/FloatDem.lean`: `demBilinearR` | `Approx` calculus through weights, sums and the quotient; `C175_double` for binary64 |
| C176 | proved | `Model/GeoFiles.lean`: image objects with lazily read datasets over files with generations; GDAL on a replaced file is an arbitrary function | refinement to the copy-on-open specification `Copies` by induction over the calls; sufficient condition "no file is both opened and written"; end-to-end `C176_copy` |
| C177 | partial | `Model/GeoFiles.lean`: `write` empties the target before it reads | two files that differ in their pixels give the same result, so one of them is not preserved; partial for loaded images (instance of C176) |
| C178 | partial | `Model/GeoFiles.lean`: `write` with its state at the exception | case analysis; witnesses: closed image, NaN no-data value |
| C179 | partial | `Model/WarpFiles.lean`: `warp` over the same files | named destinations: the generation of the file is unchanged by other warps (induction); default name: two-worlds argument as for C177 |
| C180 | proved | Model/FloatSolver.lean: the conversion of C173 with every operation followed by a rounding; the forward projection is a parameter | Lemmas/FloatSolver.lean: backward error of the 2x2 elimination without pivoting, error of the difference quotients; Props/FloatSolver.lean: induction over the iterations with the bounds of C173 enlarged (`Budget`); Props/FloatCamera.lean: default settings in double precision |
| C181 | proved | Model/FloatSolver.lean `fpaPixelR`: the pixel computation with every operation rounded, on top of the float image plane of C171 | C171 plus the rounding of flip, offset and division; then C180 with the camera as the computed projection |
| C182 | proved | `Lens`, `LensCamera` (specification), `Camera.OpenCV.pixel`, `Camera.Pix4d.pixel`, `PointCalc.solver`, `FloatGeom.solverR` | the distortion is Lipschitz with constant `Lens.strength`; composed with the perspective it is within `lensChange` of its tangent, then C173 and C180; the two calculators are shown to be such cameras |
| C183 | proved | `bendR`, `opencvPixelR`, `absMR`, `absXyzR` (Model/FloatLens), `createMR` | forward error analysis from the angles to the pixel (`Approx` calculus, products of two computed rotations, Lipschitz constant of the lens), composed with C182 for the conversion back |
| C184 | proved | `Model/FloatDetect.lean`: the three quadratic forms with a rounding after each operation, addition orders as trees (`FormOrder`), the mean and inverse covariance as given | calculus of rounding errors (`Approx`): `quad_approx` counts 2n+2 roundings; Cauchy-Schwarz bounds the numerator; `C184_condition` gives kappa from entry size and smallest eigenvalue; `C184_no_rounding` ties the model to C54/C55 |
| C185 | partial | as C184, over ℚ with `fl 53` for the counterexamples | `_partial`: C184 and signs of the rounded factors; `_false`: explicit float64 matrix ((k x-(k+1)y)^2+(x-y)^2, k=2^20) and sample evaluated by the kernel |
| C186 | proved | `readHeaderText` (Model/Envi), with `float()` as the parameter `pf` | separate specification `HeaderValue`/`Whole`/`Commas` with its own lists of names; induction over the entries of the file, the last text of each name followed through the dictionary |
| C187 | partial | `writeHeader` (Model/EnviWrite): `str` of a numpy array is the parameter `sa` | `_partial`: dictionaries of single-line entries round-trip (C186 applied to the written text); `_list_false`: any `sa` that starts with a square bracket, any `pf` that refuses one; `_brace_false`, `_copy_false`: no number of steps finishes the reading (`Terminates`) |
| C188 | proved | `Model/Ieee.lean`: IEEE data (`Num`: NaN, infinities, signed zeros, numbers), operations = exact result then `round`, subnormal spacing, overflow; mean and demeaning over any addition order | sums of format numbers are multiples of the smallest spacing, so they never underflow; induction over the addition tree for overflow; the quotient gets half a spacing |
| C189 | proved | as C188: `samI` with fused multiply-add, `sqrt`, division | induction over the inner-product tree with granularity and size; lower and upper bounds of the norms; equality with the model of C156, whose bound is inherited |
| C190 | partial | as C188 | `_partial`: C188; `_false`: two samples of `2^emax`, every format |
| C191 | partial | as C189 | `_partial`: C189 and C156_scale; `_false`: squares that overflow (score 0) or underflow (score infinite), every format |
| C192 | proved | `Model/PointCalc.lean`: `pixelToLonLatAlt`; `Model/FloatSolver.lean`: `solverR`; `Model/FloatGeom.lean`: `fpaPixelR` | C181 (the solver's accuracy) at the top and the bottom of the search, straightness and uniqueness of lines of sight (points with the same pixel are on one line through the camera), C174 along the computed segment |
| C193 | proved | `Model/Memory.lean`: `byUpperLeftsM` on a heap of buffers with strided arrays | refinement of `byUpperLefts` (C02) by the heap version (loop invariant over the chips written), frame lemmas for `np.where` assignments and chips |
| C194 | proved | `Model/Memory.lean`: `detect2d`, `demean2d` | contents of strided views by cases on the strides; new buffers are never old ones |
| C195 | partial | `Model/Memory.lean`: `flattenBandM`, `unflattenBandM`, `flattenCubeM` | `_false`: any image stored row after row; `_copy_partial`: other layouts are copied; `_shared_partial`: exactly which pixel changes |
| C196 | proved | `castRayR`, `castRaysR`, `rayStepsR`, `searchTopR`, `searchBottomR`, `pixelToLonLatAltR` (`Model/FloatRay.lean`): every operation of the ray caster rounded, in the order of the code | error analysis of linspace, sample positions, the slopes' difference and the interpolation for any rounding with relative error `u`; the search as in C174; in double precision all errors are below 1 mm; together with the solver of C181; with exact arithmetic the functions are those of C174 (`pixelToLonLatAltR_id`) |
| C197 | partial | as C196, with binary64 rounding `fl 53` over the rationals | counterexample evaluated by the kernel (`C197_false`); `C197_answered_partial` from C196 |
| C198 | proved | `orthoR`, `mapCoord0R` (`Model/FloatOrtho.lean`): `ortho` with the rounded ground grid and scipy's rounded `floor(c + 0.5)`; the projection is `fpaPixelR` | error of the grid (C137), how far the exact pixel moves with the ground point (`pixel_moves`), error of the camera (C181), then the index; `C198_tie` shows that "exactly the nearest" would be false; with exact arithmetic the function is `ortho` (`C198_no_rounding`) |
| C199 | proved | `interp1R`, `trapzTermR`, `trapzR`, `resampleBandR` (`Model/FloatSpectrum.lean`): every operation of `np.interp`, `np.trapz` and the quotient rounded, sums in any order | error analysis of interpolation, trapezoids, sums and quotient for any rounding with relative error `u`; condition number from the area the wavelengths see; with exact arithmetic it is C51's model (`C199_no_rounding`) |
| C200 | partial | as C199, with binary64 rounding `fl 53` over the rationals | counterexamples evaluated by the kernel (`C200_outside_false`, `C200_nan_false`); `C200_partial` from C199 |
| C201 | proved | `shifts`, `solverI`, `rpcI` (`Model/SolverIeee.lean`): the step search, the iteration and the RPC projection with IEEE overflow, infinities and NaN | the trial shift 2^1021 makes the cube of the normalised longitude infinite, so all four polynomials are infinite or NaN whatever the coefficients, and both quotients are NaN |
| C202 | partial | as C201; the partial theorem is on the exact iteration of `Model/PointCalc.lean` with shifts of two degrees | `C202_false`: an image with slopes varying by 1/16 whose secant over two degrees is flat gives NaN for every request (induction over the iterations; the projections are evaluated by the kernel); `C202_reaches_partial` from C173 when the image is close to linear over two degrees beyond its footprint; `C202_double_partial`: the same with every operation rounded to double precision (exponents unbounded), from the error bound of C169 carried far outside the image (`rpc_wide`) and the rounded convergence theorem of C180 |
| C203 | proved | `shifts`, `firstMove`, `trialSteps` (`Model/SolverIeee.lean`) for an arbitrary forward projection | the order of floats is specified separately as places on the extended line (`place`, `Below`; `ltN_iff`), then induction over the list of trials |
| C204 | proved | `newtonLoopI`, `newtonStepI`, `withinI`, `solverI` (`Model/SolverIeee.lean`) | induction over the updates left; the estimates are specified as iterates of the update; `C204_update` compares an update with the rounded one of `Model/FloatSolver.lean` operation by operation, with bounds on every intermediate result |
| C205 | proved | `rpcI`, `computePI` (Model/SolverIeee.lean): the RPC projection with every operation in IEEE arithmetic | rounding errors with a size floor (`Slack`) so that subnormal results are covered; values tracked through all 60 operations to exclude overflow |
| C206 | proved | `rpcPixelToLonLat`, `newtonLoopI`, `newtonStepI`, `withinI`, `rpcI` (Model/SolverIeee.lean) | the shifts are two degrees (C201); pixels far outside the image are accurate to a millionth of a pixel and multiples of 2^-54 (`Props/RpcWide.lean`), so that in an update every subnormal intermediate result is exact and the IEEE update equals the rounded one (`step_plain`, `step_ieee`); the two iterations then run in step (`loop_ieee`) and the rounded one converges (C180, C202) |
| C207 | proved | `pixUndistortedR`, `pixDistortedR`, `bendPixR` (Model/FloatPix.lean): world coordinates to pixels without and with distortion, every operation rounded, square root and powers with relative error u (`PowLib.Good`) | error of the camera frame (`frame_double`), the quotient in units of the focal length (`pixAxis_double`), then the principal point and the reversal; with distortion, relative errors through the square root (`sqrtSum_approx`) and the powers, and the Lipschitz constant of the lens |

Everything above is expressible in the model; no property is "not applicable".

## 4. Defects of the code found while proving

Each is the subject of a `_false` theorem unless marked (m), which are visible in the model and
mentioned in a comment.

* Chipping: a chip larger than a one-pixel-wide image is filled by broadcasting (C06); without
  `keep_within_image_bounds` a chip reaching over the edge repeats the remaining row (C02); one-pixel chips by centre miss the centre (C05).
* Colormaps: palettes of more than 128 bins overflow an int8 index (C12).  Masks: of two colours with
  one label the first one's pixels are lost (C14).
* Geometry: RPC term 19 uses the wrong monomial (C23); pix4d's third radial coefficient is read from
  the wrong index (C31); the solver fails for sensors rotated by 90 degrees (C19) and gives up silently
  (C20); a vertical ray and flat terrain break the ray caster (C21, C22); altitude is transformed one
  way only (C91); obstruction is tested on the mirrored side (C39); a scalar IGM altitude is replaced
  by 0 (C32); a calculator added after `set_projection` keeps its own (C105); the OpenCV projection is
  fixed to UTM 18 (C106); an RPC file with missing coefficients loads and fails on use (C103).
* Orthorectification: the geotransform divides by the number of pixels + 1 (C35); bands with separate
  calculators get 0 instead of the no-data value outside (C36); unloaded co-registered images raise TypeError (C72, C108);
  default gsd divides both extents by nx (C93).
* DEM: bilinear weights are the distances instead of their complements (C43); one-row rasters (C42);
  integer rasters with no-data raise (C88); misspelt methods are silently bilinear (C88);
  `convert_reference` always raises NameError (C107).
* Navigation and time: headings across 0/360 (C46); partially parsed lines shift columns (C47); leap
  instants (C48); the leap table is in the machine's local time, and on a machine in a zone that moved between 1970 and 1980, such as London, every GPS time is wrong by the move, an hour (C76); the EO record length is always 7
  though records have 9 entries (C87).
* ENVI: unclosed brace loops forever, the last line without newline is lost, a second '=' is a
  ValueError (C60); only 'bil' writes data (C59); code 9 is complex64 and codes 6/7/8/10/11 are read as
  float64 (C61); data and header can be mixed by a crash (C62); stale headers are preferred (C77).
* Images: `get_image_band` is a view, arrays are shared (C70); `read_band_from_disk` of a negative band
  fails (C78); `PhysicalCameraImage.read_band_from_disk` always raises (C72); fractional no-data values
  are truncated and an image whose no-data value is NaN or infinite cannot be written at all (C79); leading zeros of SubSecTime are lost (C80); EXIF denominators are ignored (C81);
  a sixth MicaSense band is dropped and only the last digit of a band number counts (C89); a one-row
  MicaSense band becomes a column (C90).
* Readers: the last line of a pix4d internal file is dropped, a truncated record is accepted (C69);
  camera 0 means the last camera, ten or more cameras are impossible (C82); USGS columns of different
  lengths are accepted (C74) and the wavelength file depends on the glob order (C101); a blank line in a
  P-matrix file adds a nameless entry (C97).
* Spectra: integer data cannot be read with no-data replacement (C50); text units stored by the readers
  make with_units fail; wavelengths and widths are returned live; one missing value spoils all bands;
  wavelength units are neither compared nor kept (C109).
* Statistics: one band gives a 0-d covariance (C53, C54, C58); transforms without masks raise (C57); PCA
  changes the caller's image (C99).
* Scoring: the default ledger and a single chip raise (C84); the chipper's own list of tuples is rejected
  by the heat map (C85).
* Warping: changes made in memory are ignored, a stale file is returned when GDAL fails,
  `create_map_tiles` always raises (C107).
* Image and DEM objects: an `EnviImage` beside a stale header silently loses bands (C111); an attribute never
  assigned is the abstract class, not None, and metadata are not checked against data (C113); a DEM without a
  projection raises AttributeError (C114); `gdal_grid_image_band` always raises (C110).
* Training: validation folders under other names are mislabelled silently (C117); the default way of loading a
  network does not fit the final layers (C118); the default optimizer is one object shared by all calls (C119).
* Crashes and races: two jobs calling `make_dir_if_not_exists` for one directory can fail with FileExistsError (C140); a cut label
  file is read as a list of labels (C141); while a better model is written the best one is gone (C142); resuming a training replaces a
  better model (C143); labels of other classes stand next to the old model until the first epoch ends (C144).
* Shared state: a second MicaSense image made in the same folder under the same names silently replaces the first one's data (C145); a call with
  too few names has overwritten files when it raises (C146); converting a DEM's heights closes the image it was made from, for every other holder
  (C147); `set_geotiff_image` with an unreadable image raises but leaves the old elevations with the new georeferencing, and with an integer
  raster leaves the no-data cells unmasked (C148); calculators keep the caller's geotransform list itself, so changing it between two images
  moves the first one's pixels but not its world-to-pixel answers (C149).
* Two processes writing an ENVI image under one name can leave a mixture that is read back without complaint (C151).
* No pixel of an OpenCV calculator, or of a MicaSense image made from OpenCV parameters, can be located: the approximate centre is never set and
  every `pixel_x_y_alt_to_lon_lat` raises TypeError (C152); reading the centre of a GeoTIFF calculator raises AttributeError instead of giving None (C153).
* Loading another navigation file with projection arguments pyproj refuses raises, but leaves the new records with the old projection (C154).
* Collects: the computed rotation matrix is stored once for the whole collect (the last image's), not once per
  image as the other orientation values are (C128).
* Integer images: `normalize_grayscale_image` and the discrete colormap subtract in the image's own type, so signed images
  whose range does not fit their type come out of the requested range or in one colour (C126); `sam` squares in the image's
  own type, so an unsigned 16-bit sample with a value of 256 or more never has the right score, and multiples of 256 have none (C127).
* Floating point: `create_pixel_grid(5, 1, 49)` has 246 columns instead of 245 (C129); blending an image of 255 with
  itself gives 255.00000000000003 or 254.99999999999997, and the latter is 254 after a cast (C130); normalising to
  [0.3, 0.9] overshoots (C131); the nav value at a record's own time is not the recorded one (C132); five pixels of
  0.1 are counted in an extent of 0.5 though 0.1 as a float is larger than a tenth (C133); whole seconds are lost in
  the GPS week computation (C135); pixel 31 of a raster with pixels of 0.3 comes back as 30.999999999999996 (C136);
  the mean of three samples of 0.1 is 0.10000000000000002 and (1, 1, 1) scores 1.0000000000000002 against itself (C157).
* Missing data: one NaN in an image makes every RX and ACE score computed with default statistics NaN (C161); one NaN makes the whole
  normalised image NaN, a chip with the score NaN is painted over all others in a detection image, and the discrete colormap gives NaN
  pixels the first colour (C163).
* DEM voids: a ray that passes a void is continued silently, so the point reported may lie behind the true one (C166); a pixel in a void, or with
  voids along its line of sight, is reported as seen (C167); one pixel with an unknown altitude changes how all pixels of the request are
  solved (steps of 2 units, no early stop), and may make them all NaN (C168).
* Level cameras: for some pitch angles, with roll and heading zero (or within 1e-8 of zero, as the camera simulator makes them), rounding makes an
  arc-cosine argument exceed 1 in `solve_for_omega_phi_kappa`, so the recovered roll and heading are NaN (C172; double precision witness pitch 251/256 rad).
* GeoTIFF files: `write_to_disk` empties the target before it reads pixels that were not loaded, so writing an opened image to its own file loses them (C177); a write that raises (image
  closed, no-data value NaN) has already replaced the file, by one that opens (C178); all warps without a destination share one name, and the image returned by an earlier one is read from
  it late (C179).
* Detectors in double precision: an RX score can be negative although the inverse covariance is positive definite, and an ACE score can exceed 1 (C185).
* ENVI headers: a header with a block entry such as map info, read and written back by `write_envi_header`, is one the reader never finishes (the closing brace is
  dropped); a dictionary with wavelengths is written in numpy's square brackets, which the reader refuses with ValueError (C187).
* Exponent range: two samples of 2^1023 have an infinite mean (C190); against the target (1) a sample of 2^512 scores 0 and one of 2^-538 scores infinity instead of 1, because the
  squares overflow or underflow; in float32 this happens from 1.9e19 and below 2.7e-23 (C191).
* `flatten_image_band` and `flatten_image_cube` return views of images stored row after row: writing to the flattened array changes the image; only images with gaps between their
  rows (cut-outs, transposed arrays) are copied (C195).
* C197: `pixel_x_y_to_lon_lat_alt` divides by the difference between the slope of the ray and that of the terrain. In double precision this difference can be zero although the ray passes from above the terrain to below it (`C197_false`): the pixel gets NaN. It cannot happen on terrain less steep than the rays (C196).
* C200: near the falling end of a band `np.interp` computes the response as a difference of nearly equal numbers; it can come out negative or zero. A spectrum that overlaps the band only there gets a value outside the range of its data (reflectances 0 and 1 give -1, `C200_outside_false`) or NaN (`C200_nan_false`). With a condition number up to a million it cannot happen (`C200_partial`).
* C201, C202: `_pixel_x_y_alt_to_lon_lat_native_solver` looks for the smallest shift that moves the projection by a pixel, but tries shifts up to 2^1021 and falls back to two degrees as soon as one of them gives NaN; the cubic polynomials of an RPC model always do. So slopes of RPC images are secants over two degrees (far outside most images), and an image that is gently curved inside its footprint may not be invertible at all (`C202_false`).

## 5. Testing the theorems

`seeded/LOG.jsonl` lists edits of the model in a scratch copy, the claims they break and the theorems
that failed; survivors were answered by tightening a theorem, which is recorded there too.
