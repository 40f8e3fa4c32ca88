{"id": "C01", "title": "Chipping a whole image covers every pixel", "statement": "If the chip is no larger than the image in each direction and 0 <= overlap < chip size, chip_entire_image_to_memory succeeds and every pixel (y, x) of the image lies inside at least one returned chip, where it appears at position (y - ul_y, x - ul_x) with the value it has in the image.", "quantifier": "every image size, every band count, every chip size no larger than the image, every overlap smaller than the chip, every pixel", "why_tests_cant": "The remainder of the image size modulo the step decides whether the last chip reaches the edge; tests sample a few sizes.", "anchors": ["resippy/utils/image_utils/image_chipper.py:chip_entire_image_to_memory"]}
{"id": "C02", "title": "Chips are faithful windows of the image", "statement": "Whenever chip_images_by_pixel_upper_lefts succeeds with chips no larger than the image, chip k, row i, column j, output band b equals image[ul_y + i, ul_x + j, bands[b]] where (ul_y, ul_x) is the k-th returned upper left; all chips have the requested height, width and number of bands.", "quantifier": "every image, list of upper lefts, chip size, band selection, and every pixel of every chip", "why_tests_cant": "A swapped axis or a shifted window agrees on symmetric samples.", "anchors": ["resippy/utils/image_utils/image_chipper.py:chip_images_by_pixel_upper_lefts"]}
{"id": "C03", "title": "Whole-image chip grid is in-bounds, sorted, duplicate free and respects the overlap", "statement": "For valid sizes the upper lefts returned by chip_entire_image_to_memory are pairwise distinct, in row-major increasing order, every chip lies entirely within the image, and consecutive rows/columns of chips are at most chip - overlap pixels apart (so they share at least npix_overlap pixels).", "quantifier": "every image size, chip size and overlap", "why_tests_cant": "Duplicates or gaps appear only for particular size/step residues.", "anchors": ["resippy/utils/image_utils/image_chipper.py:chip_entire_image_to_memory"]}
{"id": "C04", "title": "Requested upper lefts are clamped, never dropped or reordered", "statement": "With keep_within_image_bounds and chips that fit in the image, chip_images_by_pixel_upper_lefts never fails for valid bands, returns exactly one chip per requested upper left, in request order, at the requested position clamped into [0, n - chip] per axis; a request that already fits is not moved.", "quantifier": "every list of requested positions, including negative and beyond-the-edge ones", "why_tests_cant": "The clamp has four boundary conditions per axis; tests check two positions.", "anchors": ["resippy/utils/image_utils/image_chipper.py:chip_images_by_pixel_upper_lefts"]}
{"id": "C05", "title": "Chips requested by centre contain their centre", "statement": "chip_images_by_pixel_centers behaves like chip_images_by_pixel_upper_lefts called with the centre minus half a chip truncated toward zero; for a centre pixel inside the image and a chip that fits, the returned chip contains that centre pixel.", "quantifier": "every centre in the image, every chip size (odd or even) that fits", "why_tests_cant": "Truncation toward zero and odd sizes interact with clamping at all four edges.", "anchors": ["resippy/utils/image_utils/image_chipper.py:chip_images_by_pixel_centers"]}
{"id": "C06", "title": "A chip that does not fit in the image is rejected", "statement": "Asking for a chip larger than the image (in either direction) raises an error rather than returning fabricated pixels.", "quantifier": "every image and chip size with chip larger than image", "why_tests_cant": "The code relies on numpy broadcasting to reject; broadcasting accepts some sizes.", "anchors": ["resippy/utils/image_utils/image_chipper.py:chip_images_by_pixel_upper_lefts"]}
{"id": "C07", "title": "Chips written to disk never overwrite one another", "statement": "write_chips_to_disk with generated names gives chips with different indices different file names, whatever the number of chips and whatever base name and format; so n chips give n files.", "quantifier": "all pairs of chip indices, unbounded", "why_tests_cant": "Zero padding is 8 wide; distinctness past 10^8 and for all pairs cannot be enumerated.", "anchors": ["resippy/utils/image_utils/image_chipper.py:write_chips_to_disk"]}
{"id": "C08", "title": "Flattening and unflattening an image loses nothing and is row-major", "statement": "unflatten_image_band(flatten_image_band(b), nx, ny) is b, flatten(unflatten(v)) is v for every vector of nx*ny elements and is rejected otherwise, and element y*nx + x of the flattened band is pixel (y, x); likewise for image cubes with all bands kept together.", "quantifier": "every band/cube shape and content, every pixel", "why_tests_cant": "Square test images hide nx/ny swaps; the law must hold for every shape.", "anchors": ["resippy/utils/image_utils/image_utils.py:flatten_image_band", "resippy/utils/image_utils/image_utils.py:unflatten_image_band", "resippy/utils/spectral_utils.py:flatten_image_cube", "resippy/utils/spectral_utils.py:unflatten_image_cube"]}
{"id": "C09", "title": "The pixel grid enumerates pixel coordinates", "statement": "create_pixel_grid(nx, ny) returns two (ny, nx) arrays whose entries at (y, x) are x and y; with a positive scale_factor s the arrays have ceil(ny*s) by ceil(nx*s) entries, entry (j, i) being i/s and j/s, all strictly below nx and ny.", "quantifier": "every nx, ny, every positive scale factor (in exact arithmetic; floating point: C129)", "why_tests_cant": "Fence-post errors depend on the fractional part of nx*s.", "anchors": ["resippy/utils/image_utils/image_utils.py:create_pixel_grid"]}
{"id": "C10", "title": "Grayscale normalisation maps the image range onto the requested range", "statement": "For a non-constant image and new_min <= new_max, normalize_grayscale_image sends the smallest value to new_min, the largest to new_max, keeps every pixel within [new_min, new_max] and preserves the ordering of pixel values; for a constant image no finite value is produced.", "quantifier": "every image of floating-point numbers and every target range (integer images: C126) (in exact arithmetic; floating point: C131)", "why_tests_cant": "Must hold for every pixel distribution, including the degenerate constant image.", "anchors": ["resippy/utils/image_utils/image_utils.py:normalize_grayscale_image"]}
{"id": "C11", "title": "The detection image shows the best covering score", "statement": "create_detection_image_from_scores gives each pixel the maximum score among all chips covering it, and 0 where no chip covers it, independently of the order in which chips are listed and of how equal scores are sorted; the image is just large enough to hold every chip.", "quantifier": "every list of chips and scores, every valid argsort result, every pixel", "why_tests_cant": "Order independence over all permutations and ties cannot be enumerated.", "anchors": ["resippy/utils/image_utils/image_utils.py:create_detection_image_from_scores"]}
{"id": "C12", "title": "Colormap interpolation stays on the palette", "statement": "In continuous mode every pixel between the clip limits gets a colour that is the linear interpolation between the two neighbouring palette colours (hence within the palette's range), a pixel below/above the clip limits gets the first/last palette colour, for every palette size.", "quantifier": "every image, palette and clip range, every pixel", "why_tests_cant": "Palette index storage is 8-bit: failures appear only for large palettes.", "anchors": ["resippy/utils/image_utils/image_utils.py:apply_colormap_to_grayscale_image"]}
{"id": "C13", "title": "Blending is a convex combination", "statement": "blend_images(a, b, p) lies between a and b pixelwise for 0 <= p <= 1, equals a at p = 1, b at p = 0, and blend(a, b, p) = blend(b, a, 1-p).", "quantifier": "all images and all percentages (in exact arithmetic; floating point: C130)", "why_tests_cant": "Universal over real percentages.", "anchors": ["resippy/utils/image_utils/image_utils.py:blend_images"]}
{"id": "C14", "title": "Point masks report exactly the marked pixels", "statement": "rgb_image_point_mask_to_pixel_locations returns, in row-major order and without repeats, exactly the pixels whose first three bands equal the colour of each dictionary entry (an alpha band is ignored); without a dictionary, exactly the pixels having some non-zero band among those kept.", "quantifier": "every image, every colour dictionary, every pixel", "why_tests_cant": "Exactness (no pixel missed, none extra) quantifies over all pixels of all images.", "anchors": ["resippy/utils/image_utils/image_mask_utils.py:rgb_image_point_mask_to_pixel_locations"]}
{"id": "C15", "title": "Mutual information is symmetric and maximised by perfect alignment", "statement": "image_mmi(a, b) = image_mmi(b, a), and image_mmi(a, b) <= image_mmi(a, a) for every pair of images of equal size whatever the binning, so registration by maximising it can never prefer a misaligned image to the image itself.", "quantifier": "every pair of equally sized images, every number of bins", "why_tests_cant": "An inequality over all joint histograms.", "anchors": ["resippy/utils/image_utils/image_registration.py:MMI.image_mmi", "resippy/utils/image_utils/image_registration.py:MMI._histogram_mmi"]}
{"id": "C16", "title": "World-to-pixel results have the shape of the input and are computed point by point", "statement": "lon_lat_alt_to_pixel_x_y given scalars returns scalars, given 1-D arrays returns 1-D arrays of the same length, given 2-D arrays returns 2-D arrays of the same shape, and the value at each position depends only on the lon, lat, alt at that position (alt None means 0, a scalar alt applies everywhere).", "quantifier": "every point calculator whose native mapping is pointwise, every array shape", "why_tests_cant": "Row/column mix-ups in the flatten/unflatten step need every shape.", "anchors": ["resippy/image_objects/earth_overhead/earth_overhead_point_calculators/abstract_earth_overhead_point_calc.py:lon_lat_alt_to_pixel_x_y"]}
{"id": "C17", "title": "Geotiff pixel/world conversion is a bijection", "statement": "For an invertible geotransform (including rotated ones) GeotiffPointCalc maps pixel -> world -> pixel and world -> pixel -> world to the identity, at every altitude and band.", "quantifier": "every invertible geotransform, every pixel coordinate and every world coordinate (in exact arithmetic; floating point: C136)", "why_tests_cant": "Rotation terms are zero in ordinary test imagery.", "anchors": ["resippy/image_objects/earth_overhead/earth_overhead_point_calculators/geotiff_point_calc.py:GeotiffPointCalc"]}
{"id": "C18", "title": "The geotiff world extent contains every pixel", "statement": "get_world_extent_native is the smallest axis-aligned box containing the world position of every point of the raster.", "quantifier": "every geotransform, raster size and point of the raster", "why_tests_cant": "Test geotiffs are north-up; rotation breaks a two-corner box.", "anchors": ["resippy/image_objects/earth_overhead/earth_overhead_point_calculators/geotiff_point_calc.py:get_world_extent_native"]}
{"id": "C19", "title": "The pixel-to-world solver is exact in one iteration for affine sensors", "statement": "If the world-to-pixel mapping at the given altitudes is affine and invertible, pixel_x_y_alt_to_lon_lat with the iterative solver returns, for any starting centre and any non-zero deltas and max_iter >= 1, ground points that project exactly onto the requested pixels.", "quantifier": "every affine invertible sensor, centre, deltas, pixel list", "why_tests_cant": "Tests use one sensor geometry; a rotated sensor has a zero derivative the solver divides by.", "anchors": ["resippy/image_objects/earth_overhead/earth_overhead_point_calculators/abstract_earth_overhead_point_calc.py:_pixel_x_y_alt_to_lon_lat_native_solver"]}
{"id": "C20", "title": "A pixel-to-world answer reprojects within the error threshold", "statement": "The (lon, lat) returned by pixel_x_y_alt_to_lon_lat reproject to within pixel_error_threshold of every requested pixel.", "quantifier": "every sensor mapping, pixel set, threshold and iteration limit", "why_tests_cant": "Non-convergence depends on the sensor and the iteration limit.", "anchors": ["resippy/image_objects/earth_overhead/earth_overhead_point_calculators/abstract_earth_overhead_point_calc.py:_pixel_x_y_alt_to_lon_lat_native_solver"]}
{"id": "C21", "title": "Ray casting returns the first intersection of the pixel's ray with the DEM", "statement": "For each pixel, pixel_x_y_to_lon_lat_alt returns a point that lies on the straight ray between the pixel's positions at the DEM's top and bottom altitudes and on the DEM interpolated linearly between consecutive samples of that ray, at the first sample interval where the terrain rises above the ray; all samples before it are not above the ray.", "quantifier": "every DEM and sensor, every pixel, every sampling distance", "why_tests_cant": "First-hit correctness quantifies over every terrain profile.", "anchors": ["resippy/image_objects/earth_overhead/earth_overhead_point_calculators/abstract_earth_overhead_point_calc.py:_pixel_x_y_to_lon_lat_ray_caster_native"]}
{"id": "C22", "title": "Ray casting works on flat terrain", "statement": "pixel_x_y_to_lon_lat_alt with a constant-elevation DEM (the default of create_igm_image) returns the pixel's ground position at that elevation.", "quantifier": "every sensor, elevation, pixel and sampling distance", "why_tests_cant": "The degenerate zero altitude range is a single point of the input space the example tests avoid.", "anchors": ["resippy/image_objects/earth_overhead/earth_overhead_point_calculators/abstract_earth_overhead_point_calc.py:_pixel_x_y_to_lon_lat_ray_caster_native", "resippy/photogrammetry/ortho_tools.py:create_igm_image", "resippy/photogrammetry/dem/constant_elevation_dem.py:ConstantElevationDem"]}
{"id": "C23", "title": "RPC projection evaluates the standard RPC00B rational polynomial", "statement": "RPCPointCalc computes sample/line as scale * (num/den) + offset + 0.5 where num and den are the 20-term RPC00B cubic polynomials in normalised latitude, longitude and height.", "quantifier": "every coefficient set and every ground point", "why_tests_cant": "A single mis-typed monomial changes results only when its coefficient is significant.", "anchors": ["resippy/image_objects/earth_overhead/earth_overhead_point_calculators/rpc_point_calc.py:RPCPointCalc.compute_p", "resippy/image_objects/earth_overhead/earth_overhead_point_calculators/rpc_point_calc.py:RPCPointCalc._lon_lat_alt_to_pixel_x_y_native"]}
{"id": "C24", "title": "Orientation matrices are proper rotations in every rotation order", "statement": "create_M_matrix returns a matrix M with M M^T = I and det M = 1 for every angle triple and each documented order; the order string names the elementary rotations in order of application (first letter applied first).", "quantifier": "all angles, all six orders, any order string", "why_tests_cant": "Trigonometric identities hold for all angles or not at all; tests sample angles.", "anchors": ["resippy/utils/photogrammetry_utils.py:create_M_matrix"]}
{"id": "C25", "title": "Angles are recovered from an orientation matrix", "statement": "solve_for_omega_phi_kappa(create_M_matrix(omega, phi, kappa)) = (omega, phi, kappa) for omega, kappa in (-pi, pi] and |phi| < pi/2; conversely for every rotation matrix with |m31| < 1 rebuilding the matrix from the solved angles gives the matrix back.", "quantifier": "all angle triples; all rotation matrices away from gimbal lock", "why_tests_cant": "Quadrant errors appear only in particular sign combinations.", "anchors": ["resippy/utils/photogrammetry_utils.py:solve_for_omega_phi_kappa"]}
{"id": "C26", "title": "Boresight offsets reproduce the ideal orientation", "statement": "For any invertible rough orientation R and any ideal orientation I, the matrix X returned by solve_for_boresight_angle_offsets satisfies R X = I, and applied to create_M_matrix outputs X is itself a rotation.", "quantifier": "all invertible matrices", "why_tests_cant": "Universal matrix identity.", "anchors": ["resippy/utils/photogrammetry_utils.py:solve_for_boresight_angle_offsets"]}
{"id": "C27", "title": "Pinhole projection is a central projection", "statement": "World points on the same line through the camera centre project to the same image point; conversely two points at the same altitude (different from the camera's) with finite projections that coincide are the same point, so a pixel determines at most one ground point per altitude.", "quantifier": "every pinhole camera pose and focal length, every world point", "why_tests_cant": "Injectivity quantifies over pairs of real points.", "anchors": ["resippy/image_objects/earth_overhead/earth_overhead_point_calculators/pinhole_camera.py:PinholeCamera.world_to_image_plane"]}
{"id": "C28", "title": "Focal-plane pixels are centred and flips mirror the image", "statement": "For IdealPinholeFpaLocalUtmPointCalc the optical axis lands on pixel (npix_x/2, npix_y/2); flip_x replaces x by npix_x - x and leaves y alone, flip_y likewise for y; the same pixel is computed whatever (consistent) units pitch and focal length are given in.", "quantifier": "every camera, world point and flag combination", "why_tests_cant": "Universal algebraic law over the camera parameters.", "anchors": ["resippy/image_objects/earth_overhead/earth_overhead_point_calculators/ideal_pinhole_fpa_local_utm_point_calc.py:IdealPinholeFpaLocalUtmPointCalc"]}
{"id": "C29", "title": "Fixtured camera pose is a rigid function of the latest settings", "statement": "After any sequence of setter calls the camera's absolute position and orientation depend only on the last value given to each setter; the camera is at the lever-arm distance from the fixture, rotating the offset back into the fixture frame gives the lever arm, and the absolute orientation is a rotation whenever its two factors are.", "quantifier": "every history of setter calls, every pose", "why_tests_cant": "Quantifies over all call histories.", "anchors": ["resippy/image_objects/earth_overhead/earth_overhead_point_calculators/fixtured_camera.py:FixturedCamera"]}
{"id": "C30", "title": "OpenCV camera model without distortion is a pinhole", "statement": "OpenCVPointCalc with zero distortion coefficients maps a ground point to (cx + fx*X/Z, cy - fy*Y/Z) where (X, Y, Z) are its camera coordinates; points on the same ray from the camera centre share a pixel for every distortion.", "quantifier": "every intrinsic and extrinsic parameter set and ground point", "why_tests_cant": "Sign conventions are checked by tests at one pose only.", "anchors": ["resippy/image_objects/earth_overhead/earth_overhead_point_calculators/opencv_point_calc.py:OpenCVPointCalc"]}
{"id": "C31", "title": "Pix4d model: calibration parameters are used as given", "statement": "A Pix4dPointCalc built by init_from_params uses the three radial and two tangential coefficients of the calibration file, and with distortion disabled or all coefficients zero a point with camera coordinates (X, Y, Z) maps to the pixel (ppx + f*X/Z, ppy + f*Y/Z) when both axes are reversed.", "quantifier": "every parameter dictionary and every ground point", "why_tests_cant": "A wrong index is invisible when K3 equals K2 or is negligible.", "anchors": ["resippy/image_objects/earth_overhead/earth_overhead_point_calculators/pix4d_point_calc.py:Pix4dPointCalc"]}
{"id": "C32", "title": "IGM geolocation reads back its own grid and interpolates within it", "statement": "For an IGM image pixel -> lon/lat returns the stored grid values; lon/lat -> pixel returns coordinates within the pixel range [0, nx-1] x [0, ny-1], between the smallest and largest neighbour indices; the altitude given at construction (array or single number) is the altitude reported.", "quantifier": "every grid, every query point, every valid nearest-neighbour answer", "why_tests_cant": "Convexity over all neighbour sets; scalar altitude path untested.", "anchors": ["resippy/image_objects/earth_overhead/earth_overhead_point_calculators/igm_point_calc.py:IGMPointCalc"]}
{"id": "C33", "title": "A multi-band sensor model always uses the requested band's calculator", "statement": "Through any sequence of set/add/update calls, EarthOverheadSensorModel answers a query for band b exactly as the point calculator currently stored for band b would; other bands' updates do not affect it; a band with no calculator is an error.", "quantifier": "all histories of operations, all bands", "why_tests_cant": "Histories are unbounded.", "anchors": ["resippy/image_objects/earth_overhead/earth_overhead_point_calculators/earth_overhead_sensor_model.py:EarthOverheadSensorModel"]}
{"id": "C34", "title": "The ground grid samples pixel centres uniformly inside the extent", "statement": "create_ground_grid(min_x, max_x, min_y, max_y, nx, ny) gives entry (j, i) = (min_x + (i + 1/2) W/nx, max_y - (j + 1/2) H/ny); all points are strictly inside the extent, symmetric about its centre.", "quantifier": "every extent and every grid of at least 2 x 2 (in exact arithmetic; floating point: C137)", "why_tests_cant": "Half-pixel and fence-post errors vary with n.", "anchors": ["resippy/utils/photogrammetry_utils.py:create_ground_grid"]}
{"id": "C35", "title": "The ortho image's georeferencing agrees with where it was sampled", "statement": "The geotransform attached to an orthorectified image (world_poly_to_geo_t) sends the centre (i + 1/2, j + 1/2) of each output pixel to the world point at which that pixel was sampled (create_ground_grid).", "quantifier": "every extent, every output size, every output pixel", "why_tests_cant": "The discrepancy is less than a pixel near the origin and grows across the image; comparisons at a corner do not show it.", "anchors": ["resippy/utils/photogrammetry_utils.py:world_poly_to_geo_t", "resippy/utils/photogrammetry_utils.py:create_ground_grid", "resippy/photogrammetry/ortho_tools.py:create_ortho_gtiff_image_world_to_sensor"]}
{"id": "C36", "title": "Ortho pixels that fall outside the source image carry the no-data value", "statement": "In create_ortho_gtiff_image_world_to_sensor every output pixel whose ground point projects outside the source image is set to nodata_val in every band, and every output pixel projecting at least two pixels inside carries the resampled source value of the requested band.", "quantifier": "every source image, output grid, band list, no-data value, with or without coregistered bands", "why_tests_cant": "Exhaustive over all pixels, and over both band-registration paths.", "anchors": ["resippy/photogrammetry/ortho_tools.py:create_ortho_gtiff_image_world_to_sensor"]}
{"id": "C37", "title": "Masking adds an exact transparency band", "statement": "mask_image keeps all existing bands unchanged and appends one band that is 0 exactly where band 0 equals the no-data value and 255 elsewhere.", "quantifier": "every image and no-data value, every pixel", "why_tests_cant": "Pixel-exactness for all images.", "anchors": ["resippy/photogrammetry/ortho_tools.py:mask_image"]}
{"id": "C38", "title": "The image extent uses exactly the border pixels", "statement": "get_extent evaluates ground positions at pixels that include every border pixel of the image and no interior pixel, so a sensor mapping that sends the image into the convex hull of its border is fully covered.", "quantifier": "every image size", "why_tests_cant": "Corner handling over all sizes.", "anchors": ["resippy/photogrammetry/ortho_tools.py:get_extent"]}
{"id": "C39", "title": "Terrain obstruction is detected along the line of sight", "statement": "are_pixels_obstructed_by_dem marks a pixel iff, at one of the sampled points between the pixel's ground point and its position at the DEM's highest altitude, the terrain is above the straight line joining them.", "quantifier": "every DEM, sensor and pixel", "why_tests_cant": "Direction and distance errors cancel in symmetric scenes.", "anchors": ["resippy/photogrammetry/ortho_tools.py:are_pixels_obstructed_by_dem"]}
{"id": "C40", "title": "Pixel value sampling averages the valid pixels of the window", "statement": "get_pixel_values returns for each point the mean of the non-nodata pixels of the window around its pixel, a value between their minimum and maximum, when the window lies inside the image.", "quantifier": "every image, location, window size", "why_tests_cant": "Window arithmetic at every location and size.", "anchors": ["resippy/photogrammetry/ortho_tools.py:get_pixel_values"]}
{"id": "C41", "title": "A constant-elevation DEM is constant", "statement": "ConstantElevationDem returns its elevation at every queried point, in the shape of the query, and its highest, lowest and mean altitude all equal it.", "quantifier": "every elevation, query shape and projection", "why_tests_cant": "Universal over queries.", "anchors": ["resippy/photogrammetry/dem/constant_elevation_dem.py:ConstantElevationDem"]}
{"id": "C42", "title": "Nearest-neighbour DEM lookup returns an actual cell, clamped at the edges", "statement": "GeotiffDem with nearest interpolation returns the elevation of the cell containing the query point when it is inside the raster and of the closest edge cell otherwise; so the result is always between the lowest and highest altitudes of the DEM.", "quantifier": "every raster, geotransform and query point, inside or outside", "why_tests_cant": "Truncation toward zero and clipping interact for negative coordinates.", "anchors": ["resippy/photogrammetry/dem/geotiff_dem.py:GeotiffDem.get_elevations"]}
{"id": "C43", "title": "Bilinear DEM interpolation interpolates", "statement": "GeotiffDem with bilinear interpolation returns the cell's elevation at a grid node and, elsewhere, the distance-weighted average of the four surrounding cells, giving closer cells larger weight; the result is between the smallest and largest of the four.", "quantifier": "every raster and query point", "why_tests_cant": "Exact grid nodes are a measure-zero set; weight direction is invisible on flat terrain.", "anchors": ["resippy/photogrammetry/dem/geotiff_dem.py:GeotiffDem.get_elevations"]}
{"id": "C44", "title": "Navigation values are linear interpolations between the bracketing records", "statement": "For a nav file with strictly increasing times, every getter returns, for each queried time within the recorded range, the linear interpolation in time between the two records bracketing it (the recorded value itself at a record's time, including the first and the last), hence a value between theirs.", "quantifier": "every nav data set of two or more records, every queried time in range (in exact arithmetic; floating point: C132)", "why_tests_cant": "The first record is served by a wrapped negative index; correctness there is an algebraic accident that needs proof.", "anchors": ["resippy/photogrammetry/nav/applanix_sbet_nav.py:ApplanixSBETNav", "resippy/photogrammetry/nav/applanix_eo_nav.py:ApplanixEONav"]}
{"id": "C45", "title": "Out-of-range navigation queries give None, never extrapolation", "statement": "If any queried time is before the first or after the last record every getter returns None; otherwise it returns a value of the same shape (scalar, 1-D or 2-D) as the query with one entry per time, each depending only on its own time.", "quantifier": "every nav data set, every query shape and content", "why_tests_cant": "Mixed in/out-of-range batches and shapes.", "anchors": ["resippy/photogrammetry/nav/abstract_nav.py:AbstractNav"]}
{"id": "C46", "title": "Interpolated headings stay between the neighbouring headings on the compass", "statement": "The heading returned between two records lies on the shorter arc between their headings.", "quantifier": "every pair of consecutive headings, including those on either side of north", "why_tests_cant": "Only records straddling the wrap-around show it.", "anchors": ["resippy/photogrammetry/nav/applanix_sbet_nav.py:ApplanixSBETNav._get_headings_native"]}
{"id": "C47", "title": "The exterior-orientation reader keeps records aligned", "statement": "After ApplanixEONav.load_from_file on any text file, all columns have the same length and entry i of every column comes from the same line of the file; lines that are not records are skipped.", "quantifier": "every text file", "why_tests_cant": "Needs a malformed record line in the middle of a file.", "anchors": ["resippy/photogrammetry/nav/applanix_eo_nav.py:ApplanixEONav.load_from_file"]}
{"id": "C48", "title": "UTC to GPS to UTC is the identity", "statement": "gps_timestamp_to_utc_timestamp(utc_timestamp_to_gps_timestamp(t)) = t for every time t since the GPS epoch, and utc_timestamp_to_gps_timestamp is strictly increasing.", "quantifier": "every timestamp since 1980-01-06 (in exact arithmetic; floating point: C134)", "why_tests_cant": "Only a few seconds around each leap second behave differently.", "anchors": ["resippy/utils/time_utils.py:utc_timestamp_to_gps_timestamp", "resippy/utils/time_utils.py:gps_timestamp_to_utc_timestamp"]}
{"id": "C49", "title": "GPS week and seconds decompose the GPS time", "statement": "utc_timestamp_to_gps_week_and_seconds(t) = (w, s) with w an integer, 0 <= s < 604800 and w*604800 + s equal to the GPS timestamp of t.", "quantifier": "every timestamp (in exact arithmetic; floating point: C135)", "why_tests_cant": "Universal over timestamps, including before the epoch.", "anchors": ["resippy/utils/time_utils.py:utc_timestamp_to_gps_week_and_seconds"]}
{"id": "C50", "title": "Reading a spectrum never changes it", "statement": "The array returned by get_spectral_data is independent of the spectrum: no later modification of it, in any sequence of calls, changes what get_spectral_data returns afterwards; values equal to the no-data value are reported as NaN and all others unchanged.", "quantifier": "every history of reads and writes to returned arrays", "why_tests_cant": "Aliasing bugs need particular interleavings of mutation and reads.", "anchors": ["resippy/spectral/spectrum.py:Spectrum.get_spectral_data"]}
{"id": "C51", "title": "Spectral resampling is a weighted average", "statement": "resample_spectrum_direct returns, for each response function with non-negative response and non-zero overlap with the spectrum's wavelengths, a value between the smallest and largest spectral value, equal to c for a constant spectrum c, and linear in the spectrum; one value per response function.", "quantifier": "every spectrum with increasing wavelengths and every set of response functions", "why_tests_cant": "Inequality over all samplings.", "anchors": ["resippy/spectral/spectrum.py:Spectrum.resample_spectrum_direct"]}
{"id": "C52", "title": "Spectral mean ignores masked pixels and demeaning centres the data", "statement": "compute_image_cube_spectral_mean with a mask equals the mean over the unmasked pixels only, whatever values masked pixels hold; without mask, demean_image_data yields an image of zero mean in every band.", "quantifier": "every image, band count and mask", "why_tests_cant": "Independence from masked values is universal over them.", "anchors": ["resippy/spectral/spectral_image_processing_1d.py:compute_image_cube_spectral_mean", "resippy/spectral/spectral_image_processing_1d.py:demean_image_data"]}
{"id": "C53", "title": "The spectral covariance is a covariance", "statement": "compute_image_cube_spectral_covariance of at least two pixels is symmetric and positive semidefinite, unchanged by adding a constant spectrum to all pixels, and transforms as A C A^T under a linear change of bands.", "quantifier": "every image of at least two pixels, every band count", "why_tests_cant": "Positive semidefiniteness quantifies over all vectors.", "anchors": ["resippy/spectral/spectral_image_processing_1d.py:compute_image_cube_spectral_covariance"]}
{"id": "C54", "title": "RX scores are Mahalanobis distances", "statement": "rx_anomaly_detector gives pixel x the score (x - mean)^T Cinv (x - mean); it is non-negative for positive semidefinite Cinv, zero at the mean, and with the default statistics the scores sum to (n_pixels - 1) * n_bands.", "quantifier": "every image, mean and inverse covariance", "why_tests_cant": "Trace identity over all images.", "anchors": ["resippy/spectral/spectral_image_processing_1d.py:rx_anomaly_detector"]}
{"id": "C55", "title": "ACE scores lie in [0, 1]", "statement": "ace (and ace_demeaned) return values in [0, 1] for symmetric positive definite inverse covariance, 1 for a pixel equal to the target (or any non-zero multiple of the demeaned target), and do not change when the demeaned pixel or target is rescaled; ace with given mean equals ace_demeaned on demeaned data.", "quantifier": "every image, target, mean and positive definite inverse covariance", "why_tests_cant": "Cauchy-Schwarz over all inputs.", "anchors": ["resippy/spectral/spectral_image_processing_1d.py:ace", "resippy/spectral/spectral_image_processing_1d.py:ace_demeaned"]}
{"id": "C56", "title": "SAM similarity is the cosine of the spectral angle", "statement": "sam returns for each non-zero pixel a value in [-1, 1] that is 1 exactly for positive multiples of the (non-zero) target and is unchanged when a pixel or the target is multiplied by a positive number.", "quantifier": "every image and target of floating-point numbers (integer images: C127)", "why_tests_cant": "Equality case of Cauchy-Schwarz over all vectors.", "anchors": ["resippy/spectral/spectral_image_processing_1d.py:sam"]}
{"id": "C57", "title": "The 2-D detectors agree pixel by pixel with the 1-D detectors", "statement": "Each 2-D routine (mean, demean, covariance, RX, ACE, SAM, covariance equalisation) on a cube equals the 1-D routine on its pixel list, the value of pixel (y, x) being that of sample y*nx + x.", "quantifier": "every cube shape and content", "why_tests_cant": "nx/ny swaps cancel on square cubes.", "anchors": ["resippy/spectral/spectral_image_processing_2d.py"]}
{"id": "C58", "title": "Covariance equalisation gives the target scene's covariance", "statement": "The image returned by covariance_equalization_mean_centered has exactly the covariance of the scene to match, for every pair of scenes with non-singular covariances.", "quantifier": "every pair of scenes with invertible covariance", "why_tests_cant": "Matrix identity over all scenes.", "anchors": ["resippy/spectral/spectral_image_processing_1d.py:covariance_equalization_mean_centered", "resippy/spectral/spectral_image_processing_1d.py:compute_cov_eq_linear_transform_matrix"]}
{"id": "C59", "title": "An ENVI image written to disk reads back identical", "statement": "write_envi_image followed by read_envi_image of the same file name returns the same cube: same dimensions, same data type, same value at every (line, sample, band), for every supported data type and every interleave accepted by the writer.", "quantifier": "every cube shape and content, every supported dtype, whatever other header files exist in the directory", "why_tests_cant": "Quantifies over all shapes; small or symmetric cubes hide interleave errors; the header must parse back for every dimension value.", "anchors": ["resippy/utils/envi_utils.py:write_envi_image", "resippy/utils/envi_utils.py:read_envi_image", "resippy/utils/envi_utils.py:read_envi_header", "resippy/utils/envi_utils.py:write_envi_header"]}
{"id": "C60", "title": "The ENVI header reader terminates and loses no entry", "statement": "read_envi_header terminates on every text file, and every 'key = value' line and every 'key = { ... }' block of the file is an entry of the returned dictionary.", "quantifier": "every text file", "why_tests_cant": "Non-termination needs an unclosed brace; entry loss needs a missing final newline.", "anchors": ["resippy/utils/envi_utils.py:read_envi_header"]}
{"id": "C61", "title": "ENVI data-type codes round-trip", "statement": "numpy_dtype_to_envi_dtype is a left inverse of envi_dtype_to_numpy_dtype on every supported code, and supported codes denote the ENVI-documented types.", "quantifier": "the whole table", "why_tests_cant": "The table must be right for all codes at once.", "anchors": ["resippy/utils/envi_utils.py:envi_dtype_to_numpy_dtype", "resippy/utils/envi_utils.py:numpy_dtype_to_envi_dtype"]}
{"id": "C62", "title": "An interrupted ENVI write is never mistaken for a complete image", "statement": "If write_envi_image stops at any point before finishing, a later read_envi_image either fails or returns the previous or the new image, never a mixture.", "quantifier": "every crash point, every previous content of the two files", "why_tests_cant": "Crash points.", "anchors": ["resippy/utils/envi_utils.py:write_envi_image", "resippy/utils/envi_utils.py:read_envi_image"]}
{"id": "C63", "title": "A list of lines survives being written and read", "statement": "read_text_list_from_file after write_text_list_to_file returns the original list, for every non-empty list of strings without newline characters.", "quantifier": "every list of newline-free strings", "why_tests_cant": "Empty last lines are easily missed.", "anchors": ["resippy/utils/file_utils.py:write_text_list_to_file", "resippy/utils/file_utils.py:read_text_list_from_file"]}
{"id": "C64", "title": "remove_newlines leaves no newline and changes nothing else", "statement": "remove_newlines(text) contains no carriage return or line feed and is text with exactly those characters deleted; cleanup_newlines is idempotent and leaves only os.linesep line ends.", "quantifier": "every string, on every platform's line separator", "why_tests_cant": "Mixed \\r, \\n sequences over all strings.", "anchors": ["resippy/utils/string_utils.py:cleanup_newlines", "resippy/utils/string_utils.py:remove_newlines"]}
{"id": "C65", "title": "Snake-case conversion", "statement": "convert_to_snake_case returns a string without ASCII upper-case letters that, with underscores removed, is the input in lower case with underscores removed; converting twice is the same as converting once.", "quantifier": "every ASCII string", "why_tests_cant": "Regular-expression behaviour over all strings.", "anchors": ["resippy/utils/string_utils.py:convert_to_snake_case"]}
{"id": "C66", "title": "Tuples and separate lists convert back and forth", "statement": "separate_lists_to_list_of_tuples and list_of_tuples_to_separate_lists are mutually inverse on non-empty rectangular data; remove_all_entries_from_list removes every occurrence of the value and keeps everything else in order.", "quantifier": "every rectangular table, every list", "why_tests_cant": "Universal over shapes.", "anchors": ["resippy/utils/numpy_and_array_utils.py"]}
{"id": "C67", "title": "Directory listings honour prefixes and extensions", "statement": "get_files_in_dir_that_start_with returns exactly the files with one of the requested extensions whose base name starts with one of the requested prefixes.", "quantifier": "every directory content, prefix list and extension list", "why_tests_cant": "Exactness over all directory contents and overlapping prefixes.", "anchors": ["resippy/utils/file_utils.py:get_files_in_dir_that_start_with", "resippy/utils/file_utils.py:get_all_files_in_dir"]}
{"id": "C68", "title": "Pix4d rotation matrices are the transpose of the photogrammetric ones", "statement": "create_r_matrix(params) is the transpose of create_M_matrix of the same angles in radians, hence a proper rotation, for every external orientation.", "quantifier": "all angles", "why_tests_cant": "Trigonometric identity over all angles.", "anchors": ["resippy/utils/pix4d_utils.py:create_r_matrix", "resippy/utils/photogrammetry_utils.py:create_M_matrix"]}
{"id": "C69", "title": "Pix4d parameter files are read completely", "statement": "read_pix4d_calibrated_internal_camera_parameters returns one dictionary per camera block containing every parameter line of the block; read_calibrated_camera_parameters returns one entry per ten-line record with each field taken from its own line.", "quantifier": "every well-formed parameter file", "why_tests_cant": "The last line of the last block is handled separately.", "anchors": ["resippy/utils/pix4d_utils.py:read_pix4d_calibrated_internal_camera_parameters", "resippy/utils/pix4d_utils.py:read_calibrated_camera_parameters"]}
{"id": "C70", "title": "Image band access is a per-band store", "statement": "After any sequence of set_image_data / set_image_band calls, get_image_band(b) returns the last data stored for band b and bands other than the one being set are unchanged.", "quantifier": "all histories of calls, all bands", "why_tests_cant": "Histories are unbounded.", "anchors": ["resippy/image_objects/abstract_image.py:AbstractImage"]}
{"id": "C71", "title": "Metadata getters return the last value set", "statement": "After any sequence of metadata setter calls, each getter returns the value most recently given to its own setter, unaffected by the others; the no-data value is None initially.", "quantifier": "all histories of calls", "why_tests_cant": "Histories are unbounded.", "anchors": ["resippy/image_objects/abstract_image_metadata.py:AbstractImageMetadata"]}
{"id": "C72", "title": "Orthorectification reads bands from disk when they are not loaded", "statement": "create_ortho_gtiff_image_world_to_sensor works for a coregistered image whose data has not been loaded into memory, using read_band_from_disk.", "quantifier": "every image object opened from a file", "why_tests_cant": "The fallback branch is dead code for unloaded images; whether it is reachable is a universal statement.", "anchors": ["resippy/photogrammetry/ortho_tools.py:create_ortho_gtiff_image_world_to_sensor", "resippy/image_objects/abstract_image.py:AbstractImage.get_image_band", "resippy/image_objects/earth_overhead/physical_camera/physical_camera_image.py:PhysicalCameraImage.read_band_from_disk"]}
{"id": "C73", "title": "A simulated camera has the commanded orientation", "statement": "The point calculator created by PhysicalCameraSimulator projects with orientation matrix boresight * platform, for every commanded roll, pitch, yaw whose combined matrix is away from gimbal lock.", "quantifier": "all commanded angles and boresights", "why_tests_cant": "Composition of angle extraction and matrix rebuilding over all angles.", "anchors": ["resippy/utils/physical_camera_simulator.py:PhysicalCameraSimulator._generate_camera_point_calc"]}
{"id": "C74", "title": "Spectrum readers pair every wavelength with its value", "statement": "The SVC, CSV, ENVI and USGS ASCII readers return wavelengths and values of equal length, entry i of both coming from the same data line, in file order, with header lines excluded.", "quantifier": "every file in the format", "why_tests_cant": "Universal over file contents and header lengths.", "anchors": ["resippy/spectral/spectrum_factories/SVC/ascii/svc_spectral_factory.py", "resippy/spectral/spectrum_factories/csv/ascii/csv_spectral_factory.py", "resippy/spectral/spectrum_factories/envi/ascii/envi_ascii_plot_file_factory.py", "resippy/spectral/spectrum_factories/usgs/ascii/usgs_ascii_spectral_factory.py"]}
{"id": "C75", "title": "The number of output pixels fits the extent", "statement": "get_nx_ny_pixels_in_extent returns the largest whole numbers of pixels of the given size that fit in the extent's width and height.", "quantifier": "every extent and positive pixel size", "why_tests_cant": "Rounding at exact multiples.", "anchors": ["resippy/utils/photogrammetry_utils.py:get_nx_ny_pixels_in_extent"]}
{"id": "C76", "title": "UTC to GPS conversion does not depend on the machine", "statement": "utc_timestamp_to_gps_timestamp(t) is the number of seconds since 1980-01-06 plus the leap seconds inserted between then and t, on every machine, whatever its local time zone.", "quantifier": "every timestamp since 1980-01-06 and every local time zone", "why_tests_cant": "The error appears only within the time-zone offset of one of eighteen instants; tests run in one time zone.", "anchors": ["resippy/utils/time_utils.py:_LEAPSECONDS", "resippy/utils/time_utils.py:_get_leapseconds", "resippy/utils/time_utils.py:utc_timestamp_to_gps_timestamp"]}
{"id": "C77", "title": "An ENVI image opened after being written reports the written dimensions", "statement": "After write_envi_image(image, fname) returns, EnviImage.init_from_file(fname) gives an image whose metadata has the number of samples, lines and bands of the array just written, whatever other files lie beside it.", "quantifier": "every image of a supported data type, every file name and every directory content before the call", "why_tests_cant": "Tests write into an empty directory; the failure needs a header of the shorter name left by another image.", "anchors": ["resippy/image_objects/envi/envi_image.py:init_from_file", "resippy/image_objects/envi/envi_metadata.py:init_from_header", "resippy/utils/envi_utils.py:write_envi_image"]}
{"id": "C78", "title": "A band read from disk is that band of the whole image", "statement": "read_band_from_disk(b) returns the array [:, :, b] of read_all_image_data_from_disk() for every band number accepted for image data in memory, for GeoTIFF, view-ready stereo and MicaSense images.", "quantifier": "every file and every band number, including negative ones", "why_tests_cant": "Universal over files and band numbers; tests read band 0.", "anchors": ["resippy/image_objects/earth_overhead/geotiff/geotiff_image.py:GeotiffImage.read_band_from_disk", "resippy/image_objects/earth_overhead/geotiff/geotiff_image.py:GeotiffImage.read_all_image_data_from_disk", "resippy/image_objects/earth_overhead/micasense/micasense_image.py:MicasenseImage.read_band_from_disk"]}
{"id": "C79", "title": "A GeoTIFF image written and opened again is the same image", "statement": "After write_to_disk(fname), GeotiffImage.init_from_file(fname) has the same size, bands, data type, geotransform, projection and no-data value as the image written, and reading its data gives the same pixels; an image whose data was not loaded is loaded first.", "quantifier": "every image made from an array or opened from a file, every no-data value", "why_tests_cant": "Universal over pixels, sizes and no-data values; the no-data value is converted by int().", "anchors": ["resippy/image_objects/earth_overhead/geotiff/geotiff_image.py:GeotiffImage.write_to_disk", "resippy/image_objects/earth_overhead/geotiff/geotiff_image.py:GeotiffImage.init_from_file", "resippy/image_objects/earth_overhead/geotiff/geotiff_image.py:GeotiffImage.init_from_numpy_array"]}
{"id": "C80", "title": "MicaSense timestamps keep the fraction of a second", "statement": "The fraction of a second added to the GPS time of a MicaSense image is the decimal fraction 0.ddd whose digits are those of the EXIF SubSecTime tag.", "quantifier": "every string of digits", "why_tests_cant": "The failure needs a tag with leading zeros, one image in ten.", "anchors": ["resippy/image_objects/earth_overhead/micasense/micasense_image.py:MicasenseImage.get_gps_timestamp_and_center"]}
{"id": "C81", "title": "EXIF positions are converted to decimal degrees", "statement": "The longitude and latitude reported for a MicaSense image are degrees + minutes/60 + seconds/3600 of the EXIF tags, negated for W and S, whatever the denominators of the rational tags.", "quantifier": "every triple of rational tags and every reference", "why_tests_cant": "Rational tags may have any denominator; test images have denominator 1.", "anchors": ["resippy/image_objects/earth_overhead/micasense/micasense_image.py:MicasenseImage._dms_tag_to_dd"]}
{"id": "C82", "title": "The pix4d master dictionary gives each image its own camera's parameters", "statement": "make_master_dict gives every image listed in the calibrated parameters file its calibrated parameters, its external parameters and the internal parameters of the camera whose 1-based number ends its file name; an image whose number names no camera is rejected.", "quantifier": "every set of parameter files and every file name", "why_tests_cant": "Universal over file names and camera counts; number 0 wraps around to the last camera.", "anchors": ["resippy/utils/pix4d_utils.py:make_master_dict"]}
{"id": "C83", "title": "A csv file with a header line becomes a dictionary of complete columns", "statement": "single_line_header_csv_to_dict maps every name of the header line to the complete column below it, in file order, and to nothing else; a file whose lines do not form a table at least as wide as the header is rejected rather than read partially.", "quantifier": "every text file without quote characters, every delimiter", "why_tests_cant": "Universal over file contents, including ragged rows, blank lines, repeated names and missing final newlines.", "anchors": ["resippy/utils/csv_utils.py:CsvUtils.single_line_header_csv_to_dict"]}
{"id": "C84", "title": "Scores stay aligned with the windows they were computed from", "statement": "chip_and_score_image returns one row of scores (or one score of the requested class) per returned upper left, in the same order, computed from exactly the window of the image at that upper left with the alpha channel removed and the requested normalisation; the windows cover the image; an unknown class or an image without a band axis is rejected.", "quantifier": "every image, chip size, overlap below 100 percent, normalisation method, label list and every network that answers with one number per class", "why_tests_cant": "Universal over images and chip geometry; the failures need the default ledger argument or an image of a single chip.", "anchors": ["resippy/image_recognition/neural_net_model_scoring/keras_image_scoring.py:chip_and_score_image"]}
{"id": "C85", "title": "The heat map of a scored image has the image's size and shows the best covering score", "statement": "Handing the scores and upper lefts of chip_and_score_image to create_detection_image_from_scores gives an image of the size of the input whose every pixel is the largest score among the windows containing it.", "quantifier": "every image, chip geometry and network", "why_tests_cant": "Composition of two functions over all inputs; it fails for every input unless the caller converts the list of upper lefts to an array.", "anchors": ["resippy/image_recognition/neural_net_model_scoring/keras_image_scoring.py:chip_and_score_image", "resippy/utils/image_utils/image_utils.py:create_detection_image_from_scores"]}
{"id": "C86", "title": "The label file names the network's outputs in the right order", "statement": "The label file written next to a trained model, read back as a list of lines, gives for each class the number of the network output that was trained for that class.", "quantifier": "every set of class names without newlines, numbered in name order as keras does, both line separators", "why_tests_cant": "Universal over class names and their order.", "anchors": ["resippy/image_recognition/neural_net_model_training/keras_model_training.py:train_model", "resippy/utils/file_utils.py:read_text_list_from_file"]}
{"id": "C87", "title": "The navigation getters read their own column and agree with the records", "statement": "Each getter of a navigation object (world y, world x, altitude, roll, pitch, heading) interpolates its own field of the file: y, x, z, roll, pitch, azimuth of an SBET file; northing, easting, height, omega, phi, kappa of an exterior-orientation file. get_nav_records returns, in the shape of the query, for each time a record with every column, the time itself and exactly the values of the getters; its number of entries is get_record_length. Out-of-range queries give None for records and values alike.", "quantifier": "every file of records at increasing times, every query shape, every field set whose snake-case names are distinct", "why_tests_cant": "Universal over files and query shapes; a getter reading a neighbouring column passes any test in which the columns agree.", "anchors": ["resippy/photogrammetry/nav/abstract_nav.py:AbstractNav", "resippy/photogrammetry/nav/applanix_sbet_nav.py:ApplanixSBETNav", "resippy/photogrammetry/nav/applanix_eo_nav.py:ApplanixEONav"]}
{"id": "C88", "title": "A DEM never reports its no-data value as an elevation", "statement": "After any sequence of set_geotiff_image, remove_nodata_values and interpolation setters, the elevations are those of the image set last with NaN in exactly the cells holding the no-data value in force then or one removed since; highest, lowest and mean altitude ignore those cells; a DEM opened from a file masks the given no-data value or else the file's; an unknown interpolation name is rejected.", "quantifier": "every history of operations, every raster, no-data value and world point", "why_tests_cant": "Quantifies over call histories and rasters; integer rasters and misspelt names fail silently or only on some data.", "anchors": ["resippy/photogrammetry/dem/geotiff_dem.py:GeotiffDem", "resippy/photogrammetry/dem/dem_factory.py:DemFactory.from_gtiff_file"]}
{"id": "C89", "title": "A MicaSense image pairs every band with its own file and its own calculator", "statement": "Given a dictionary with the five band files, the image lists the files in band order and carries the calculators in the same order, all in the first calculator's projection, marked as not coregistered and with no-data value zero; its name is the first band's path up to the last underscore; every band of the dictionary is in the image; a missing band is an error; the OpenCV variant uses the parameter set with the band number in the file's name.", "quantifier": "every dictionary, file name, parameter list and calculator constructor", "why_tests_cant": "Universal over names and parameter lists; swapped bands only show on data whose bands differ.", "anchors": ["resippy/image_objects/earth_overhead/micasense/micasense_image_factory.py:MicasenseImageFactory"]}
{"id": "C90", "title": "A MicaSense image made from an array reads back as that array", "statement": "from_numpy_and_pix4d writes one file per band, in band order under the given names or fresh ones; reading band b (or counted from the end) gives band b of the array with its shape; no other file changes; fewer names than bands is an error.", "quantifier": "every array shape, list of names, folder and state of the disk", "why_tests_cant": "Universal over shapes and names; single rows and repeated names are edge cases.", "anchors": ["resippy/image_objects/earth_overhead/micasense/micasense_image_factory.py:MicasenseImageFactory.from_numpy_and_pix4d", "resippy/image_objects/earth_overhead/micasense/micasense_image.py:MicasenseImage"]}
{"id": "C91", "title": "Pixel to world and back is the identity in any world projection", "statement": "For an overhead point calculator whose native calls invert each other, converting a pixel at an altitude to the world in any requested projection and back to a pixel at the same altitude returns the original pixel, and a failing solver surfaces as an error rather than a wrong point.", "quantifier": "every pixel, altitude, calculator and pair of mutually inverse projection transforms", "why_tests_cant": "Universal over projections, altitudes and calculators; a vertical datum shift only shows when the two projections use different datums.", "anchors": ["resippy/image_objects/earth_overhead/earth_overhead_point_calculators/abstract_earth_overhead_point_calc.py:pixel_x_y_alt_to_lon_lat", "resippy/image_objects/earth_overhead/earth_overhead_point_calculators/abstract_earth_overhead_point_calc.py:lon_lat_alt_to_pixel_x_y"]}
{"id": "C92", "title": "get_pixel_lon_lats returns the point where the pixel sees the terrain", "statement": "The world point reported for a pixel lies on the terrain surface given by the DEM, on the pixel's line of sight, whatever projection the DEM is in; on terrain with bounded slope the error is bounded by the slope.", "quantifier": "every pixel, sensor, terrain and projection", "why_tests_cant": "Universal over terrains; a flat test terrain hides the missing iteration.", "anchors": ["resippy/photogrammetry/ortho_tools.py:get_pixel_lon_lats"]}
{"id": "C93", "title": "A full-size orthophoto has the requested ground sample distance", "statement": "create_full_ortho_gtiff_image covers the image footprint with the number of pixels that fit at the requested spacing, so that the realised spacing differs from the request by at most one part in the pixel count; without a request the spacing is the mean native spacing; a zero spacing is an error.", "quantifier": "every footprint, spacing and image size", "why_tests_cant": "Universal over footprints and spacings, including geographic projections.", "anchors": ["resippy/photogrammetry/ortho_tools.py:create_full_ortho_gtiff_image"]}
{"id": "C94", "title": "The camera simulator renders the scene the camera would see", "statement": "Every pixel of the simulated image is the value of the loaded scene band resampled at the ground point that pixel sees; repeated renderings without changing the scene agree and use the band loaded first; the result does not depend on the projection the camera works in.", "quantifier": "every scene, camera, pixel and sequence of renderings", "why_tests_cant": "Universal over scenes and call histories; the cached band hides later changes to the file.", "anchors": ["resippy/utils/physical_camera_simulator.py:create_overhead_image_object"]}
{"id": "C95", "title": "An IGM image carries for each pixel the location the ray caster gives", "statement": "create_igm_image returns an image whose longitude, latitude and altitude bands at (y, x) are the ray caster's answers for pixel (x, y), with the source's pixel data, for every image the API can open.", "quantifier": "every image size, caster and image state", "why_tests_cant": "Universal over image sizes and states (loaded or not, 2-D or 3-D).", "anchors": ["resippy/photogrammetry/ortho_tools.py:create_igm_image"]}
{"id": "C96", "title": "The local UTM projection is in the right hemisphere", "statement": "decimal_degrees_to_local_utm_proj returns a projection with the south flag exactly when the latitude is negative, and an error outside the UTM latitudes.", "quantifier": "every latitude", "why_tests_cant": "Universal over the latitude range including the band limits.", "anchors": ["resippy/utils/proj_utils.py:decimal_degrees_to_local_utm_proj"]}
{"id": "C97", "title": "Reading a P-matrix file finds every image's matrix under its name", "statement": "For a file of lines with a name and numbers separated by single spaces, with any line ending and with or without one at the end, the reader returns the numbers of each line under its name (the last when repeated) and nothing else.", "quantifier": "every number of lines, names, numbers and line endings", "why_tests_cant": "Universal over files; blank lines and names with spaces are edge cases.", "anchors": ["resippy/utils/pix4d_utils.py:read_p_matrices"]}
{"id": "C98", "title": "Shifting points by metres moves them that many metres", "statement": "Shifts compose additively and are undone by the opposite shift; a shift by e metres east moves the point e metres on the ground; the polygon of four bounds is exactly the rectangle.", "quantifier": "every point, shift and rectangle", "why_tests_cant": "Universal over latitudes; near the equator the distortion is invisible.", "anchors": ["resippy/utils/photogrammetry_utils.py:shift_points_by_meters", "resippy/utils/geom_utils.py:bounds_2_shapely_polygon"]}
{"id": "C99", "title": "Principal components keep the image's pixel layout and leave the image unchanged", "statement": "compute_image_cube_pca returns for each pixel (y, x) the component scores of that pixel's spectrum, and the caller's image is not modified.", "quantifier": "every image cube and transform acting per spectrum", "why_tests_cant": "Universal over shapes; the in-place modification depends on memory layout and dtype.", "anchors": ["resippy/spectral/spectral_image_processing_2d.py:compute_image_cube_pca"]}
{"id": "C100", "title": "A uniform image has the requested size and the requested value in every band", "statement": "create_uniform_image_data returns an image with the requested numbers of rows, columns and bands; a single value fills every band, a list gives band b its entry b and leaves further bands zero, and a list longer than the number of bands is an error.", "quantifier": "every size, number of bands and list of values", "why_tests_cant": "Universal over sizes and list lengths.", "anchors": ["resippy/utils/image_utils/image_utils.py:create_uniform_image_data"]}
{"id": "C101", "title": "A USGS spectrum is read with its library's wavelength and resolution files", "statement": "from_ascii_file uses the text file of the library folder whose name (in any case) contains wavelength or waves, and the one whose name contains resolution or bandpass; when one is missing the call fails; the result depends only on the content of the folder.", "quantifier": "every folder content, file name and spectrum file", "why_tests_cant": "Universal over folders and listing orders.", "anchors": ["resippy/spectral/spectrum_factories/usgs/ascii/usgs_ascii_spectral_factory.py:UsgsAsciiSpectralFactory"]}
{"id": "C102", "title": "Folder listings and paths", "statement": "get_all_folders_in_dir lists exactly the sub-folders; get_path_from_subdirs joins the parts with single separators, an absolute part discarding everything before it.", "quantifier": "every directory content and list of parts", "why_tests_cant": "Universal over directory contents and path parts.", "anchors": ["resippy/utils/file_utils.py:get_all_folders_in_dir", "resippy/utils/file_utils.py:get_path_from_subdirs"]}
{"id": "C103", "title": "An RPC calculator loaded from a file uses each coefficient in its own role", "statement": "RPCPointCalc.init_from_file succeeds exactly when all fourteen RPC metadata entries are present and readable; the pixel of any ground point is then the standard rational polynomial evaluated with the values under the entries' own names (sample and line, numerator and denominator, scale and offset are never exchanged), the approximate centre is (LONG_OFF, LAT_OFF), and a file with missing or too few coefficients is rejected when it is loaded.", "quantifier": "every metadata dictionary, every text of every entry, every ground point", "why_tests_cant": "fourteen similarly named entries can be permuted in ways that a single file with symmetric values does not reveal; the claim covers all texts and all points", "anchors": ["resippy/image_objects/earth_overhead/earth_overhead_point_calculators/rpc_point_calc.py: RPCPointCalc.init_from_file, init_from_coeffs, _str_to_numpy_arr, _lon_lat_alt_to_pixel_x_y_native"]}
{"id": "C104", "title": "A camera given in degrees stands over its position, and its pixels subtend the reported angle", "statement": "IdealPinholeFpaLocalUtmPointCalc.init_from_wgs84_params makes the same camera as init_from_local_params with the position converted to the local UTM projection; when it looks straight down it sees its own position in the middle of the array at every altitude and heading; compute_ifov_x and compute_ifov_y return, in any angular unit, the angle off the optical axis at which a point falls exactly one pixel from the middle.", "quantifier": "every position, altitude, heading, unit, array size, pitch, focal length, flip and point", "why_tests_cant": "trigonometric identities over all real parameters and units cannot be exhausted by samples", "anchors": ["resippy/image_objects/earth_overhead/earth_overhead_point_calculators/ideal_pinhole_fpa_local_utm_point_calc.py: init_from_wgs84_params, init_from_local_params, compute_ifov_x, compute_ifov_y"]}
{"id": "C105", "title": "A sensor model and its calculators work in the same projection", "statement": "After EarthOverheadSensorModel.set_projection the model and all its calculators have that projection and nothing else has changed; a query for a band through the model gives the answer the band's calculator itself gives to the same question in the same world projection; a distortion model set on the sensor model reaches every calculator.", "quantifier": "every list of calculators (also repeated ones), every projection, every transform between projections, every query", "why_tests_cant": "interplay of shared mutable calculators, call order and arbitrary projections", "anchors": ["resippy/image_objects/earth_overhead/earth_overhead_point_calculators/earth_overhead_sensor_model.py: set_projection, set_distortion_model, add_point_calc", "resippy/image_objects/earth_overhead/earth_overhead_point_calculators/abstract_earth_overhead_point_calc.py: lon_lat_alt_to_pixel_x_y"]}
{"id": "C106", "title": "An OpenCV camera built from a dictionary uses every parameter in its own role", "statement": "OpenCVPointCalc.init_from_params with the sixteen parameters followed by init_extrinsic projects every ground point by the documented OpenCV model with each value in the role its name says, the camera standing at the fixture position plus the turned offset; a missing name is a KeyError, a query before init_extrinsic is an error, and the calculator's projection is the UTM zone of the camera's position.", "quantifier": "every parameter dictionary, every history of placements, every ground point", "why_tests_cant": "sixteen same-typed numbers can be exchanged without a type error; only a statement over all values separates them", "anchors": ["resippy/image_objects/earth_overhead/earth_overhead_point_calculators/opencv_point_calc.py: init_from_params, init_intrinsic, init_extrinsic, init_offsets, _lon_lat_alt_to_pixel_x_y_native"]}
{"id": "C107", "title": "Warping returns what GDAL made of the image, and height conversions replace a DEM's heights by the converted ones", "statement": "The image returned by gdalwarp_geotiff_image shows the raster GDAL produced from the image as it is in memory, stored under the given destination name, no other file changing; when GDAL fails the call raises; converting a DEM's heights between geoid and ellipsoid replaces its elevations by the warped raster with NaN exactly in no-data cells and the two directions are each other's reverse.", "quantifier": "every image (open, closed or built in memory), every option set, every file system and every behaviour of GDAL, failures included", "why_tests_cant": "the result depends on which files exist already and on arbitrary GDAL outcomes, which a test fixes to one case", "anchors": ["resippy/image_objects/earth_overhead/geotiff/geotiff_image.py: gdalwarp_geotiff_image, reproject_vertical_datum, create_map_tiles", "resippy/photogrammetry/dem/geotiff_dem.py: convert_to_geoid_heights, convert_to_ellipsoid_heights, convert_reference, set_geotiff_image"]}
{"id": "C108", "title": "Resampling at arbitrary coordinates is the spline inside the image and no-data outside", "statement": "grid_warp_image_band and the backup orthorectification give at every output pixel the value of the chosen interpolation at the pixel's source coordinates, limited to the image's own value range, when these lie inside the image, and the no-data value otherwise; each interpolation name selects its own spline order, and any other name raises.", "quantifier": "every image, coordinate arrays, interpolation name, no-data value and band list", "why_tests_cant": "holds for every coordinate including borders and for every spline kernel", "anchors": ["resippy/utils/image_utils/image_utils.py: grid_warp_image_band", "resippy/photogrammetry/ortho_tools.py: create_ortho_gtiff_image_world_to_sensor_backup"]}
{"id": "C109", "title": "A spectrum returns what was last stored in it, and resampling makes a new spectrum without touching the old ones", "statement": "After any sequence of setter calls on any number of spectra each getter returns the value last set on that spectrum; the returned spectral data is a copy with no-data replaced by NaN; with_units multiplies by the stored unit; resample_spectrum_direct returns a new spectrum with the given band centres, one value per response function (the response-weighted mean), and the units of its source, leaving every existing spectrum and array unchanged; missing values affect only bands whose response covers them, and wavelength units are taken into account.", "quantifier": "every history of setter calls and array writes, every spectrum, unit, response list and data with missing values", "why_tests_cant": "aliasing and history: any interleaving of setters, getters and writes to shared arrays", "anchors": ["resippy/spectral/spectrum.py: Spectrum, resample_spectrum_direct"]}
{"id": "C110", "title": "Image sizes, band images and resizing agree with the array's shape", "statement": "get_image_ny_nx_nbands returns rows, columns and bands of every two- or three-dimensional array; an array made for a size has that size; resizing gives the requested size with the bands unchanged in number, resizing to the own size gives the same image, and a call that cannot do this raises.", "quantifier": "every number of axes, every size, every band count, every resampling filter", "why_tests_cant": "sizes, numbers of axes and filters are unbounded; tests use a handful of shapes", "anchors": ["resippy/utils/image_utils/image_utils.py: get_image_ny_nx_nbands, create_uniform_image_data, resize_image"]}
{"id": "C111", "title": "The data of an ENVI image object are the data of its raster", "statement": "read_all_image_data_from_disk of an EnviImage returns all bands of the raster in the sizes its metadata reports, read_band_from_disk(b) is band b of them, and an image just written with write_envi_image comes back unchanged.", "quantifier": "every raster, header, band number, and every set of files lying beside the image", "why_tests_cant": "the header is guessed from whatever files exist; tests only see matching headers", "anchors": ["resippy/image_objects/envi/envi_image.py: EnviImage, init_from_file, read_all_image_data_from_disk, read_band_from_disk", "resippy/image_objects/envi/envi_image_factory.py: EnviImageFactory"]}
{"id": "C113", "title": "Overhead images have the metadata and point calculator last given to them, and factories give consistent ones", "statement": "After any history of assignments by method or property both ways of reading an attribute return what was assigned last (None before); images made by the factories carry the raster's metadata, the calculator given, and data of the size the metadata reports.", "quantifier": "every history of assignments, every raster, every array and metadata", "why_tests_cant": "histories are unbounded, tests assign once", "anchors": ["resippy/image_objects/earth_overhead/abstract_earth_overhead_image.py: AbstractEarthOverheadImage, pointcalc, metadata", "resippy/image_objects/earth_overhead/physical_camera/physical_camera_image_factory.py: from_gdal_file_and_single_point_calc, from_numpy_array_metadata_and_single_point_calc", "resippy/image_objects/earth_overhead/igm/igm_image.py: IgmImage"]}
{"id": "C114", "title": "A DEM has the projection and vertical reference last set, and None before", "statement": "get_projection and get_reference of every DEM object return what was set last by set_projection, set_reference or with the image, and None when nothing was set.", "quantifier": "every history of assignments, every kind of DEM", "why_tests_cant": "histories are unbounded, and the default depends on which constructors ran", "anchors": ["resippy/photogrammetry/dem/abstract_dem.py: AbstractDem, set_projection, get_projection, set_reference, get_reference"]}
{"id": "C112", "title": "Every training epoch uses every image exactly once, with the label of its folder", "statement": "In every epoch of train_model each training image and each validation image is used exactly once, in batches of the requested size of which only the last may be smaller; each image carries the number of its folder in the order of folder names, and the label file written beside the model, read back, names for every class that number.", "quantifier": "every directory, batch size, number of epochs, and every shuffling of the images in every epoch", "why_tests_cant": "orders of images and directory contents are unbounded, and training itself cannot run in a unit test", "anchors": ["resippy/image_recognition/neural_net_model_training/keras_model_training.py: setup_train_and_val_image_generators, train_model"]}
{"id": "C115", "title": "Freezing a network changes exactly its own layers", "statement": "freeze_model_layers and unfreeze_model_layers make all layers of the given network untrainable or trainable and no other layer; training a frozen network with new final layers changes exactly the new layers, training it without them changes nothing.", "quantifier": "every network, every state of the layers, every training", "why_tests_cant": "networks share layer objects; the claim is about every layer of every other network", "anchors": ["resippy/image_recognition/neural_net_model_training/keras_model_training.py: freeze_model_layers, unfreeze_model_layers, create_final_dense_softmax_layer, train_model"]}
{"id": "C116", "title": "The model kept is the best one", "statement": "After train_model the model file holds the network after the first epoch with the lowest validation loss; it is left unwritten exactly when no epoch had a loss that is a number.", "quantifier": "every number of epochs and every sequence of validation losses, also ones that are not numbers", "why_tests_cant": "loss sequences are unbounded and depend on the hardware", "anchors": ["resippy/image_recognition/neural_net_model_training/keras_model_training.py: train_model"]}
{"id": "C117", "title": "Validation images carry the labels the network was trained with", "statement": "A validation image of a class known from training has the label of that class, and a validation directory for which this is impossible is rejected.", "quantifier": "every pair of training and validation directories", "why_tests_cant": "the set of folder names is unbounded; tests use matching directories", "anchors": ["resippy/image_recognition/neural_net_model_training/keras_model_training.py: setup_train_and_val_image_generators"]}
{"id": "C118", "title": "New final layers can be put on every loaded network", "statement": "create_final_dense_softmax_layer accepts every network the load functions return and gives one score per class.", "quantifier": "every network, loaded in every allowed way, frozen or not", "why_tests_cant": "needs downloaded weights and every combination of flags", "anchors": ["resippy/image_recognition/neural_net_model_training/keras_model_training.py: create_final_dense_softmax_layer, load_vgg16_model, load_vgg19_model, load_resnet50_model"]}
{"id": "C119", "title": "A training does not depend on earlier trainings in the same process", "statement": "Two calls of train_model with the same arguments start from the same optimizer state whatever was trained before.", "quantifier": "every history of earlier calls", "why_tests_cant": "needs histories of calls in one process", "anchors": ["resippy/image_recognition/neural_net_model_training/keras_model_training.py: train_model"]}
{"id": "C120", "title": "Chips written under given names", "statement": "write_chips_to_disk with a list of names puts chip k, whole, into the file named by the k-th name and changes no other file; a list with too few names is an IndexError.", "quantifier": "every chip array, directory, format, list of names and previous content of the disk", "why_tests_cant": "the names and the earlier content of the directory are unbounded", "anchors": ["resippy/utils/image_utils/image_chipper.py: write_chips_to_disk"]}
{"id": "C121", "title": "A palette resampled to n_bins colours", "statement": "apply_colormap_to_grayscale_image with n_bins=m (palettes and m from 2 to 129 colours) colours the image with m colours taken at equal steps along the given palette; if m refines the palette evenly the continuous picture is unchanged; 0 bins are a ValueError and 1 bin an IndexError.", "quantifier": "every image, palette, pair of limits and number of bins up to 129", "why_tests_cant": "continuous values; the resampling calls the function recursively", "anchors": ["resippy/utils/image_utils/image_utils.py: apply_colormap_to_grayscale_image"]}
{"id": "C122", "title": "An orthophoto in its file shows the ground where it is", "statement": "An orthophoto written to a GeoTIFF and opened again shows, at every ground point that lies on its raster, the source image at a ground point less than one and a half output pixels away: the resampled band value where the source covers that point, the no-data value where it does not; size, projection, data type and no-data value are kept; the points on the raster are the extent less a strip of one part in (pixels + 1) at its right and bottom.", "quantifier": "every source image with co-registered bands, extent, elevation model, output size, list of bands and no-data value", "why_tests_cant": "the composition of grid, resampling, geo transform and file holds over continuous positions and all sizes", "anchors": ["resippy/image_objects/earth_overhead/geotiff/geotiff_image_factory.py: from_numpy_array, from_file", "resippy/photogrammetry/ortho_tools.py: create_ortho_gtiff_image_world_to_sensor", "resippy/image_objects/earth_overhead/geotiff/geotiff_image.py: write_to_disk"]}
{"id": "C123", "title": "The transparency band marks exactly the pixels without source data", "statement": "With a mask requested, the extra band of the orthophoto is 0 exactly at the output pixels where the source has no data and 255 at the others, and the other bands are those of the plain orthophoto.", "quantifier": "every source, extent, elevation model, output size, list of bands and no-data value", "why_tests_cant": "the marked pixels depend on every value of the picture", "anchors": ["resippy/photogrammetry/ortho_tools.py: create_ortho_gtiff_image_world_to_sensor"]}
{"id": "C124", "title": "From a Pix4D directory to pixel positions", "statement": "A directory with one file of each kind gives, without file names, the same parameters as with them; the calculator made from the parameters for an image, named with or without its directory, puts ground points where the image's own position, rotation and camera in the files say; a missing kind is an IndexError.", "quantifier": "every directory listing, file content, image name and ground point", "why_tests_cant": "file contents, names and positions are unbounded", "anchors": ["resippy/utils/pix4d_utils.py: make_master_dict", "resippy/image_objects/earth_overhead/earth_overhead_point_calculators/pix4d_point_calc.py: init_from_params"]}
{"id": "C125", "title": "Time and place of a MicaSense image from its tags", "statement": "The GPS timestamp is the whole second of the GPS week of the date and time in the EXIF tag, plus a fraction below one second; it stays in the week and within one week and one second or more apart keeps the order of the images; dates are taken by the Gregorian calendar, an impossible date is a ValueError; the centre is the converted position.", "quantifier": "every date and time, time zone, sub-second tag and position", "why_tests_cant": "the calendar over all dates and the order over all pairs of images", "anchors": ["resippy/image_objects/earth_overhead/micasense/micasense_image.py: get_gps_timestamp_and_center", "resippy/utils/time_utils.py: utc_timestamp_to_gps_week_and_seconds"]}
{"id": "C126", "title": "Integer images are normalised and coloured like the same images of floats", "statement": "For an image of 8-, 16-, 32- or 64-bit integers, normalize_grayscale_image (with output_dtype=None) gives the values it gives for the same image converted to floats, and apply_colormap_to_grayscale_image with continuous=False and default limits gives each pixel the colour it has for the same image of floats.", "quantifier": "every integer type, every image of values of that type, every target range, palette", "why_tests_cant": "The integer arithmetic wraps around only for particular combinations of type and extreme values; a test image of small values never shows it.", "anchors": ["resippy/utils/image_utils/image_utils.py:normalize_grayscale_image", "resippy/utils/image_utils/image_utils.py:apply_colormap_to_grayscale_image"]}
{"id": "C127", "title": "Spectral angles of integer images are those of the same images of floats", "statement": "For an image of integers, sam gives each sample the value it gives for the same image (and target) converted to floats: the cosine of the angle between the sample and the target, 1 when the sample is the target.", "quantifier": "every integer type, every image of values of that type, every target of floats or of the same type", "why_tests_cant": "Squares of ordinary 16-bit radiances already exceed 16 bits, but tests use small or floating-point numbers; the claim is about all values.", "anchors": ["resippy/spectral/spectral_image_processing_1d.py:sam"]}
{"id": "C128", "title": "The master dictionary holds the collect's projection and every image's rotation matrix", "statement": "make_master_dict on a pix4d directory returns a dictionary that holds, besides one entry per image, the projection read from the collect's projection file under 'projection' and, for every image, the rotation matrix computed from that image's angles; no image's entry can be mistaken for one of these.", "quantifier": "every directory, file contents and projection library behaviour", "why_tests_cant": "Depends on how many images there are and on which names they have; a test collect of one image cannot show it.", "anchors": ["resippy/utils/pix4d_utils.py:make_master_dict", "resippy/utils/pix4d_utils.py:create_r_matrix"]}
{"id": "C129", "title": "Pixel grids in floating point have the exact number of rows and columns", "statement": "In floating-point arithmetic (every operation rounded to p significant bits, half to even; p = 53 for float64) create_pixel_grid(nx, ny, s) has ceil(ny*s) rows and ceil(nx*s) columns; entry (j, i) is i/s and j/s up to a relative error of 2u+u^2 (u = 2^-p), entries never decrease along an axis and stay below nx and ny.", "quantifier": "every size up to 2^p, every positive scale factor, every precision p", "why_tests_cant": "The count depends on the last bit of a rounded quotient; a test covers a handful of scale factors.", "anchors": ["resippy/utils/image_utils/image_utils.py:create_pixel_grid"]}
{"id": "C130", "title": "Blending in floating point stays a blend", "statement": "In floating-point arithmetic blend_images(a, b, w) with 0 <= w <= 1 is within ((1+u)^3-1) of the largest pixel of the exact blend (u = 2^-p), gives a at w = 1 and b at w = 0 exactly, never darkens when the inputs brighten, lies between a and b pixelwise, and keeps its integer value when cast back to the integer type of equal inputs.", "quantifier": "every pair of images, every weight, every precision p", "why_tests_cant": "Rounding errors show for particular weights and values only.", "anchors": ["resippy/utils/image_utils/image_utils.py:blend_images"]}
{"id": "C131", "title": "Normalising in floating point stays in the requested range", "statement": "In floating-point arithmetic normalize_grayscale_image gives a non-constant image pixels in [new_min, new_max], with the smallest pixel at new_min and the largest at new_max; brighter pixels never come out darker.", "quantifier": "every image, every range, every precision p", "why_tests_cant": "Whether the maximum overshoots depends on the rounding of the two end points.", "anchors": ["resippy/utils/image_utils/image_utils.py:normalize_grayscale_image"]}
{"id": "C132", "title": "Navigation values in floating point", "statement": "In floating-point arithmetic every queried time in range gets a finite value within ((1+u)^4/(1-u)-1) of the size of the bracketing records from the exact interpolation, and the recorded value itself at a record's time.", "quantifier": "every nav data set with increasing times, every time in range, every precision p", "why_tests_cant": "Depends on the last bits of times and values; tests compare with tolerances.", "anchors": ["resippy/photogrammetry/nav/applanix_sbet_nav.py:ApplanixSBETNav", "resippy/photogrammetry/nav/applanix_eo_nav.py:ApplanixEONav"]}
{"id": "C133", "title": "Counting pixels of an extent in floating point", "statement": "In floating-point arithmetic get_nx_ny_pixels_in_extent gives the number of whole pixels that fit in the extent.", "quantifier": "every polygon, every pair of positive pixel sizes, every precision p", "why_tests_cant": "The truncated quotient changes by one when the rounded quotient crosses an integer.", "anchors": ["resippy/utils/photogrammetry_utils.py:get_nx_ny_pixels_in_extent"]}
{"id": "C134", "title": "Time conversions in floating point are exact", "statement": "For every timestamp since the GPS epoch that is written with p bits down to a fraction 2^e of a second (float64: a quarter of a microsecond until 2038), utc_timestamp_to_gps_timestamp and gps_timestamp_to_utc_timestamp involve no rounding error at all: they keep the strict order of timestamps, and the round trip returns the same float wherever the exact one does.", "quantifier": "every such timestamp, every precision p, every local time zone that moved by whole seconds", "why_tests_cant": "Rounding depends on the magnitude and last bits of the timestamp.", "anchors": ["resippy/utils/time_utils.py:utc_timestamp_to_gps_timestamp", "resippy/utils/time_utils.py:gps_timestamp_to_utc_timestamp"]}
{"id": "C135", "title": "GPS week and seconds in floating point are good to a microsecond", "statement": "In floating-point arithmetic utc_timestamp_to_gps_week_and_seconds gives a week w and seconds s with 0 <= s <= 604800, and w*604800 + s differs from the exact GPS time g by at most u*g + (2u+u^2)*604800 (u = 2^-p; float64 before 2038: a microsecond, and s < 604800); for whole seconds the week is exact.", "quantifier": "every timestamp since the GPS epoch, every precision p >= 20", "why_tests_cant": "Cancellation loses digits in a way that depends on the week number.", "anchors": ["resippy/utils/time_utils.py:utc_timestamp_to_gps_week_and_seconds"]}
{"id": "C136", "title": "Geotiff coordinates in floating point keep pixels apart", "statement": "In floating-point arithmetic the pixel to world conversion of a geotiff is within ((1+u)^3-1) of the size of its terms of the exact position, keeps the order of pixels of a north-up raster, and converting the result back gives a position less than half a pixel away from where it started, so that the nearest whole pixel is the original one.", "quantifier": "every geotransform (back conversion: north-up, with the inverse GDAL computes for it), every pixel number and distance from the origin up to 2^(p-5) pixels, every precision p >= 8", "why_tests_cant": "Depends on all bits of the geotransform; tests use a few rasters.", "anchors": ["resippy/image_objects/earth_overhead/earth_overhead_point_calculators/geotiff_point_calc.py:_pixel_x_y_alt_to_lon_lat_native", "resippy/image_objects/earth_overhead/earth_overhead_point_calculators/geotiff_point_calc.py:_lon_lat_alt_to_pixel_x_y_native"]}
{"id": "C137", "title": "The ground grid in floating point", "statement": "In floating-point arithmetic every point of create_ground_grid is within 10u(abs(min) + width) of the centre of its cell and positions never run backwards; if the cells are larger than 20u(abs(min) + width) (float64 and UTM metres: 22 nanometres) the points are strictly inside the extent and strictly ordered.", "quantifier": "every extent, every grid of 2 to 2^p rows and columns, every precision p >= 8", "why_tests_cant": "Depends on the position of the extent relative to the origin and on the last bits of the step.", "anchors": ["resippy/utils/photogrammetry_utils.py:create_ground_grid"]}
{"id": "C138", "title": "An interrupted chip export damages at most one chip and can be repeated", "statement": "When write_chips_to_disk is stopped at any moment, the chips before some index k are in their files completely, the file of chip k is as it was or incomplete, and every other file is as it was; calling it again with the same arguments leaves exactly what an uninterrupted call would have left; a call that ends without exception leaves only complete files, those of C07 and C120.", "quantifier": "all chip stacks, names, formats and prior file systems, all points at which the process can be stopped", "why_tests_cant": "a test cannot kill the process at every point of every export", "anchors": ["resippy/utils/image_utils/image_chipper.py:write_chips_to_disk"]}
{"id": "C139", "title": "Chip exports at the same time do not disturb one another", "statement": "Any number of write_chips_to_disk calls running at the same time, no two with the same directory, base name and format: at any moment of any interleaving the files of each call are what that call alone, stopped somewhere, would have left; a call that has ended has written all its chips completely; no other file is changed.", "quantifier": "all numbers of calls, all chip stacks, directories, base names and formats, all interleavings", "why_tests_cant": "the interleavings of several processes cannot be enumerated by a test", "anchors": ["resippy/utils/image_utils/image_chipper.py:write_chips_to_disk"]}
{"id": "C140", "title": "Making an output directory is safe when several jobs start together", "statement": "A process that makes sure a directory exists (make_dir_if_not_exists, or the working directory of from_numpy_and_pix4d) ends without error and the directory is there, whatever other processes making directories do at the same time.", "quantifier": "all paths, all numbers of processes and programs that make directories, all schedules", "why_tests_cant": "the race needs a particular schedule of system calls that a test does not control", "anchors": ["resippy/utils/file_utils.py:make_dir_if_not_exists", "resippy/image_objects/earth_overhead/micasense/micasense_image_factory.py:MicasenseImageFactory.from_numpy_and_pix4d"]}
{"id": "C141", "title": "An interrupted write of a text list is not mistaken for a complete one", "statement": "When write_text_list_to_file was stopped so that the file holds only the beginning of the text, read_text_list_from_file does not return a list that was never written.", "quantifier": "all lists of lines, both line separators, all points at which the write can stop", "why_tests_cant": "every length of the partial file of every list would have to be tried", "anchors": ["resippy/utils/file_utils.py:write_text_list_to_file", "resippy/utils/file_utils.py:read_text_list_from_file"]}
{"id": "C142", "title": "An interrupted training leaves the best model so far", "statement": "Whenever train_model is stopped, the model file holds the model of the epoch with the lowest validation loss among those completed (what it held before when none had a loss), and the label file is complete.", "quantifier": "all sequences of validation losses (including not-a-number), all points at which the process can be stopped", "why_tests_cant": "a test runs a training to its end; it cannot stop it everywhere", "anchors": ["resippy/image_recognition/neural_net_model_training/keras_model_training.py:train_model"]}
{"id": "C143", "title": "Training again in the same directory keeps the best model", "statement": "When train_model is called again with the output directory of an earlier call, a model already there is replaced only by one with a lower validation loss; repeating an interrupted call leaves what the uninterrupted call would have left.", "quantifier": "all histories of trainings in one directory, all losses", "why_tests_cant": "depends on the history of earlier runs and their losses", "anchors": ["resippy/image_recognition/neural_net_model_training/keras_model_training.py:train_model"]}
{"id": "C144", "title": "The label file and the model in the output directory belong together", "statement": "At any moment, when both files in the output directory of train_model are complete, the label file is that of the training that made the model.", "quantifier": "all directories before the call, all class names and losses, all points at which the process can be stopped", "why_tests_cant": "needs every crash point and every previous content of the directory", "anchors": ["resippy/image_recognition/neural_net_model_training/keras_model_training.py:train_model", "resippy/utils/file_utils.py:write_text_list_to_file"]}
{"id": "C145", "title": "MicaSense images made one after another keep their data", "statement": "After any history of from_numpy_and_pix4d calls, answering or raising, every file on disk holds the band last written to it (or what it held before), and every image made goes on reading its own array, band by band and counted from either end.", "quantifier": "all histories of calls, folders, name lists, arrays, bands and initial disks", "why_tests_cant": "A test makes one or two images; the claim is about every history of calls sharing a disk.", "anchors": ["resippy/image_objects/earth_overhead/micasense/micasense_image_factory.py:MicasenseImageFactory.from_numpy_and_pix4d", "resippy/image_objects/earth_overhead/micasense/micasense_image.py:MicasenseImage.read_band_from_disk"]}
{"id": "C146", "title": "A failed from_numpy_and_pix4d leaves the disk as it was", "statement": "A from_numpy_and_pix4d call answers exactly when there is a name for every band; it writes its bands in order to the files it answers with and to no other file; a call that raises leaves the disk as it was.", "quantifier": "all calls and initial disks, with the error raised at every band", "why_tests_cant": "The state after an exception at an arbitrary band for arbitrary disks cannot be enumerated by tests.", "anchors": ["resippy/image_objects/earth_overhead/micasense/micasense_image_factory.py:MicasenseImageFactory.from_numpy_and_pix4d"]}
{"id": "C147", "title": "DEMs and callers can share an image object", "statement": "Operations on one DEM never change the elevations, no-data value, interpolation or georeferencing of another DEM, nor the size, georeferencing or readability of an image the caller or another DEM holds.", "quantifier": "all scenes of image and DEM objects and all histories of setting images, converting heights, loading and closing", "why_tests_cant": "Aliasing between objects over arbitrary histories is out of reach of single-object tests.", "anchors": ["resippy/photogrammetry/dem/geotiff_dem.py:GeotiffDem.convert_to_geoid_heights", "resippy/photogrammetry/dem/geotiff_dem.py:GeotiffDem.set_geotiff_image", "resippy/image_objects/earth_overhead/geotiff/geotiff_image.py:GeotiffImage.close_image"]}
{"id": "C148", "title": "A DEM operation that raises leaves the DEM as it was", "statement": "set_geotiff_image either gives the DEM the image with its elevations, masked where they hold the no-data value in force, or raises and leaves the DEM with its old image and elevations; so do the height conversions.", "quantifier": "all DEM states, images and failures of GDAL", "why_tests_cant": "Every state at which every operation can fail would have to be tested.", "anchors": ["resippy/photogrammetry/dem/geotiff_dem.py:GeotiffDem.set_geotiff_image", "resippy/photogrammetry/dem/geotiff_dem.py:GeotiffDem.remove_nodata_values", "resippy/photogrammetry/dem/geotiff_dem.py:GeotiffDem.convert_to_ellipsoid_heights"]}
{"id": "C149", "title": "The two directions of a geotiff calculator belong together", "statement": "After any history of creating calculators or images, set_geot and assignments to the geotransform lists involved, a GeotiffPointCalc places pixels by the geotransform it was given last, and its world-to-pixel queries invert exactly that.", "quantifier": "all programs of list creations, set_geot calls, image creations and element assignments, all geotransforms", "why_tests_cant": "Aliasing between the caller's list, get_geot's result and several calculators over arbitrary histories is not tested.", "anchors": ["resippy/image_objects/earth_overhead/earth_overhead_point_calculators/geotiff_point_calc.py:GeotiffPointCalc.set_geot", "resippy/image_objects/earth_overhead/earth_overhead_point_calculators/geotiff_point_calc.py:GeotiffPointCalc.get_geot", "resippy/image_objects/earth_overhead/geotiff/geotiff_image.py:GeotiffImage.init_from_numpy_array"]}
{"id": "C150", "title": "ENVI images written at the same time, or one after another, under different names", "statement": "When any number of processes call the ENVI image writer at the same time, a 'bil' image of a supported type whose call has returned is read back identical as long as no other call names its data or header file, whatever those other calls are doing and whether or not they fail; files nobody names are never touched; and in a sequence of calls the image written last under a name is the one read back", "quantifier": "every number of processes, image, name, interleaving of the byte-level effects, earlier disk content and later calls", "why_tests_cant": "the schedules of several writers are unbounded and cannot be produced at will by a test", "anchors": ["resippy/utils/envi_utils.py:write_envi_image", "resippy/utils/envi_utils.py:read_envi_image"]}
{"id": "C151", "title": "ENVI images written at the same time under the same name", "statement": "When several processes write ENVI images under the same name at the same time, then after all have returned the image read back is one of the images written", "quantifier": "every number of processes, images and interleaving of their byte-level effects", "why_tests_cant": "a test runs one schedule; the property is about all interleavings of two writers of one file", "anchors": ["resippy/utils/envi_utils.py:write_envi_image", "resippy/utils/envi_utils.py:read_envi_image"]}
{"id": "C152", "title": "A calculator fresh from its factory turns pixels into positions", "statement": "Every point calculator, as its factory (RPC, pix4d, pinhole, IGM, GeoTIFF, OpenCV, MicaSense sensor model) leaves it, answers pixel_x_y_alt_to_lon_lat with the position its own method gives, or the solver's answer started at the centre the factory knows, expressed in the projection asked for; it fails only when that method or the solver fails", "quantifier": "every factory and its arguments, every native method result, solver, projection definitions and requested projection", "why_tests_cant": "one missing attribute among many factories and call paths is found only by going through all of them", "anchors": ["resippy/image_objects/earth_overhead/earth_overhead_point_calculators/abstract_earth_overhead_point_calc.py:pixel_x_y_alt_to_lon_lat", "resippy/image_objects/earth_overhead/earth_overhead_point_calculators/opencv_point_calc.py:init_from_params", "resippy/image_objects/earth_overhead/micasense/micasense_image_factory.py:_from_point_calcs"]}
{"id": "C153", "title": "The projection and the approximate centre of a calculator are those last set", "statement": "After any history of set_projection and set_approximate_lon_lat_center on a calculator from any factory, the getters give the value last set, else the factory's, else None, and the one setter does not touch the other attribute nor whether the bands are coregistered", "quantifier": "every factory and every sequence of setter calls", "why_tests_cant": "histories of calls are unbounded", "anchors": ["resippy/image_objects/earth_overhead/earth_overhead_point_calculators/abstract_earth_overhead_point_calc.py:set_projection", "resippy/image_objects/earth_overhead/earth_overhead_point_calculators/geotiff_point_calc.py:__init__"]}
{"id": "C154", "title": "A navigation object holds the records and the projection of one load", "statement": "A navigation object made by NavFactory, or loaded again any number of times with load_from_file, holds the records, counts and projection of the last load; a load that raises leaves the object as it was; the zone is used exactly when one is given", "quantifier": "every sequence of loads, readable or not, with any projection arguments, accepted or refused by pyproj", "why_tests_cant": "histories of loads with failures at every point are unbounded", "anchors": ["resippy/photogrammetry/nav/nav_factory.py:NavFactory", "resippy/photogrammetry/nav/applanix_eo_nav.py:load_from_file", "resippy/photogrammetry/nav/applanix_sbet_nav.py:load_from_file"]}
{"id": "C155", "title": "The float mean spectrum is the mean, whatever order numpy adds in", "statement": "compute_image_cube_spectral_mean returns, for every band of a float image with at least one sample, a number that differs from the exact mean by at most ((1+u)^n - 1) times the mean absolute value, and demean_image_data inherits that error plus one rounding, whichever order the additions are carried out in; for whole-number bands whose absolute values add up to at most 2^53 the result is the correctly rounded mean and does not depend on the order", "quantifier": "every image of at least one sample, every band, every order of the additions, every precision", "why_tests_cant": "numpy picks the order by array layout, version and CPU; a test sees one order and one image", "anchors": ["resippy/spectral/spectral_image_processing_1d.py:compute_image_cube_spectral_mean", "resippy/spectral/spectral_image_processing_1d.py:demean_image_data"]}
{"id": "C156", "title": "The float spectral-angle score is a cosine", "statement": "sam on a float image scores every sample with a number differing from the cosine of the angle between sample and target by at most (1+u)^(n+1)/(1-u)^(n+3) - 1 whichever way the inner products are computed; the score is finite exactly when neither target nor sample is all zero, never negative for spectra without negative values, and not changed in any bit by rescaling samples or target by powers of two", "quantifier": "every image, every target, every way to compute the inner products (any order, with or without fused multiply-add), every precision", "why_tests_cant": "BLAS kernels differ between machines; a test sees one kernel and a few spectra", "anchors": ["resippy/spectral/spectral_image_processing_1d.py:sam"]}
{"id": "C157", "title": "Float means and scores stay in range", "statement": "The float mean of a band lies between its smallest and its largest sample, and a sam score lies between -1 and 1", "quantifier": "every float image, band, sample and target, every order of the operations", "why_tests_cant": "one ulp of excess appears only for particular values and orders; downstream arccos of a score above 1 is NaN", "anchors": ["resippy/spectral/spectral_image_processing_1d.py:compute_image_cube_spectral_mean", "resippy/spectral/spectral_image_processing_1d.py:sam"]}
{"id": "C158", "title": "Detection scores do not depend on the calibration of the bands", "statement": "With the statistics they compute themselves, rx_anomaly_detector and ace give every sample the same score after any invertible affine change of the bands (gains, offsets, units, band order, principal components), applied to the target as well; and such a change never turns a result into a LinAlgError or back", "quantifier": "every image, target, mask and affine change of the bands", "why_tests_cant": "the claim is about all linear changes of all images; a test tries a few gains", "anchors": ["resippy/spectral/spectral_image_processing_1d.py:rx_anomaly_detector", "resippy/spectral/spectral_image_processing_1d.py:ace"]}
{"id": "C159", "title": "Spectral results follow the pixels", "statement": "Spectral mean, covariance and the equalisation matrix do not depend on where the samples are; demeaned images, RX, ACE, SAM scores and equalised images move with the pixels when an image and its mask are mirrored, transposed, turned or shuffled, in the one- and two-dimensional versions; an exception stays the same exception", "quantifier": "every image shape, mask, statistics given or computed, and every rearrangement of the pixels, also into another shape", "why_tests_cant": "the rearrangements of an image are exponentially many; an axis mix-up shows only on some non-square shapes", "anchors": ["resippy/spectral/spectral_image_processing_2d.py", "resippy/spectral/spectral_image_processing_1d.py"]}
{"id": "C160", "title": "Masked samples never influence the statistics, even when they are NaN", "statement": "Spectral mean, covariance and demeaned images, and the ACE scores of the other samples, are the same whatever numbers or NaN values stand in the masked samples; if all missing values are masked they are those of the image with arbitrary numbers in the gaps", "quantifier": "every image with any pattern of NaN values, every mask, target, given or computed statistics", "why_tests_cant": "the places and values under a mask are unbounded; a NaN that leaks through a product with a zero weight shows only with missing data", "anchors": ["resippy/spectral/spectral_image_processing_1d.py:compute_image_cube_spectral_mean", "resippy/spectral/spectral_image_processing_1d.py:compute_image_cube_spectral_covariance", "resippy/spectral/spectral_image_processing_1d.py:ace"]}
{"id": "C161", "title": "A missing value spoils only its own sample", "statement": "When some samples have missing values, the spectral scores (SAM, RX, ACE) of all complete samples are numbers and incomplete samples have the score NaN; a band mean is a number exactly when all samples used are numbers there", "quantifier": "every image with any pattern of NaN values, every target, statistics given or computed", "why_tests_cant": "the patterns of missing data are exponentially many; one NaN may spread to all scores through the computed statistics", "anchors": ["resippy/spectral/spectral_image_processing_1d.py:sam", "resippy/spectral/spectral_image_processing_1d.py:rx_anomaly_detector", "resippy/spectral/spectral_image_processing_1d.py:ace"]}
{"id": "C162", "title": "Blending and continuous colouring treat pixels one by one", "statement": "A blended pixel is NaN exactly when one of its two pixels is, and the weighted mean of the two otherwise; a colormapped pixel that is a number has the colour it has without the missing pixels, whose presence does not move the clip limits", "quantifier": "every image with any pattern of NaN values, every percent, palette, limits, no-data value", "why_tests_cant": "the patterns of missing data are exponentially many; limits computed with the wrong min/max make the whole picture NaN only when data are missing", "anchors": ["resippy/utils/image_utils/image_utils.py:blend_images", "resippy/utils/image_utils/image_utils.py:apply_colormap_to_grayscale_image"]}
{"id": "C163", "title": "A missing pixel stays one pixel and recognisable", "statement": "After normalising, colouring or making a detection image, the missing pixels are missing (or no-data) and all other pixels are what they are without the missing ones", "quantifier": "every image with any pattern of NaN values, every palette, list of scores", "why_tests_cant": "the patterns of missing data are exponentially many; a wrong treatment of NaN gives plausible pictures", "anchors": ["resippy/utils/image_utils/image_utils.py:normalize_grayscale_image", "resippy/utils/image_utils/image_utils.py:apply_colormap_to_grayscale_image", "resippy/utils/image_utils/image_utils.py:create_detection_image_from_scores"]}
{"id": "C164", "title": "A void in a DEM affects only the queries next to it", "statement": "get_elevations over a DEM with voids (NaN) gives NaN exactly at points that have a void among the cells next to them (the four surrounding cells for bilinear, the cell containing the point for nearest interpolation), and elsewhere the elevation of the DEM with arbitrary numbers in the voids; exceptions are the same", "quantifier": "every raster with any pattern of voids, both interpolation methods, every point inside or outside the raster", "why_tests_cant": "the patterns of voids are exponentially many; a NaN that spreads further, or is averaged away, shows only near voids", "anchors": ["resippy/photogrammetry/dem/geotiff_dem.py:get_elevations"]}
{"id": "C165", "title": "Ray casting over voids gives a point on the known terrain or NaN", "statement": "Over a DEM with voids pixel_x_y_to_lon_lat_alt gives for each pixel a point on its ray and on the terrain between two known samples, at the first sample known to be above the ray, or NaN; NaN only when the sample just before that one, or the end of the ray, is unknown", "quantifier": "every DEM with any pattern of voids, every sensor, number of samples and pixel", "why_tests_cant": "the patterns of voids along rays are exponentially many; an index that wraps around gives a plausible point", "anchors": ["resippy/image_objects/earth_overhead/earth_overhead_point_calculators/abstract_earth_overhead_point_calc.py:pixel_x_y_to_lon_lat_alt"]}
{"id": "C166", "title": "A ray that passes a void before it meets known terrain is not reported as a hit", "statement": "When the terrain is unknown at a sample of the ray before the reported intersection, the result is NaN, because the ray may have met the terrain there; so a reported point is the first intersection whatever the terrain in the voids", "quantifier": "every DEM with any pattern of voids, every sensor, number of samples and pixel", "why_tests_cant": "the patterns of voids along rays are exponentially many; a skipped void gives a plausible point behind the true one", "anchors": ["resippy/image_objects/earth_overhead/earth_overhead_point_calculators/abstract_earth_overhead_point_calc.py:pixel_x_y_to_lon_lat_alt"]}
{"id": "C167", "title": "A pixel reported as not obstructed is known to be seen", "statement": "are_pixels_obstructed_by_dem over a DEM with voids marks a pixel only if it is obstructed whatever the terrain in the voids, and leaves it unmarked only if its altitude and the terrain along its line of sight are known", "quantifier": "every DEM with any pattern of voids, every sensor, resolution and list of pixels", "why_tests_cant": "the patterns of voids are exponentially many; comparisons with NaN silently count as not obstructed", "anchors": ["resippy/photogrammetry/ortho_tools.py:are_pixels_obstructed_by_dem"]}
{"id": "C168", "title": "Unknown altitudes of some pixels do not change the positions of others", "statement": "When some altitudes passed to pixel_x_y_alt_to_lon_lat are NaN, the other pixels get the positions they get without them", "quantifier": "every sensor, request, centre, threshold and iteration limit", "why_tests_cant": "one NaN changes the step sizes and the stopping of the whole batch; the effect depends on the sensor", "anchors": ["resippy/image_objects/earth_overhead/earth_overhead_point_calculators/abstract_earth_overhead_point_calc.py:pixel_x_y_alt_to_lon_lat"]}
{"id": "C169", "title": "Computed RPC pixels are close to the exact formula", "statement": "Projecting a ground point through an RPC sensor model in floating point gives a pixel that differs from the exact value of the RPC formula only by accumulated rounding, with an explicit bound built from the sizes of the terms that are added; for models of ordinary size in double precision the difference is below 1e-8 pixel.", "quantifier": "all RPC coefficient sets, ground points and altitudes whose denominators are not lost in rounding, and all roundings with relative error u", "why_tests_cant": "the error bound must hold for every coefficient set and ground point; a test compares a few points with a reference that is itself rounded", "anchors": ["resippy/image_objects/earth_overhead/earth_overhead_point_calculators/rpc_point_calc.py:RPCPointCalc._lon_lat_alt_to_pixel_x_y_native", "resippy/image_objects/earth_overhead/earth_overhead_point_calculators/rpc_point_calc.py:RPCPointCalc.compute_p"]}
{"id": "C170", "title": "Computed orientation matrices are close to rotations", "statement": "The orientation matrix built in floating point from roll, pitch and heading, in any of the supported rotation orders, agrees with the exact rotation matrix entry by entry up to accumulated rounding, and its rows are orthonormal up to accumulated rounding (below 3e-15 and 2e-14 in double precision), whatever order the matrix product adds its terms in.", "quantifier": "all angles, all rotation orders, all summation orders inside the matrix product, all numeric libraries with relative error u", "why_tests_cant": "no finite set of angles covers all rotations or all orders in which a BLAS may add", "anchors": ["resippy/utils/photogrammetry_utils.py:create_M_matrix"]}
{"id": "C171", "title": "Computed image-plane positions are close to the exact projection", "statement": "The image-plane position a pinhole camera computes in floating point for a world point differs from the exact collinearity projection only by accumulated rounding with an explicit bound; in double precision, for points not too oblique (offset at most 10 times the depth), by less than a 1e-12 part of the focal length.", "quantifier": "all cameras, world points whose depth is not lost in rounding, and all roundings with relative error u", "why_tests_cant": "the bound must hold for every camera pose and point, including those far from the tested ones", "anchors": ["resippy/image_objects/earth_overhead/earth_overhead_point_calculators/pinhole_camera.py:PinholeCamera.world_to_image_plane"]}
{"id": "C172", "title": "Angles recovered in floating point are numbers close to the original angles", "statement": "Building an orientation matrix from roll, pitch and heading and recovering the three angles from it in floating point gives numbers that are close to the original angles.", "quantifier": "all angles in the principal range and all numeric libraries with relative error u, in particular correctly rounded double precision", "why_tests_cant": "the failing angles are isolated values of the pitch where rounding pushes an arc-cosine argument above one; a sample of angles easily misses them", "anchors": ["resippy/utils/photogrammetry_utils.py:solve_for_omega_phi_kappa", "resippy/utils/photogrammetry_utils.py:create_M_matrix", "resippy/utils/physical_camera_simulator.py"]}
{"id": "C173", "title": "Iterative pixel-to-world conversion converges for sensors close to affine", "statement": "For every sensor whose pixel coordinates follow an affine map over the search region with slopes that vary by less than a fifth of its resolution (in pixels per ground unit), and which is computed with a small enough error, the iterative conversion of pixels and altitudes to ground positions reaches every requested pixel within the threshold before the iteration limit, and returns positions within an explicit distance of the true ground positions. Frame (projective) cameras, including the ideal pinhole camera with a focal plane array, are such sensors whenever an explicit bound on their slopes over the region holds; a camera looking straight down has slopes that do not vary at all. With the default settings (0.01 pixel, 1000 iterations) a first guess up to a million pixels away converges.", "quantifier": "every sensor close to affine with explicit constants, every pixel, altitude, starting point and tolerance for which the true point lies in the search area", "why_tests_cant": "tests run the solver for a few cameras and pixels; convergence is a claim about every step of an iteration for every camera and pixel", "anchors": ["resippy/image_objects/earth_overhead/earth_overhead_point_calculators/abstract_earth_overhead_point_calc.py:_pixel_x_y_alt_to_lon_lat_native_solver", "resippy/image_objects/earth_overhead/earth_overhead_point_calculators/ideal_pinhole_fpa_local_utm_point_calc.py"]}
{"id": "C174", "title": "Ray casting over terrain of bounded slope is accurate", "statement": "Over terrain of bounded slope c (relative to the ray), casting a ray with sample distance d returns a point on the ray which lies within c\u00b7d/2 (plus the accuracy of the elevation model) of the terrain surface, and no earlier point of the ray lies below the terrain by more than that.", "quantifier": "every ray, every sample distance, every terrain of bounded slope, every elevation model within a given accuracy of the terrain", "why_tests_cant": "tests look at a few rays over one elevation model; the bound is about all terrains and all points of the ray between the samples", "anchors": ["resippy/image_objects/earth_overhead/earth_overhead_point_calculators/abstract_earth_overhead_point_calc.py:_pixel_x_y_to_lon_lat_ray_caster_native", "resippy/image_objects/earth_overhead/earth_overhead_point_calculators/abstract_earth_overhead_point_calc.py:pixel_x_y_to_lon_lat_alt"]}
{"id": "C175", "title": "Bilinear elevations in floating point are accurate", "statement": "The elevation that an elevation model with bilinear interpolation returns when every operation is rounded lies within 3e-15 times the largest elevation (in size) of the raster of what the same formula gives in exact arithmetic, and the rounded call fails with a division by zero exactly when the exact formula does.", "quantifier": "every raster of at least two rows and columns, every point, every rounding with relative error at most the unit", "why_tests_cant": "tests compare a few points against a tolerance; rounding errors depend on every bit of the input", "anchors": ["resippy/photogrammetry/dem/geotiff_dem.py:GeotiffDem.get_elevations"]}
{"id": "C176", "title": "An opened GeoTIFF image behaves as a copy of its file", "statement": "For every sequence of calls that open GeoTIFF files, make images from arrays, set, load, read, close and write images, in which every image is read from disk only while its file is the one that was opened, every call returns and writes exactly what it would if opening a file copied all its pixels; in particular an image opened from one file and written under another name, with any such calls in between and after, is read back from there with the pixels the first file had when it was opened.", "quantifier": "every number of image objects and files, every sequence of calls, every behaviour of GDAL on files that were replaced", "why_tests_cant": "tests open and write one file; the claim is about every interleaving of calls on several image objects whose pixels are read late", "anchors": ["resippy/image_objects/earth_overhead/geotiff/geotiff_image.py:GeotiffImage.init_from_file", "resippy/image_objects/earth_overhead/geotiff/geotiff_image.py:GeotiffImage.write_to_disk", "resippy/image_objects/earth_overhead/geotiff/geotiff_image.py:GeotiffImage.read_all_image_data_from_disk"]}
{"id": "C177", "title": "A GeoTIFF image can be written back to the file it was opened from", "statement": "Opening a GeoTIFF file and writing the image to the same file leaves a file with the same pixels, whether or not the pixels were loaded in between.", "quantifier": "every file and every behaviour of GDAL on a file emptied under an open dataset", "why_tests_cant": "the pixels are read after the file was emptied, which only shows for images that were not loaded; no finite set of files settles it for all", "anchors": ["resippy/image_objects/earth_overhead/geotiff/geotiff_image.py:GeotiffImage.write_to_disk"]}
{"id": "C178", "title": "A GeoTIFF write that fails leaves the file that was there", "statement": "When write_to_disk raises, the target file is as it was before, no other file is touched, and the image object keeps its data and metadata.", "quantifier": "every image, target and previous content, every way to fail", "why_tests_cant": "failures depend on the data and the point at which the exception is raised; tests cover the successful path", "anchors": ["resippy/image_objects/earth_overhead/geotiff/geotiff_image.py:GeotiffImage.write_to_disk"]}
{"id": "C179", "title": "The image a warp returned keeps its pixels when other images are warped", "statement": "The image returned by gdalwarp_geotiff_image shows the raster GDAL made for it, whenever its pixels are read, also after other images have been warped.", "quantifier": "every series of warps, with and without destination names", "why_tests_cant": "tests warp one image and read it at once; the pixels are read late from a file whose default name is shared by all warps", "anchors": ["resippy/image_objects/earth_overhead/geotiff/geotiff_image.py:GeotiffImage.gdalwarp_geotiff_image"]}
{"id": "C180", "title": "Iterative pixel-to-world conversion converges in floating point", "statement": "With every arithmetic operation of the iterative conversion rounded, and a forward projection that is itself only accurate to a small fraction of a pixel, the conversion still returns an answer for every requested pixel that projects back within the threshold (up to the rounding of one difference) and lies within a correspondingly small distance of the true ground position, provided the projection changes smoothly enough over the region, the east slope of the column coordinate is not too small, and the coordinates are not so large that rounding them moves the image; in double precision with the default threshold of 0.01 pixel and 1000 iterations: within 0.0101 pixel and a fiftieth of a pixel on the ground", "quantifier": "all forward projections, requests, starting points, steps, thresholds, iteration limits and roundings with the stated error bounds", "why_tests_cant": "Convergence depends on how rounding errors in the finite-difference slopes and in the elimination accumulate over up to 1000 iterations; tests run a few cameras", "anchors": ["resippy/image_objects/earth_overhead/earth_overhead_point_calculators/abstract_earth_overhead_point_calc.py:_pixel_x_y_alt_to_lon_lat_native_solver"]}
{"id": "C181", "title": "Frame camera pixels in double precision", "statement": "The pixel coordinates of the pinhole camera with a focal plane array, computed in double precision, agree with the exact projection to a few parts in a million million of the focal length in pixels and the array size, for every point not more than ten times as far away as it is deep; and the iterative conversion run with this computed camera and the default settings finds the ground positions to a fiftieth of a pixel", "quantifier": "all cameras, angles, positions and points in front of or behind the camera; all requests in a region where the view changes smoothly", "why_tests_cant": "Rounding errors of sines, products and quotients must be bounded for all angles and positions", "anchors": ["resippy/image_objects/earth_overhead/earth_overhead_point_calculators/ideal_pinhole_fpa_local_utm_point_calc.py:_lon_lat_alt_to_pixel_x_y_native", "resippy/image_objects/earth_overhead/earth_overhead_point_calculators/abstract_earth_overhead_point_calc.py:_pixel_x_y_alt_to_lon_lat_native_solver"]}
{"id": "C182", "title": "Pixels of a camera with lens distortion are converted to the right ground positions", "statement": "For an OpenCV or Pix4d camera (perspective followed by radial and tangential distortion), pixel_x_y_alt_to_lon_lat_native converges: if over the area concerned the perspective and the distortion change the scale of the image by less than about a seventh, then for any number of pixels seen at given ground positions the positions returned project to within the threshold of the pixels, and lie within threshold over resolution of the true positions, with default settings also when every operation is rounded to double precision", "quantifier": "every camera pose, focal lengths, principal point, radial and tangential coefficients within the bound, every list of pixels and altitudes and every starting centre within the stated area", "why_tests_cant": "convergence of an iteration on a nonlinear map holds for a continuum of cameras, lenses and pixels; tests sample a few", "anchors": ["resippy/image_objects/earth_overhead/earth_overhead_point_calculators/opencv_point_calc.py", "resippy/image_objects/earth_overhead/earth_overhead_point_calculators/pix4d_point_calc.py", "resippy/image_objects/earth_overhead/earth_overhead_point_calculators/abstract_earth_overhead_point_calc.py:_pixel_x_y_alt_to_lon_lat_native"]}
{"id": "C183", "title": "Pixels of the OpenCV camera in double precision", "statement": "The pixel an OpenCV calculator computes in double precision, from the angles and offsets of its fixture to the last addition, differs from the exact pixel by at most focal length (in pixels) times (1 + strength of the lens) times a few times the relative precision of the camera's position, for every point within 45 degrees of the optical axis; and the conversion of pixels to ground positions, done in double precision on these pixels with default settings, returns the right positions", "quantifier": "every fixture position, offset, angles, intrinsic parameters and distortion coefficients, every ground point within 45 degrees of the axis, every order of summation of the matrix products, every rounding with relative error at most 2^-52", "why_tests_cant": "round-off depends on every input; tests compare a few points with a tolerance", "anchors": ["resippy/image_objects/earth_overhead/earth_overhead_point_calculators/opencv_point_calc.py", "resippy/image_objects/earth_overhead/earth_overhead_point_calculators/fixtured_camera.py"]}
{"id": "C184", "title": "RX and ACE scores in floating point are close to the exact ones, in every order of addition", "statement": "Given a mean and an inverse covariance of n bands, each RX score computed with rounded operations is within ((1+u)^(2n+2)-1) times the sum of the absolute values of its terms of the exact score, whatever order np.dot and np.sum add in and whether or not multiply-add is fused. When the inverse covariance is symmetric positive definite and its forms do not cancel by more than a factor kappa (entries at most M and smallest eigenvalue at least l give kappa = n M / l), each ACE score of a sample and a target other than the mean is finite and within 5 kappa (2n+3) + 4 units of roundoff of the exact one in double precision. A sample or a target equal to the mean gives no finite ACE score. Without rounding the scores are those of C54 and C55.", "quantifier": "all images, means, inverse covariances, targets, numbers of bands, orders of addition and rounding modes with relative error at most u", "why_tests_cant": "a unit test compares a few scores with a tolerance on one machine with one BLAS; the bound is for every input and every order of addition", "anchors": ["resippy/spectral/spectral_image_processing_1d.py:rx_anomaly_detector", "resippy/spectral/spectral_image_processing_1d.py:ace", "resippy/spectral/spectral_image_processing_1d.py:ace_demeaned"]}
{"id": "C185", "title": "In floating point an RX score is not negative and an ACE score is between 0 and 1", "statement": "With a symmetric positive definite inverse covariance, no RX score computed in double precision is negative and every ACE score computed in double precision is between 0 and 1. (False: cancellation gives negative RX scores for some samples, and a multiple of the target can score 1.0000000000000002. Proved: RX scores are not negative when the terms do not cancel below the rounding errors, in particular for a diagonal inverse covariance; ACE scores are at least 0 and at most 1 plus the bound of C184.)", "quantifier": "all images, means, targets, positive definite inverse covariances and orders of addition", "why_tests_cant": "thresholds such as score >= 0 or score <= 1 hold on every test image; a counterexample needs nearly parallel large values", "anchors": ["resippy/spectral/spectral_image_processing_1d.py:rx_anomaly_detector", "resippy/spectral/spectral_image_processing_1d.py:ace"]}
{"id": "C186", "title": "Every value of an ENVI header gets its documented type", "statement": "read_envi_header returns, for every name that occurs in the header, one entry under that name: wavelength and fwhm become the list of their comma-separated numbers, the counts and offsets (samples, lines, bands, header offset, data type, byte order, x start, y start) become whole numbers, in whatever capitals the name is written, every other value stays text, and the last entry of a repeated name wins; a ValueError is raised exactly when some number cannot be read.", "quantifier": "Over every header text, every order of entries and every spelling of names and values.", "why_tests_cant": "A test reads a few sample headers; names, spacing, capitals and values are unbounded.", "anchors": ["resippy/utils/envi_utils.py:read_envi_header"]}
{"id": "C187", "title": "A header that is read and written back is the same header", "statement": "write_envi_header followed by read_envi_header gives back the dictionary that was written.", "quantifier": "Over every dictionary that read_envi_header can return.", "why_tests_cant": "Whether a round trip is lossless depends on every combination of names, values and separators.", "anchors": ["resippy/utils/envi_utils.py:write_envi_header", "resippy/utils/envi_utils.py:read_envi_header"]}
{"id": "C188", "title": "Means of float images survive subnormal numbers", "statement": "With overflow, gradual underflow, signed zeros, infinities and NaN of IEEE 754 arithmetic: for every band of finite floats whose absolute values add up to at most a quarter of the largest power of two, compute_image_cube_spectral_mean returns a finite float within the rounding error of C155 plus half the spacing of subnormal numbers of the exact mean, in every order of adding up, and demean_image_data the correctly rounded difference to it; on whole numbers (and every common grid that is not too fine) the mean is bit for bit that of arithmetic without exponent limits.", "quantifier": "Over every binary format, image, band and order of additions.", "why_tests_cant": "Exponent limits are met only by extreme inputs, and the order of additions is not under a test's control.", "anchors": ["resippy/spectral/spectral_image_processing_1d.py:compute_image_cube_spectral_mean", "resippy/spectral/spectral_image_processing_1d.py:demean_image_data"]}
{"id": "C189", "title": "Spectral angles of moderate float spectra are exact to rounding", "statement": "With the exponent limits, signed zeros, infinities and NaN of IEEE 754 arithmetic: for float64 spectra of up to 2^50 bands whose values are zero or between 2^-147 and 2^200 in size, and float32 spectra of up to 4096 bands with values zero or between 2^-15 and 2^16, sam returns NaN exactly for samples or targets that are all zero and otherwise a finite number within the bound of C156 of the cosine.", "quantifier": "Over every image and target of that size and every way of computing the inner products.", "why_tests_cant": "Underflow and overflow inside the formula depend on all values of a spectrum at once.", "anchors": ["resippy/spectral/spectral_image_processing_1d.py:sam"]}
{"id": "C190", "title": "The mean of finite samples is finite", "statement": "For every float image with finite samples, compute_image_cube_spectral_mean and demean_image_data return finite numbers.", "quantifier": "Over every finite float image.", "why_tests_cant": "Overflow happens only for extreme samples.", "anchors": ["resippy/spectral/spectral_image_processing_1d.py:compute_image_cube_spectral_mean"]}
{"id": "C191", "title": "Brightness does not change spectral angles", "statement": "The sam score of a float sample does not change when the sample is multiplied by a power of two, as long as the multiplied sample consists of finite numbers that are not rounded.", "quantifier": "Over every float sample, target and power of two.", "why_tests_cant": "Overflow and underflow of squares happen only for some magnitudes.", "anchors": ["resippy/spectral/spectral_image_processing_1d.py:sam"]}
{"id": "C192", "title": "Pixels land where their lines of sight meet the terrain", "statement": "Converting pixels of a frame camera to longitude, latitude and altitude over a DEM: every answer is within the accuracy of the iterative solver (a fiftieth of a pixel with the default settings in double precision) of a position whose exact pixel is the one asked for, its altitude is the terrain's up to slope times half the sample distance plus the DEM's error, and no position seen in that pixel between the answer and the top of the search lies below the terrain by more than that plus slope times the solver's accuracy.", "quantifier": "every frame camera above the search range, DEM and terrain of bounded slope, list of pixels not all vertical, sample distance and altitude bounds", "why_tests_cant": "needs the convergence of the iteration, the straightness of lines of sight and the sampling argument together for all cameras and terrains", "anchors": ["resippy/image_objects/earth_overhead/earth_overhead_point_calculators/abstract_earth_overhead_point_calc.py", "resippy/image_objects/earth_overhead/earth_overhead_point_calculators/ideal_pinhole_fpa_local_utm_point_calc.py"]}
{"id": "C193", "title": "Chipping works on copies", "statement": "chip_images_by_pixel_upper_lefts never changes the image or the location arrays passed to it, whether it returns or raises; the chips are a new array with the pixels the image had, and later writes to the image do not change the chips nor writes to the chips the image.", "quantifier": "every image in any memory layout (cut-outs, transposed or reversed views), lists or arrays of locations inside or outside the image, chip sizes, bands, histories of later writes", "why_tests_cant": "aliasing depends on the memory layout of the arguments and on what is written later", "anchors": ["resippy/utils/image_utils/image_chipper.py:chip_images_by_pixel_upper_lefts"]}
{"id": "C194", "title": "Detectors on images leave the image alone", "statement": "rx_anomaly_detector, ace_demeaned, sam and demean_image_data on images change no existing array, return a new array, and the result is that of the one-dimensional function on the pixels whatever the memory layout of the image.", "quantifier": "every image in any memory layout and every one-dimensional detector whose answer depends on the samples only", "why_tests_cant": "the image may be any view of a larger array; unit tests use contiguous arrays", "anchors": ["resippy/spectral/spectral_image_processing_2d.py:rx_anomaly_detector", "resippy/spectral/spectral_image_processing_2d.py:sam", "resippy/spectral/spectral_image_processing_2d.py:demean_image_data"]}
{"id": "C195", "title": "A flattened image is a separate copy", "statement": "flatten_image_band and flatten_image_cube return arrays with the pixels in row-major order, and writing to the flattened array does not change the image nor the other way round.", "quantifier": "every image in any memory layout and every history of writes", "why_tests_cant": "sharing depends on strides, not on values", "anchors": ["resippy/utils/image_utils/image_utils.py:flatten_image_band", "resippy/utils/image_utils/image_utils.py:unflatten_image_band", "resippy/utils/spectral_utils.py:flatten_image_cube"]}
{"id": "C196", "title": "The float ray caster is accurate on terrain less steep than the rays", "statement": "Converting pixels to longitude, latitude and altitude in double precision, with coordinates up to 10000 km, samples at most 10 m apart and lines of sight that drop at least 4 cm more per sample than the terrain can: every pixel gets an answer, which is within a millimetre of the pixel's line of sight, at the terrain's altitude up to slope times half the sample distance plus the DEM's error plus a millimetre, and the line of sight does not pass under the terrain before it by more than that.", "quantifier": "all terrains, DEM errors, cameras, pixels and roundings with the relative error of double precision", "why_tests_cant": "rounding errors occur at inputs a test does not contain, and a test cannot compare with exact arithmetic for all terrains", "anchors": ["resippy/image_objects/earth_overhead/earth_overhead_point_calculators/abstract_earth_overhead_point_calc.py: pixel_x_y_to_lon_lat_alt", "resippy/image_objects/earth_overhead/earth_overhead_point_calculators/abstract_earth_overhead_point_calc.py: _pixel_x_y_to_lon_lat_ray_caster_native"]}
{"id": "C197", "title": "Every pixel over a DEM gets a position in float arithmetic", "statement": "Converting a pixel to longitude, latitude and altitude in double precision gives a finite position whenever its line of sight passes from above the terrain to below it.", "quantifier": "all DEMs, lines of sight and sample distances", "why_tests_cant": "the failing inputs are those where two rounded slopes coincide, which a test hits only by accident", "anchors": ["resippy/image_objects/earth_overhead/earth_overhead_point_calculators/abstract_earth_overhead_point_calc.py: _pixel_x_y_to_lon_lat_ray_caster_native"]}
{"id": "C198", "title": "The orthophoto in double precision", "statement": "In double precision, with nearest resampling and co-registered bands, every pixel of an orthophoto of a frame camera image whose ground point (centre of its cell, at the elevation of the terrain) lies inside the shown part of the source image shows a source pixel whose centre is at most half a pixel plus a small computed bound away from the exact projection; pixels whose exact projection is outside by that bound carry the no-data value; over flat terrain with UTM coordinates the bound is a fiftieth of a pixel; with a transparency band, that band is 0 at the pixels outside by the bound and 0 or 255 inside, as the shown source pixel of the first band is the no-data value or not.", "quantifier": "all images, cameras, orientations, output sizes and extents, terrains, bands and no-data values within the stated ranges of depth, focal length and coordinates", "why_tests_cant": "which source pixel is chosen depends on the rounding of the grid, of the projection and of one more addition for every pixel; near the middle between two pixels no sample of inputs settles it", "anchors": ["resippy/photogrammetry/ortho_tools.py: create_ortho_gtiff_image_world_to_sensor", "resippy/utils/photogrammetry_utils.py: create_ground_grid", "resippy/image_objects/earth_overhead/earth_overhead_point_calculators/ideal_pinhole_fpa_local_utm_point_calc.py: _lon_lat_alt_to_pixel_x_y_native"]}
{"id": "C199", "title": "Resampling a spectrum in float arithmetic", "statement": "In double precision, whatever the order in which sums are added, resampling a spectrum to a band gives a value that differs from the exact response-weighted average by at most a small multiple of the rounding unit, of the largest spectral magnitude and of the band's condition number (twice its peak times the range of wavelengths over the area of the response these wavelengths see); when the response is tabulated at the spectrum's own wavelengths no condition number is needed.", "quantifier": "all spectra, bands that overlap them, roundings and orders of addition", "why_tests_cant": "rounding errors depend on every value and on the order in which numpy adds; a test sees one spectrum and one order", "anchors": ["resippy/spectral/spectrum.py: Spectrum.resample_spectrum_direct"]}
{"id": "C200", "title": "Resampled values stay in range in double precision", "statement": "In double precision, resampling a spectrum with any band that overlaps it gives a number between the smallest and the largest spectral value, up to one part in a thousand of the largest magnitude.", "quantifier": "all double-precision spectra and bands that overlap them, all orders of addition", "why_tests_cant": "the failing inputs are spectra that see only the end of a band, where rounding makes the response negative or zero", "anchors": ["resippy/spectral/spectrum.py: Spectrum.resample_spectrum_direct"]}
{"id": "C201", "title": "The shifts used to invert RPC images are always two degrees", "statement": "For every RPC image, whatever its coefficients (with a longitude offset and a non-zero longitude scale of any size occurring on Earth), altitudes and requested pixels, pixel_x_y_alt_to_lon_lat in double precision estimates the image's slopes from positions exactly two degrees east and two degrees north of the current estimate: the search for the smallest shift that moves the projection by a pixel never has an effect, because its largest trial positions overflow to NaN.", "quantifier": "all RPC models with longitude offset up to 2^1000 and scale up to 2^500 in magnitude, all coefficients including NaN and infinity, all altitudes, thresholds, iteration limits and request lists", "why_tests_cant": "a test covers one image; the claim is about every set of 80 coefficients and about overflow in polynomials evaluated at 2^1021 degrees", "anchors": ["resippy/image_objects/earth_overhead/earth_overhead_point_calculators/abstract_earth_overhead_point_calc.py:_pixel_x_y_alt_to_lon_lat_native_solver", "resippy/image_objects/earth_overhead/earth_overhead_point_calculators/rpc_point_calc.py:_lon_lat_alt_to_pixel_x_y_native"]}
{"id": "C202", "title": "RPC images that are nearly linear over their footprint can be inverted", "statement": "For every RPC image whose sample and line are within a tenth of linear in longitude and latitude over the image's footprint, pixel_x_y_alt_to_lon_lat returns finite positions that project onto the requested pixels.", "quantifier": "all RPC models nearly linear over their footprint, all requests inside the footprint", "why_tests_cant": "the failing images are those whose polynomials behave differently two degrees outside the footprint, which no test image shows", "anchors": ["resippy/image_objects/earth_overhead/earth_overhead_point_calculators/abstract_earth_overhead_point_calc.py:_pixel_x_y_alt_to_lon_lat_native_solver", "resippy/image_objects/earth_overhead/earth_overhead_point_calculators/rpc_point_calc.py:compute_p"]}
{"id": "C203", "title": "The shifts used to measure slopes are the smallest doubling that moves a pixel", "statement": "When pixels of any calculator are converted to positions without given shifts, in IEEE arithmetic: if the horizontal pixel coordinate of some trial position east of the approximate centre cannot be compared with the centre's (NaN), both shifts are 2 in the calculator's units, whatever happens to the north; otherwise each shift is the first of the doubling trial shifts, from the spacing of the floats at 1 on, that moves the centre's pixel by more than one pixel; the search raises IndexError exactly when no trial shift in one of the two directions does.", "quantifier": "every float format, forward projection, centre and mean altitude, with overflow, infinities and NaN", "why_tests_cant": "the trial shifts run over a thousand powers of two up to a quarter of the largest float, where projections overflow; a test sees a few cameras and cannot show which rule gave the shift", "anchors": ["resippy/image_objects/earth_overhead/earth_overhead_point_calculators/abstract_earth_overhead_point_calc.py:_pixel_x_y_alt_to_lon_lat_native_solver"]}
{"id": "C204", "title": "The conversion stops only when every pixel is found, or when it runs out of updates", "statement": "In IEEE arithmetic the iterative conversion of pixels to positions returns the estimates after the first update at which every requested pixel reprojects within the threshold in both coordinates (a NaN never does), or else those after max_iter updates; so an answer given early has no NaN for calculators that give NaN pixels to NaN positions; while nothing overflows an update is exactly the rounded Newton update; asked for no pixels, it raises ValueError at the first update.", "quantifier": "every float format, forward projection, shifts, threshold, iteration limit and list of pixels", "why_tests_cant": "NaN makes every comparison false and one unreachable pixel changes when the loop of all the others stops; the statement is about all histories of updates", "anchors": ["resippy/image_objects/earth_overhead/earth_overhead_point_calculators/abstract_earth_overhead_point_calc.py:_pixel_x_y_alt_to_lon_lat_native_solver"]}
{"id": "C205", "title": "RPC pixels in IEEE doubles are finite and accurate", "statement": "For an RPC image and a ground position inside the box of the RPC model (normalised longitude, latitude and height at most 1 in size), with polynomial coefficients adding up to at most 1.9 in size, denominators at least one half in size, image scales and offsets up to 131072 pixels, and coordinates, offsets and normalisation scales between 2^-100 and 2^100 in size, the pixel coordinates computed in IEEE double precision, with its overflow, infinities, NaN and subnormal numbers, are both finite numbers within two hundred-millionths of a pixel of the exact RPC pixel.", "quantifier": "every RPC model and every ground position within the bounds, floats as stored", "why_tests_cant": "Overflow, subnormal results and the accumulation of 20-term rounding depend on the magnitudes of all eighty coefficients and of the position; tests try a few models.", "anchors": ["resippy/image_objects/earth_overhead/earth_overhead_point_calculators/rpc_point_calc.py:_lon_lat_alt_to_pixel_x_y_native", "resippy/image_objects/earth_overhead/earth_overhead_point_calculators/rpc_point_calc.py:compute_p"]}
{"id": "C206", "title": "RPC pixels reach their ground positions in IEEE doubles", "statement": "Take an RPC image of at most 65536 pixels whose slopes deviate by at most a seventh from a linear map within twice the footprint radius plus three degrees of the model's offset, whose polynomial terms are of ordinary size there (numerators at most 127 together, denominators at most 3 and at least one half), with footprint radius at most 10 degrees, scales between 1 and 10^6 pixels per degree whose largest is at most about four times the smallest, samples that depend on longitude with at least a fifth of the smallest scale, at most 10^6 pixels over the footprint radius, and pixel coordinates that are multiples of 2^-100. Converting pixels of the footprint to ground positions with the default iteration limit and the stored threshold 0.01, every operation being an IEEE double-precision operation with overflow, infinities, NaN and subnormal numbers, returns for every pixel a pair of finite longitude and latitude whose exact RPC pixel is within 0.0102 pixel of the requested one, and which lies within a fiftieth of a pixel of the true ground position.", "quantifier": "every such RPC model, every list of pixels and altitudes of the footprint, any mean altitude", "why_tests_cant": "The slopes are measured with shifts of two degrees after a search that overflows, all pixels are iterated together until the last one is within the threshold, and the twenty-term polynomials, a determinant and two quotients are rounded in every update; no test can cover the models, positions and iteration counts.", "anchors": ["resippy/image_objects/earth_overhead/earth_overhead_point_calculators/abstract_earth_overhead_point_calc.py:_pixel_x_y_alt_to_lon_lat_native_solver", "resippy/image_objects/earth_overhead/earth_overhead_point_calculators/rpc_point_calc.py:_lon_lat_alt_to_pixel_x_y_native", "resippy/image_objects/earth_overhead/earth_overhead_point_calculators/abstract_earth_overhead_point_calc.py:pixel_x_y_alt_to_lon_lat"]}
{"id": "C207", "title": "Pix4d pixels in double precision", "statement": "For a Pix4d point calculator whose orientation is a rotation, without a distortion model, a point whose camera coordinates are within 45 degrees of the optical axis along each image axis and whose depth is not too small compared with its distance from the camera (theta = 50 u d / depth at most half a millionth, u = 2^-52) has a finite pixel in double-precision arithmetic, whatever the order in which the matrix product adds up its terms, and each pixel coordinate is within f (2.2 theta + 10 u) + 5 u (n + p) of the exact one, where f is the focal length, n the image size and p the principal point, in pixels, whether or not the axes are reversed. With the regular distortion model, square roots and powers having relative error at most u as well, the bound is f (1 + S) (2.2 theta + 36 u) + 5 u (n + p), where S is the strength of the lens (6 k1 q^2 + 20 k2 q^4 + 56 k3 q^6 + 8 (t1 + t2) q in absolute values at q = 1.1) and theta is at most a millionth.", "quantifier": "every rotation, camera position, focal length, image size, principal point and lens, every reversal of the axes, every such point, every rounding with relative error at most 2^-52, every order of summation", "why_tests_cant": "The coordinates of the camera and of the point are large numbers that nearly cancel, so how much precision is left depends on their size, and a test samples only a few of them.", "anchors": ["resippy/image_objects/earth_overhead/earth_overhead_point_calculators/pix4d_point_calc.py:world_xyzs_to_pixel_locations", "resippy/image_objects/earth_overhead/earth_overhead_point_calculators/pix4d_point_calc.py:camera_coords_to_pixel_coords_no_distortion", "resippy/image_objects/earth_overhead/earth_overhead_point_calculators/pix4d_point_calc.py:world_to_camera_coordinates", "resippy/image_objects/earth_overhead/earth_overhead_point_calculators/pix4d_point_calc.py:camera_coords_to_pixel_coords_with_distortion"]}
