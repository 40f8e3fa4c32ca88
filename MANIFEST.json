{
 "claims": [
  {
   "property": "C01",
   "status": "proved",
   "theorems": [
    "Verif.Chipper.C01_every_pixel_covered"
   ],
   "note": "Proved for the whole quantifier: C01_every_pixel_covered: C01. Chipping a whole image succeeds and every pixel lies in some chip, where it appears at its offset from that chip's upper left with the value it has in the image."
  },
  {
   "property": "C02",
   "status": "partial",
   "theorems": [
    "Verif.Chipper.C02_chips_are_windows_partial",
    "Verif.Chipper.C02_false_without_keep",
    "Verif.Chipper.C02_without_keep_partial",
    "Verif.Chipper.C02_without_keep_exact_partial"
   ],
   "note": "Proved for keep_within_image_bounds=True; false for False (numpy broadcasts a one-row slice): witness C02_false_without_keep."
  },
  {
   "property": "C03",
   "status": "proved",
   "theorems": [
    "Verif.Chipper.C03_grid",
    "Verif.Chipper.C03_overlap_equal_chip_raises"
   ],
   "note": "Proved for the whole quantifier: C03_grid: C03. The upper lefts of a whole-image chipping are strictly increasing in row-major order (hence distinct), every chip lies within the image, the upper lefts are the full product of the row positions and column positions, both start at 0, end flush with the image, and consecutive positions differ by at most `chip - overlap`. | C03_overlap_equal_chip_raises: Outside the guard of C01/C03: an overlap equal to the chip size makes `numpy.arange` divide by zero, for every image."
  },
  {
   "property": "C04",
   "status": "proved",
   "theorems": [
    "Verif.Chipper.C04_requests_clamped",
    "Verif.Chipper.C04_fitting_request_not_moved",
    "Verif.Chipper.C04_gray_bands"
   ],
   "note": "Proved for the whole quantifier: C04_requests_clamped: C04. With `keep_within_image_bounds` and a chip that fits, one chip per request, in request order, at the requested position clamped per axis; never an error for valid bands. | C04_fitting_request_not_moved: C04, last clause: a request that already fits is not moved. | C04_gray_bands: C04: asking a two-dimensional image for a list of bands whose length is not one is a ValueError (for chips that are not empty and fit, and existing bands); with exactly one band the call succeeds, whatever the request (`C04_requests_clamped`)."
  },
  {
   "property": "C05",
   "status": "partial",
   "theorems": [
    "Verif.Chipper.C05_centers_are_upper_lefts",
    "Verif.Chipper.C05_chip_contains_center_partial",
    "Verif.Chipper.C05_false_for_single_pixel_chip",
    "Verif.Chipper.C05_contains_iff_partial"
   ],
   "note": "Proved for chips of at least 2 pixels; false for 1-pixel chips."
  },
  {
   "property": "C06",
   "status": "partial",
   "theorems": [
    "Verif.Chipper.C06_false_broadcast",
    "Verif.Chipper.C06_oversize_rejected_partial",
    "Verif.Chipper.C06_refused",
    "Verif.Chipper.C06_accepted_iff"
   ],
   "note": "False when the image dimension is 1 (broadcasting); exact acceptance condition proved."
  },
  {
   "property": "C07",
   "status": "proved",
   "theorems": [
    "Verif.Chipper.C07_distinct_files",
    "Verif.Chipper.C07_file_content",
    "Verif.Chipper.C07_grayscale_chips_raise"
   ],
   "note": "Proved for the whole quantifier: C07_distinct_files: C07. Writing `n` chips with generated names succeeds and leaves `n` files with pairwise different names: file `k` holds chip `k`, every other file of the file system is untouched. | C07_file_content: What ends up in file `k` when no resize is requested: the chip, minus its alpha band when it has four bands and `remove_alpha` is set. | C07_grayscale_chips_raise: Grayscale (three-dimensional) chips, which the chipping functions produce for grayscale images and single bands, cannot be written: IndexError."
  },
  {
   "property": "C08",
   "status": "proved",
   "theorems": [
    "Verif.ImageUtils.C08_unflatten_flatten_band",
    "Verif.ImageUtils.C08_flatten_unflatten_band",
    "Verif.ImageUtils.C08_unflatten_rejects",
    "Verif.ImageUtils.C08_flatten_row_major",
    "Verif.ImageUtils.C08_cube",
    "Verif.ImageUtils.C08_flatten_unflatten_cube",
    "Verif.ImageUtils.C08_unflatten_cube_rejects"
   ],
   "note": "Proved for the whole quantifier: C08_unflatten_flatten_band: C08. Unflattening a flattened band gives the band back. | C08_flatten_unflatten_band: C08. Flattening an unflattened vector gives the vector back, for every vector of the right length. | C08_unflatten_rejects: C08. A vector of the wrong length is rejected."
  },
  {
   "property": "C09",
   "status": "proved",
   "theorems": [
    "Verif.ImageUtils.C09_pixel_grid",
    "Verif.ImageUtils.C09_pixel_grid_default",
    "Verif.ImageUtils.C09_zero_scale"
   ],
   "note": "Proved for the whole quantifier: C09_pixel_grid: C09. For a positive scale factor `s` the grid has `ceil(ny*s)` rows and `ceil(nx*s)` columns, entry `(j, i)` being `(i/s, j/s)`, strictly below `(nx, ny)`. | C09_pixel_grid_default: C09 with the default scale factor: `(ny, nx)` arrays of pixel coordinates. | C09_zero_scale: C09, error branch: scale factor 0 raises ZeroDivisionError."
  },
  {
   "property": "C10",
   "status": "proved",
   "theorems": [
    "Verif.ImageUtils.C10_normalize",
    "Verif.ImageUtils.C10_constant_image",
    "Verif.ImageUtils.C10_empty_image"
   ],
   "note": "Proved for the whole quantifier: C10_normalize: C10. For a non-constant image and `new_min \u2264 new_max` every pixel is finite and within `[new_min, new_max]`, smallest pixels go to `new_min`, largest to `new_max`, and the order of pixel values is preserved (strictly when `new_min < new_max`). | C10_constant_image: C10, constant images: no pixel of the result is finite. | C10_empty_image: C10, empty images: ValueError."
  },
  {
   "property": "C11",
   "status": "proved",
   "theorems": [
    "Verif.ImageUtils.C11_detection_image",
    "Verif.ImageUtils.C11_order_independent",
    "Verif.ImageUtils.C11_listing_order",
    "Verif.ImageUtils.C11_refused"
   ],
   "note": "Proved for the whole quantifier: C11_detection_image: C11. For non-negative upper lefts, one score per chip and any answer of argsort, the detection image holds at each pixel the largest score among the chips covering it, 0 where there is none, and is just large enough to hold every chip. | C11_order_independent: C11, order independence: however argsort orders equal scores, the image is the same. | C11_listing_order: C11, listing order: listing the chips (with their scores) in another order gives the same image."
  },
  {
   "property": "C12",
   "status": "partial",
   "theorems": [
    "Verif.ImageUtils.C12_interpolates_partial",
    "Verif.ImageUtils.C12_clipped",
    "Verif.ImageUtils.C12_within_palette_partial",
    "Verif.ImageUtils.C12_false_beyond_128_bins",
    "Verif.ImageUtils.C12_exact_partial",
    "Verif.ImageUtils.C12_equal_limits_not_finite",
    "Verif.ImageUtils.C12_image_within_palette_partial",
    "Verif.ImageUtils.C12_discrete_partial",
    "Verif.ImageUtils.C12_refused"
   ],
   "note": "The code breaks the full statement: C12_false_beyond_128_bins: C12 is false for palettes of 130 colours or more: the bin number is stored in an int8 array, so every pixel strictly inside bin `k`, `128 \u2264 k < 256`, is black whatever the palette. What is proved instead: C12_interpolates_partial: C12, inside the clip limits, for palettes of at most 129 colours: the pixel's colour is the linear interpolation between the two palette colours whose positions bracket the pixel's value. Missing from the full property: palettes of 130 colours and more, for which the code breaks it (`C12_false_beyond_128_bins`). | C12_within_palette_partial: C12, consequence: whatever the pixel, every channel stays within the range of the palette's channel (palettes of at most 129 colours). | C12_exact_partial: C12, exactly, for every palette size: a pixel whose value lies in bin `k` (from its lower end inclusive to its upper end exclusive; the last bin includes the upper clip limit) is blended from the palette colours `k mod 256` and `k mod 256 + 1` when `k mod 256 < 128`, and is black otherwise. So the claim holds for the bins 0 to 127 of any palette, and for no other bin unless the palette happens to repeat itself. | C12_image_within_palette_partial: C12 at the level of the whole image: with the default clip limits of a non-constant image every channel of every pixel is finite and within the palette's range. | C12_discrete_partial: C12, discrete mode (`continuous=False`), at most 129 colours: a pixel within the limits gets the unblended palette colour of its bin, the `n` bins dividing `[minClip, maxClip]` evenly. Proved in full: C12_clipped, C12_equal_limits_not_finite, C12_refused."
  },
  {
   "property": "C13",
   "status": "proved",
   "theorems": [
    "Verif.ImageUtils.C13_blend"
   ],
   "note": "Proved for the whole quantifier: C13_blend: C13. For `0 \u2264 p \u2264 1` every blended pixel lies between the two images' pixels; `p = 1` gives the first image, `p = 0` the second; exchanging the images and `p` with `1 - p` changes nothing."
  },
  {
   "property": "C14",
   "status": "partial",
   "theorems": [
    "Verif.ImageUtils.C14_mask_dict_partial",
    "Verif.ImageUtils.C14_mask_dict_exact_partial",
    "Verif.ImageUtils.C14_false_shared_label",
    "Verif.ImageUtils.C14_mask_any",
    "Verif.ImageUtils.C14_one_band",
    "Verif.ImageUtils.C14_wrong_bands"
   ],
   "note": "The code breaks the full statement: C14_false_shared_label: C14 is false when two colours share a label: the pixels of the first colour are lost. What is proved instead: C14_mask_dict_partial: C14 with a dictionary whose labels are distinct: the entry of each label lists, in row-major order and without repeats, exactly the pixels whose first three bands are the label's colour (a fourth band is ignored); no other label appears. Missing from the full property: dictionaries giving two colours the same label, where the code keeps only the last colour (`C14_false_shared_label`). | C14_mask_dict_exact_partial: C14 with any dictionary, exactly: a label's entry lists the pixels of the last colour given that label; other labels do not appear. Proved in full: C14_mask_any, C14_one_band, C14_wrong_bands."
  },
  {
   "property": "C15",
   "status": "proved",
   "theorems": [
    "Verif.Registration.C15_symmetric",
    "Verif.Registration.C15_self_maximal",
    "Verif.Registration.C15_value",
    "Verif.Registration.C15_contrast",
    "Verif.Registration.C15_size_mismatch"
   ],
   "note": "Proved for the whole quantifier: C15_symmetric: C15. Mutual information is symmetric. | C15_self_maximal: C15. No image of the same size has larger mutual information with `a` than `a` itself. | C15_value: C15: the value is the sum, over the pairs of bins that occur together, of the joint count times the logarithm of the joint count over the product of the two counts, with equal-width bins spanning each image's own range of values."
  },
  {
   "property": "C16",
   "status": "proved",
   "theorems": [
    "Verif.PointCalc.C16_scalar",
    "Verif.PointCalc.C16_array1",
    "Verif.PointCalc.C16_array2",
    "Verif.PointCalc.C16_mismatch",
    "Verif.PointCalc.C16_one_element",
    "Verif.PointCalc.C16_array2_any"
   ],
   "note": "Proved for the whole quantifier: C16_scalar: C16, numbers in, numbers out. | C16_array1: C16, one-dimensional arrays in, arrays of the same length out, position by position. | C16_array2: C16, two-dimensional arrays in, arrays of the same shape out, position by position."
  },
  {
   "property": "C17",
   "status": "proved",
   "theorems": [
    "Verif.Geotiff.C17_pixel_roundtrip",
    "Verif.Geotiff.C17_world_roundtrip",
    "Verif.Geotiff.C17_singular"
   ],
   "note": "Proved for the whole quantifier: C17_pixel_roundtrip: C17, pixel to world to pixel. | C17_world_roundtrip: C17, world to pixel to world. | C17_singular: C17, a singular geotransform cannot be inverted: every world-to-pixel query fails."
  },
  {
   "property": "C18",
   "status": "partial",
   "theorems": [
    "Verif.Geotiff.C18_smallest_box_partial",
    "Verif.Geotiff.C18_contains_iff_partial",
    "Verif.Geotiff.C18_rotated_false"
   ],
   "note": "The code breaks the full statement: C18_rotated_false: C18 fails for a rotated raster: a corner of the raster lies outside the reported extent. What is proved instead: C18_smallest_box_partial: C18 (partial: north-up rasters only, see `C18_rotated_false`): the extent contains every point of the raster and every box that does contains the extent. | C18_contains_iff_partial: C18, exactly: for a raster with pixels the extent contains every point of the raster exactly when the two steps along each world axis do not have opposite signs (in particular for north-up rasters); and whatever the geotransform, no box that contains the raster is smaller."
  },
  {
   "property": "C19",
   "status": "partial",
   "theorems": [
    "Verif.PointCalc.C19_exact_given_deltas_partial",
    "Verif.PointCalc.C19_exact_partial",
    "Verif.PointCalc.C19_region_partial",
    "Verif.PointCalc.C19_empty",
    "Verif.PointCalc.C19_rotated_false"
   ],
   "note": "The code breaks the full statement: C19_rotated_false: C19 fails for an affine invertible sensor whose x coordinate does not depend on longitude (for instance an image rotated by a quarter turn, x = lat, y = lon): every answer is non-finite, whatever the deltas, threshold, centre and iteration limit. What is proved instead: C19_exact_given_deltas_partial: C19 (partial: the derivative of x along longitude must not vanish, see `C19_rotated_false`). For an affine invertible sensor, any starting centre, any non-zero deltas, any threshold and any positive iteration limit, the ground points project exactly onto the requested pixels. | C19_exact_partial: C19 (partial) with the deltas found by the code itself: if some doubling of the machine epsilon moves the centre by more than a pixel in each direction, the call succeeds and is exact. | C19_region_partial: C19: the solver is also exact for a sensor that is affine only on a region and sees nothing outside it, as long as the centre and the requested ground points are at least two units inside: the search for step sizes then meets points that are not seen and both steps are 2. Proved in full: C19_empty."
  },
  {
   "property": "C20",
   "status": "partial",
   "theorems": [
    "Verif.PointCalc.C20_threshold_or_exhausted_partial",
    "Verif.PointCalc.C20_silent_false",
    "Verif.PointCalc.C20_silent_call_false"
   ],
   "note": "The code breaks the full statement: C20_silent_false: C20 fails: there is a sensor and a pixel for which every call returns without any error a result that does not reproject within the threshold, whatever the deltas, centre and iteration limit. | C20_silent_call_false: The complete call also returns normally in that situation. What is proved instead: C20_threshold_or_exhausted_partial: C20 (partial: convergence is not guaranteed, see `C20_silent_false`). For every sensor mapping, the answer reprojects within the threshold, or the iteration limit was used up and no iterate reprojected within the threshold."
  },
  {
   "property": "C21",
   "status": "partial",
   "theorems": [
    "Verif.PointCalc.C21_first_hit",
    "Verif.PointCalc.C21_vertical_false"
   ],
   "note": "The code breaks the full statement: C21_vertical_false: C21 needs one slanted ray: when every pixel's ray is vertical (for instance an orthographic image) there is a single sample and the call fails with IndexError. Proved in full: C21_first_hit."
  },
  {
   "property": "C22",
   "status": "partial",
   "theorems": [
    "Verif.PointCalc.C22_flat_false",
    "Verif.PointCalc.C22_flat_partial"
   ],
   "note": "The code breaks the full statement: C22_flat_false: C22 fails for every sensor: with a constant-elevation DEM and the DEM's own altitude bounds the call raises IndexError. What is proved instead: C22_flat_partial: C22 (partial: the caller must pass altitude bounds that differ). With explicit bounds `lo \u2264 elev \u2264 hi`, `lo < hi`, and a sensor whose rays are straight and not all vertical, every pixel gets its own ground position at that elevation."
  },
  {
   "property": "C23",
   "status": "partial",
   "theorems": [
    "Verif.Geotiff.C23_difference_partial",
    "Verif.Geotiff.C23_rpc00b_partial",
    "Verif.Geotiff.C23_term19_false"
   ],
   "note": "The code breaks the full statement: C23_term19_false: C23 fails: there are a coefficient set and a ground point where the computed sample differs from the RPC00B value. What is proved instead: C23_difference_partial: The exact difference between the implemented polynomial and RPC00B: the nineteenth term is `P\u00b2 L` instead of `P\u00b2 H`. | C23_rpc00b_partial: C23 (partial: only when the nineteenth coefficient of each of the four polynomials is 0): the projection is the standard rational polynomial, scaled, offset and moved by half a pixel."
  },
  {
   "property": "C24",
   "status": "proved",
   "theorems": [
    "Verif.Rotation.C24_rotation",
    "Verif.Rotation.C24_order",
    "Verif.Rotation.C24_bad_order"
   ],
   "note": "Proved for the whole quantifier: C24_rotation: C24: for every angle triple and each documented order the matrix is a proper rotation. | C24_order: C24: the order string names the elementary rotations in order of application: applying the matrix to a vector is applying the rotation of the first letter first, then the second, then the third. | C24_bad_order: C24: any other order string silently gives the zero matrix, which is not a rotation."
  },
  {
   "property": "C25",
   "status": "proved",
   "theorems": [
    "Verif.Rotation.C25_angles_recovered",
    "Verif.Rotation.C25_matrix_rebuilt",
    "Verif.Rotation.C25_gimbal_lock"
   ],
   "note": "Proved for the whole quantifier: C25_angles_recovered: C25: angles are recovered from the orientation matrix (order 'rpy', the default). | C25_matrix_rebuilt: C25, converse: for every rotation matrix away from gimbal lock, solving gives finite angles in the documented ranges from which the matrix is rebuilt. | C25_gimbal_lock: C25, at gimbal lock (`|m31| = 1`, pitch straight up or down) omega and kappa are not finite."
  },
  {
   "property": "C26",
   "status": "proved",
   "theorems": [
    "Verif.Rotation.C26_offsets",
    "Verif.Rotation.C26_offsets_rotation",
    "Verif.Rotation.C26_singular"
   ],
   "note": "Proved for the whole quantifier: C26_offsets: C26: the offsets matrix carries the rough orientation to the ideal one, and is the only one. | C26_offsets_rotation: C26: for rotations the offsets matrix is a rotation. | C26_singular: C26, error branch: a singular rough matrix is rejected."
  },
  {
   "property": "C27",
   "status": "proved",
   "theorems": [
    "Verif.Camera.C27_same_line",
    "Verif.Camera.C27_collinearity",
    "Verif.Camera.C27_units",
    "Verif.Camera.C27_injective"
   ],
   "note": "Proved for the whole quantifier: C27_same_line: C27: all points of a line through the camera centre (other than the centre) have the same image. | C27_collinearity: C27, the image point is `-f * (X / Z, Y / Z)` of the camera coordinates, finite exactly when the point is not in the plane of the lens. | C27_units: C27: a camera made from coefficients with units stands at the given position in metres, has the given focal length in metres and a rotation matrix of the given angles in radians as orientation, and describing it in other units (each coordinate, angle and the focal length divided by the factor its unit is enlarged by) makes the same camera."
  },
  {
   "property": "C28",
   "status": "proved",
   "theorems": [
    "Verif.Camera.C28_optical_axis",
    "Verif.Camera.C28_flip_x",
    "Verif.Camera.C28_flip_y",
    "Verif.Camera.C28_units",
    "Verif.Camera.C28_scale"
   ],
   "note": "Proved for the whole quantifier: C28_optical_axis: C28: a point on the optical axis (in front of or behind the lens) lands on the centre of the focal plane array, whatever the flips. | C28_flip_x: C28: the x flip mirrors x about the array and leaves y alone. | C28_flip_y: C28: the y flip mirrors y about the array and leaves x alone."
  },
  {
   "property": "C29",
   "status": "proved",
   "theorems": [
    "Verif.Camera.C29_last_setting",
    "Verif.Camera.C29_pose_of_last",
    "Verif.Camera.C29_rigid_position",
    "Verif.Camera.C29_rigid_orientation",
    "Verif.Camera.C29_unset"
   ],
   "note": "Proved for the whole quantifier: C29_last_setting: C29: after any history of setter calls the state is the last value given to each setter. | C29_pose_of_last: C29: hence position and orientation depend only on the last settings: two histories with the same last settings give the same pose. | C29_rigid_position: C29: once position, orientation (a rotation) and lever arm have been set, the camera is at the lever-arm distance from the fixture and turning the offset back gives the lever arm."
  },
  {
   "property": "C30",
   "status": "proved",
   "theorems": [
    "Verif.Camera.C30_pinhole",
    "Verif.Camera.C30_distorted",
    "Verif.Camera.C30_same_ray"
   ],
   "note": "Proved for the whole quantifier: C30_pinhole: C30: without distortion the OpenCV camera is a pinhole with the given intrinsics. | C30_distorted: C30: with distortion, the pixel is the documented Brown model of the undistorted direction. | C30_same_ray: C30: points on the same line through the camera centre share a pixel, for every distortion."
  },
  {
   "property": "C31",
   "status": "partial",
   "theorems": [
    "Verif.Camera.C31_exact_partial",
    "Verif.Camera.C31_regular_partial",
    "Verif.Camera.C31_no_distortion",
    "Verif.Camera.C31_zero_coefficients",
    "Verif.Camera.C31_radial3_false",
    "Verif.Camera.C31_key"
   ],
   "note": "The code breaks the full statement: C31_radial3_false: C31 fails: a calibration file with three different radial coefficients is not used as given (the third is replaced by the second) and the pixel is wrong. What is proved instead: C31_exact_partial: C31, exactly: whatever the third radial coefficient of the file, the pixel is the one calibrated with the second in its place. | C31_regular_partial: C31 (partial: the third radial coefficient must equal the second, see `C31_radial3_false`): with the distortion model, the pixel is the calibrated one. Proved in full: C31_no_distortion, C31_zero_coefficients, C31_key."
  },
  {
   "property": "C32",
   "status": "partial",
   "theorems": [
    "Verif.Grids.C32_pixel_reads_grid",
    "Verif.Grids.C32_within_neighbours",
    "Verif.Grids.C32_small_grid",
    "Verif.Grids.C32_near_node",
    "Verif.Grids.C32_alt_array",
    "Verif.Grids.C32_alt_number_false",
    "Verif.Grids.C32_centre"
   ],
   "note": "The code breaks the full statement: C32_alt_number_false: C32 fails for a number altitude: it is replaced by 0 everywhere. Proved in full: C32_pixel_reads_grid, C32_within_neighbours, C32_small_grid, C32_near_node, C32_alt_array, C32_centre."
  },
  {
   "property": "C33",
   "status": "partial",
   "theorems": [
    "Verif.Grids.C33_refines",
    "Verif.Grids.C33_query",
    "Verif.Grids.C33_band_none",
    "Verif.Grids.C33_missing_band_false",
    "Verif.Grids.C33_query_total_partial",
    "Verif.Grids.C33_shared_list_false"
   ],
   "note": "The code breaks the full statement: C33_missing_band_false: C33 fails for a band without calculator: the answer is None, not an error. | C33_shared_list_false: C33 fails across models: calculators passed from one model to another stay shared, so updating a band of one model changes the other model's answers. What is proved instead: C33_query_total_partial: C33 (partial), the exact meaning of the query for every band argument: bands `0..n-1` use their calculator, `-n..-1` count from the end, below that IndexError, `n` and above None. Proved in full: C33_refines, C33_query, C33_band_none."
  },
  {
   "property": "C34",
   "status": "proved",
   "theorems": [
    "Verif.Grids.C34_cell_centres",
    "Verif.Grids.C34_inside_symmetric",
    "Verif.Grids.C34_too_small"
   ],
   "note": "Proved for the whole quantifier: C34_cell_centres: C34: the ground grid is the grid of cell centres. | C34_inside_symmetric: C34: for a non-degenerate extent the points are strictly inside and symmetric about the centre. | C34_too_small: C34, error branch: with a single row or column of pixels the grid cannot be built."
  },
  {
   "property": "C35",
   "status": "partial",
   "theorems": [
    "Verif.Grids.C35_georef_false",
    "Verif.Grids.C35_subpixel_partial"
   ],
   "note": "The code breaks the full statement: C35_georef_false: C35 fails everywhere: for every non-degenerate extent, every output size and every output pixel, the geotransform gives the pixel's centre a position different (in both coordinates) from the one it was sampled at. What is proved instead: C35_subpixel_partial: C35 (partial): the two agree up to less than one output pixel: the georeferenced centre is shifted toward the upper-left corner by `(i + 1/2) / (nx + 1)` pixel widths, `(j + 1/2) / (ny + 1)` heights."
  },
  {
   "property": "C36",
   "status": "partial",
   "theorems": [
    "Verif.Ortho.C36_coregistered_exact",
    "Verif.Ortho.C36_coregistered",
    "Verif.Ortho.C36_separate_bands_false",
    "Verif.Ortho.C36_separate_bands_partial",
    "Verif.Ortho.C36_not_loaded"
   ],
   "note": "The code breaks the full statement: C36_separate_bands_false: C36 fails when bands are not co-registered: with nearest resampling, every output pixel that falls outside the source image gets 0 whatever the no-data value is. What is proved instead: C36_separate_bands_partial: C36 (partial), not co-registered bands: what holds is that pixels inside carry the nearest source pixel of the requested band, projected with that band's own model, and that the default no-data value 0 marks the pixels outside. Proved in full: C36_coregistered_exact, C36_coregistered, C36_not_loaded."
  },
  {
   "property": "C37",
   "status": "partial",
   "theorems": [
    "Verif.Ortho.C37_mask",
    "Verif.Ortho.C37_no_band",
    "Verif.Ortho.C37_int8_false"
   ],
   "note": "The code breaks the full statement: C37_int8_false: C37 fails for an int8 image: the opaque value is stored as -1, never 255. Proved in full: C37_mask, C37_no_band."
  },
  {
   "property": "C38",
   "status": "proved",
   "theorems": [
    "Verif.Ortho.C38_border",
    "Verif.Ortho.C38_points",
    "Verif.Ortho.C38_empty",
    "Verif.Ortho.C38_coverage",
    "Verif.Ortho.C38_simplified"
   ],
   "note": "Proved for the whole quantifier: C38_border: C38: the pixels used for the extent are exactly the border pixels. | C38_points: C38: the extent's points are the ground positions of the border pixels: of band 0 for co-registered bands, of every requested band otherwise. | C38_empty: C38: an empty image is an error."
  },
  {
   "property": "C39",
   "status": "partial",
   "theorems": [
    "Verif.Ortho.C39_mirrored_partial",
    "Verif.Ortho.C39_flat",
    "Verif.Ortho.C39_diagonal_false",
    "Verif.Ortho.C39_wall_missed_false",
    "Verif.Ortho.C39_clear_sight_false"
   ],
   "note": "The code breaks the full statement: C39_diagonal_false: C39 fails diagonally: when every pixel's offset toward the sensor has opposite longitude and latitude components, nothing is sampled and no pixel is ever marked, whatever the terrain. | C39_wall_missed_false: C39 fails: a wall across the line of sight is not detected. | C39_clear_sight_false: C39 fails: a wall behind the ground point, with a clear line of sight, is reported. What is proved instead: C39_mirrored_partial: C39 (partial): what the code decides, for every scene: the specified test with (a) the terrain mirrored through the ground point (the samples run away from the sensor), (b) the number of samples taken from `|dlon + dlat|` rather than a distance, (c) the highest altitude converted to the dtype of the pixel array. Missing for the full claim: the unmirrored terrain. Proved in full: C39_flat."
  },
  {
   "property": "C40",
   "status": "partial",
   "theorems": [
    "Verif.Ortho.C40_window_mean",
    "Verif.Ortho.C40_cut_at_edges",
    "Verif.Ortho.C40_wraps_partial",
    "Verif.Ortho.C40_between",
    "Verif.Ortho.C40_window_one_false",
    "Verif.Ortho.C40_edge_false"
   ],
   "note": "The code breaks the full statement: C40_window_one_false: C40 fails for a window of one pixel: its half-width rounds to zero, and the value is NaN for every image and position inside it. | C40_edge_false: C40 fails at the upper and left edges: a window reaching above the image (so that its first row index is negative) while its last row is not beyond the image's bottom gives NaN, although the window contains valid pixels: the slice wraps around. What is proved instead: C40_wraps_partial: C40, beyond the upper edge, exactly: a window that starts above the image is not cut but wraps around: its rows are those from the start counted from the bottom of the image up to its end. Proved in full: C40_window_mean, C40_cut_at_edges, C40_between."
  },
  {
   "property": "C41",
   "status": "proved",
   "theorems": [
    "Verif.Ortho.C41_constant",
    "Verif.Ortho.C41_alts"
   ],
   "note": "Proved for the whole quantifier: C41_constant: C41: a constant-elevation DEM is constant, in the shape of the query. | C41_alts: C41: its highest, lowest and mean altitudes are that elevation."
  },
  {
   "property": "C42",
   "status": "partial",
   "theorems": [
    "Verif.Ortho.C42_nearest",
    "Verif.Ortho.C42_range",
    "Verif.Ortho.C42_single_row_false"
   ],
   "note": "The code breaks the full statement: C42_single_row_false: C42 fails for a raster of a single row or column: every query raises IndexError. Proved in full: C42_nearest, C42_range."
  },
  {
   "property": "C43",
   "status": "partial",
   "theorems": [
    "Verif.Ortho.C43_between_partial",
    "Verif.Ortho.C43_range_partial",
    "Verif.Ortho.C43_node_false",
    "Verif.Ortho.C43_exact_partial",
    "Verif.Ortho.C43_batch_node_false",
    "Verif.Ortho.C43_reversed_false"
   ],
   "note": "The code breaks the full statement: C43_node_false: C43 fails at every grid node: the weights are all zero and the call raises ZeroDivisionError. | C43_batch_node_false: C43: and so does any batch of points of which one is a grid node. | C43_reversed_false: C43 fails between nodes: on every row of nodes, between columns `c` and `c + 1`, the closer cell gets the smaller weight: at fraction `t` the value is `t` times the left cell plus `1 - t` times the right one. What is proved instead: C43_between_partial: C43 (partial): for every raster of at least two rows and columns and every point inside it, when bilinear interpolation returns a value it is between the smallest and largest of the four surrounding cells. Missing: the weights (`C43_reversed_false`) and grid nodes (`C43_node_false`). | C43_range_partial: C43 (partial), everywhere (also outside the raster): a value returned is between the DEM's lowest and highest cells. | C43_exact_partial: C43, exactly: inside the raster the call raises ZeroDivisionError at grid nodes only; elsewhere the value is the average of the four surrounding cells (those at the rounded-down and rounded-up row and column), each weighted with its distance from the point: the farther the cell, the larger its weight."
  },
  {
   "property": "C44",
   "status": "proved",
   "theorems": [
    "Verif.Nav.C44_interpolates",
    "Verif.Nav.C44_between",
    "Verif.Nav.C44_single_record"
   ],
   "note": "Proved for the whole quantifier: C44_interpolates: C44: for a nav file with at least two records at increasing times, every getter returns for each queried time in range the linear interpolation between every pair of records bracketing it (there is one), the recorded value at the time of a record. | C44_between: C44: hence the value is between the two records' values. | C44_single_record: C44, boundary of the claim: with a single record its own time gives NaN, not the recorded value."
  },
  {
   "property": "C45",
   "status": "proved",
   "theorems": [
    "Verif.Nav.C45_out_of_range",
    "Verif.Nav.C45_shape",
    "Verif.Nav.C45_no_records"
   ],
   "note": "Proved for the whole quantifier: C45_out_of_range: C45: a query containing a time outside the recorded range gives None, whatever its shape. | C45_shape: C45: otherwise the answer has the shape of the query, and each entry is the answer to the scalar query for its own time (so it depends on no other time). | C45_no_records: C45: an empty nav file is an error."
  },
  {
   "property": "C46",
   "status": "partial",
   "theorems": [
    "Verif.Nav.C46_no_wrap_partial",
    "Verif.Nav.C46_wrap_false",
    "Verif.Nav.C46_iff_partial"
   ],
   "note": "The code breaks the full statement: C46_wrap_false: C46 fails between every two consecutive records whose headings are more than half a turn apart (both in `[0, T)`, such as 359 and 1 degrees): every heading strictly between the two records is off the shorter arc. What is proved instead: C46_no_wrap_partial: C46 (partial): between two consecutive records whose headings are at most half a turn apart, the heading is interpolated along the shorter arc, in every navigation file. | C46_iff_partial: C46, exactly: strictly between two records the heading is on the shorter arc if and only if the two headings are at most half a turn apart."
  },
  {
   "property": "C47",
   "status": "partial",
   "theorems": [
    "Verif.Nav.C47_aligned_partial",
    "Verif.Nav.C47_exact_partial",
    "Verif.Nav.C47_broken_line_false"
   ],
   "note": "The code breaks the full statement: C47_broken_line_false: C47 fails: whenever a file has a line with a readable time field but a missing or unreadable later field, the time column ends up longer than the longitude column: entries of different lines are paired, and `get_num_records` counts the broken line. What is proved instead: C47_aligned_partial: C47 (partial): for files in which every line is either a record or fails at its time field, the columns are exactly the records' values, in the order of the lines, so they all have the same length and entry `i` of every column comes from the same line. Missing: lines with a readable time but a broken later field (`C47_broken_line_false`). | C47_exact_partial: C47, exactly, for every text file: column `j` holds, in the order of the lines, field `j` of those lines in which that field and all fields before it are readable. So the columns are aligned exactly when no line has a readable time and an unreadable later field."
  },
  {
   "property": "C48",
   "status": "partial",
   "theorems": [
    "Verif.Nav.C48_increasing",
    "Verif.Nav.C48_roundtrip_partial",
    "Verif.Nav.C48_roundtrip_false",
    "Verif.Nav.C48_roundtrip_iff",
    "Verif.Nav.C48_before_1980_false"
   ],
   "note": "The code breaks the full statement: C48_roundtrip_false: C48 fails: at every time followed by a leap second within as many seconds as leap seconds were inserted before, UTC to GPS and back gives a time one second too early. | C48_before_1980_false: C48 fails before 1980: the offset of 2017 is used there, so the conversion is not even increasing across 1980-01-01. What is proved instead: C48_roundtrip_partial: C48 (partial): UTC to GPS and back is the identity at every time since 1980 that is not followed by a leap second within as many seconds as leap seconds were inserted before (at most 18 seconds before each leap second are excluded). Missing: those windows (`C48_roundtrip_false`). Proved in full: C48_increasing, C48_roundtrip_iff."
  },
  {
   "property": "C49",
   "status": "proved",
   "theorems": [
    "Verif.Nav.C49_week_seconds",
    "Verif.Nav.C49_unique"
   ],
   "note": "Proved for the whole quantifier: C49_week_seconds: C49: the week and the seconds in it decompose the GPS timestamp. | C49_unique: C49: the decomposition is unique, so these are the week number and the time of week."
  },
  {
   "property": "C50",
   "status": "partial",
   "theorems": [
    "Verif.Spectrum.C50_independent",
    "Verif.Spectrum.C50_values",
    "Verif.Spectrum.C50_raw_values",
    "Verif.Spectrum.C50_integer_false",
    "Verif.Spectrum.C50_returned_array",
    "Verif.Spectrum.C50_setter_shares"
   ],
   "note": "The code breaks the full statement: C50_integer_false: C50 fails for integer data: the default read always raises ValueError. Proved in full: C50_independent, C50_values, C50_raw_values, C50_returned_array, C50_setter_shares."
  },
  {
   "property": "C51",
   "status": "proved",
   "theorems": [
    "Verif.Spectrum.C51_weighted_average",
    "Verif.Spectrum.C51_average_facts",
    "Verif.Spectrum.C51_no_overlap",
    "Verif.Spectrum.C51_malformed",
    "Verif.Spectrum.C51_broadcast"
   ],
   "note": "Proved for the whole quantifier: C51_weighted_average: C51: for a spectrum at increasing wavelengths and response functions that overlap it, each returned value is an average of the spectral values with non-negative weights of sum one that do not depend on the spectral values; there is one value per response function. | C51_average_facts: C51: an average with non-negative weights of sum one lies between the smallest and largest values, is `c` on a constant spectrum `c`, and is linear. | C51_no_overlap: C51, boundary: a response function that vanishes at all wavelengths of the spectrum gives no number."
  },
  {
   "property": "C52",
   "status": "proved",
   "theorems": [
    "Verif.Spectral.C52_mean",
    "Verif.Spectral.C52_masked_irrelevant",
    "Verif.Spectral.C52_nothing_left",
    "Verif.Spectral.C52_demean",
    "Verif.Spectral.C52_wrong_mask"
   ],
   "note": "Proved for the whole quantifier: C52_mean: C52: the spectral mean is, band by band, the mean over the unmasked samples. | C52_masked_irrelevant: C52: so values of masked samples do not matter. | C52_nothing_left: C52: a mean over no sample is reported as masked or NaN, never as a number."
  },
  {
   "property": "C53",
   "status": "partial",
   "theorems": [
    "Verif.Spectral.C53_covariance",
    "Verif.Spectral.C53_one_band_partial",
    "Verif.Spectral.C53_one_band_false",
    "Verif.Spectral.C53_affine",
    "Verif.Spectral.C53_shift",
    "Verif.Spectral.C53_too_few"
   ],
   "note": "The code breaks the full statement: C53_one_band_false: C53 fails for one band: the result is never a matrix. What is proved instead: C53_one_band_partial: C53 (partial): for one band the result is the variance, but as a zero-dimensional array, not as a one-by-one matrix. Proved in full: C53_covariance, C53_affine, C53_shift, C53_too_few."
  },
  {
   "property": "C54",
   "status": "partial",
   "theorems": [
    "Verif.Spectral.C54_default",
    "Verif.Spectral.C54_score",
    "Verif.Spectral.C54_nonneg",
    "Verif.Spectral.C54_total",
    "Verif.Spectral.C54_one_band_false"
   ],
   "note": "The code breaks the full statement: C54_one_band_false: C54 fails for one band: the default covariance is not a matrix, so its inversion raises LinAlgError. Proved in full: C54_default, C54_score, C54_nonneg, C54_total."
  },
  {
   "property": "C55",
   "status": "proved",
   "theorems": [
    "Verif.Spectral.C55_range",
    "Verif.Spectral.C55_target_one",
    "Verif.Spectral.C55_target_scale",
    "Verif.Spectral.C55_sample_scale",
    "Verif.Spectral.C55_ace_demeaned",
    "Verif.Spectral.C55_default"
   ],
   "note": "Proved for the whole quantifier: C55_range: C55: with a positive definite inverse covariance, ACE scores of non-zero demeaned samples against a non-zero demeaned target are in [0, 1]. | C55_target_one: C55: the score is 1 for every non-zero multiple of the target. | C55_target_scale: C55: rescaling the demeaned target by a non-zero factor changes no score, whatever the matrix."
  },
  {
   "property": "C56",
   "status": "proved",
   "theorems": [
    "Verif.Spectral.C56_cosine",
    "Verif.Spectral.C56_scale"
   ],
   "note": "Proved for the whole quantifier: C56_cosine: C56: for a non-zero target, the similarity of a non-zero sample is the cosine of the angle to the target; it is in [-1, 1], and equal to 1 exactly for the positive multiples of the target. | C56_scale: C56: multiplying the target and each sample by positive factors changes no similarity."
  },
  {
   "property": "C57",
   "status": "partial",
   "theorems": [
    "Verif.Spectral.C57_statistics",
    "Verif.Spectral.C57_demean",
    "Verif.Spectral.C57_rx",
    "Verif.Spectral.C57_ace",
    "Verif.Spectral.C57_ace_demeaned",
    "Verif.Spectral.C57_sam",
    "Verif.Spectral.C57_cov_eq",
    "Verif.Spectral.C57_transform_partial",
    "Verif.Spectral.C57_transform_no_mask_false"
   ],
   "note": "The code breaks the full statement: C57_transform_no_mask_false: C57 fails: without masks (the default) the two-dimensional routine always raises AttributeError. What is proved instead: C57_transform_partial: C57 (partial): the equalisation matrix, when both masks are given. Missing: calls without masks (`C57_transform_no_mask_false`). Proved in full: C57_statistics, C57_demean, C57_rx, C57_ace, C57_ace_demeaned, C57_sam, C57_cov_eq."
  },
  {
   "property": "C58",
   "status": "partial",
   "theorems": [
    "Verif.Spectral.C58_covariance",
    "Verif.Spectral.C58_one_band_false",
    "Verif.Spectral.C58_band_mismatch"
   ],
   "note": "The code breaks the full statement: C58_one_band_false: C58 fails for one band: the covariance is not a matrix and the matrix power raises ValueError. Proved in full: C58_covariance, C58_band_mismatch."
  },
  {
   "property": "C59",
   "status": "partial",
   "theorems": [
    "Verif.Envi.C59_layout",
    "Verif.Envi.C59_file_size",
    "Verif.Envi.C59_roundtrip_partial",
    "Verif.Envi.C59_interleave_false",
    "Verif.Envi.C59_unsupported",
    "Verif.Envi.C59_short_file"
   ],
   "note": "The code breaks the full statement: C59_interleave_false: With any other interleave the writer writes zeros: the image read back has the right shape and is all zeros, so an image with any value that is not zero is lost. What is proved instead: C59_roundtrip_partial: A 'bil' image of a supported type reads back identical, whatever files existed before. Missing from the full statement: other interleaves. Proved in full: C59_layout, C59_file_size, C59_unsupported, C59_short_file."
  },
  {
   "property": "C60",
   "status": "partial",
   "theorems": [
    "Verif.Envi.C60_terminates_partial",
    "Verif.Envi.C60_unclosed_brace_false",
    "Verif.Envi.C60_entries_partial",
    "Verif.Envi.C60_last_line_false",
    "Verif.Envi.C60_second_equals_false"
   ],
   "note": "The code breaks the full statement: C60_unclosed_brace_false: The reader never ends on a header with an unclosed brace in a `key = {` line that is followed by a line end. | C60_last_line_false: An entry on the last line of a file without a line end at its end is lost. | C60_second_equals_false: A line whose value contains another `=` makes the reader fail. What is proved instead: C60_terminates_partial: The reader ends on every file in which each opening brace is followed, sooner or later, by a closing one. | C60_entries_partial: For every header made of lines and blocks, each ended by a line end, followed by an unfinished line: the reader ends; every entry of the dictionary is the (converted) value of the last piece with that key; every key of a piece is there. It raises ValueError exactly when some value cannot be converted. Missing from the full statement: the entry on an unfinished last line is dropped."
  },
  {
   "property": "C61",
   "status": "partial",
   "theorems": [
    "Verif.Envi.C61_roundtrip",
    "Verif.Envi.C61_documented_partial",
    "Verif.Envi.C61_unknown",
    "Verif.Envi.C61_complex_false"
   ],
   "note": "The code breaks the full statement: C61_complex_false: Code 9, documented as double precision complex, is taken as single precision; and the files of code 6, documented as single precision complex, are read as float64. What is proved instead: C61_documented_partial: The codes other than 6 and 9 denote the documented types. Proved in full: C61_roundtrip, C61_unknown."
  },
  {
   "property": "C62",
   "status": "partial",
   "theorems": [
    "Verif.Envi.C62_header_partial",
    "Verif.Envi.C62_new_name_partial",
    "Verif.Envi.C62_reshaped_false",
    "Verif.Envi.C62_truncated_false",
    "Verif.Envi.C62_same_shape_partial"
   ],
   "note": "The code breaks the full statement: C62_reshaped_false: Overwriting an image by one of another shape with as many values: a call that stops after the data file and before the header leaves a readable image that has the old shape and the new values in file order: neither the new image nor, unless the values in file order agree, the old one. | C62_truncated_false: Overwriting an image by one of the same shape and type with at least two samples: a call that stops when all but the last `samples - 1` values are written leaves a readable image whose last line, in the last band, repeats one value. What is proved instead: C62_header_partial: A call that stopped while writing the header is followed by a failing read, or its header is complete. | C62_new_name_partial: Writing under a name without a header so far: whenever the call stops, a later read fails or returns the new image. | C62_same_shape_partial: C62 (partial): overwriting an image by one of the same shape and type, whenever the call stops, a later read fails, returns the old image or returns the new image, except when exactly all but the last `samples - 1` values were written (`C62_truncated_false` tells what is read then); images with one sample per line have no such point. Missing: overwriting by another shape (`C62_reshaped_false`)."
  },
  {
   "property": "C63",
   "status": "partial",
   "theorems": [
    "Verif.TextUtils.C63_roundtrip_partial",
    "Verif.TextUtils.C63_empty_last_line_false"
   ],
   "note": "The code breaks the full statement: C63_empty_last_line_false: A list whose last line is empty does not survive, and the empty list cannot be written. What is proved instead: C63_roundtrip_partial: Exactly what comes back: the list as written, except that an empty last entry is lost."
  },
  {
   "property": "C64",
   "status": "partial",
   "theorems": [
    "Verif.TextUtils.C64_cleanup_posix",
    "Verif.TextUtils.C64_remove_posix",
    "Verif.TextUtils.C64_remove_windows_partial",
    "Verif.TextUtils.C64_remove_windows_false",
    "Verif.TextUtils.C64_cleanup_windows_false",
    "Verif.TextUtils.C64_no_newline"
   ],
   "note": "The code breaks the full statement: C64_remove_windows_false: On Windows `remove_newlines` leaves every carriage return in place. | C64_cleanup_windows_false: On Windows `cleanup_newlines` is idempotent on no text with a line end: each call makes it longer. What is proved instead: C64_remove_windows_partial: On Windows exactly the line feeds are deleted: the statement holds for text without carriage returns. Proved in full: C64_cleanup_posix, C64_remove_posix, C64_no_newline."
  },
  {
   "property": "C65",
   "status": "proved",
   "theorems": [
    "Verif.TextUtils.C65_snake",
    "Verif.TextUtils.C65_words"
   ],
   "note": "Proved for the whole quantifier: C65_snake: No upper-case letter is left; but for underscores the text is the input in lower case; converting again changes nothing. | C65_words: Run-together capitalised words come out in lower case, separated by single underscores."
  },
  {
   "property": "C66",
   "status": "proved",
   "theorems": [
    "Verif.TextUtils.C66_transpose",
    "Verif.TextUtils.C66_no_column",
    "Verif.TextUtils.C66_ragged",
    "Verif.TextUtils.C66_ragged_old",
    "Verif.TextUtils.C66_remove"
   ],
   "note": "Proved for the whole quantifier: C66_transpose: On a table of at least one row and one column the conversions return the columns, and each undoes the other. | C66_no_column: A table with no column is not recovered: the conversion returns the empty list, which has no rows. | C66_ragged: C66: rows of different lengths are rejected with ValueError by both routines (numpy 1.24 and later)."
  },
  {
   "property": "C67",
   "status": "partial",
   "theorems": [
    "Verif.TextUtils.C67_listing_partial",
    "Verif.TextUtils.C67_kinds_false",
    "Verif.TextUtils.C67_patterns_false",
    "Verif.TextUtils.C67_exact_partial",
    "Verif.TextUtils.C67_bad_extensions"
   ],
   "note": "The code breaks the full statement: C67_kinds_false: Any directory whose name matches is reported among the files; no hidden file ever is. | C67_patterns_false: A file matching two prefixes is listed twice; a dotted extension loses its inner dot; without extensions, files without a dot are left out. What is proved instead: C67_listing_partial: With plain extensions, exactly the entries are returned that are not hidden, have one of the extensions and start with one of the prefixes; each once when directory names are distinct, the extensions are distinct and no prefix starts with another. Missing from the full statement: entries that are directories are returned, hidden files are not. | C67_exact_partial: C67, exactly, for any extensions and prefixes: dots and stars are taken out of the extensions, and a visible entry, file or folder, of a directory is listed once for every pair of an extension it has and a prefix it starts with; without extensions (None), once for every prefix if it has a dot at all. Proved in full: C67_bad_extensions."
  },
  {
   "property": "C68",
   "status": "proved",
   "theorems": [
    "Verif.Rotation.C68_r_is_transpose",
    "Verif.Rotation.C68_short"
   ],
   "note": "Proved for the whole quantifier: C68_r_is_transpose: C68: the Pix4d matrix is the transpose of the photogrammetric matrix of the same angles (degrees converted to radians), hence a rotation. | C68_short: C68, error branch: fewer than six parameters raise IndexError."
  },
  {
   "property": "C69",
   "status": "partial",
   "theorems": [
    "Verif.Readers.C69_calibrated",
    "Verif.Readers.C69_calibrated_blank",
    "Verif.Readers.C69_truncated_false",
    "Verif.Readers.C69_external",
    "Verif.Readers.C69_malformed",
    "Verif.Readers.C69_internal_partial",
    "Verif.Readers.C69_last_line_false",
    "Verif.Readers.C69_internal_empty",
    "Verif.Readers.C69_internal_malformed"
   ],
   "note": "The code breaks the full statement: C69_truncated_false: But a file cut inside its last record is accepted: the rows that are missing are missing from the result. | C69_last_line_false: When the last line of the file is a parameter, its name is missing from the last camera's dictionary, unless another line of that block assigns it. What is proved instead: C69_internal_partial: Every parameter of every block is read when the last line of the file is empty or a plain comment (it assigns nothing). Missing from the full statement: files whose last line is a parameter. Proved in full: C69_calibrated, C69_calibrated_blank, C69_external, C69_malformed, C69_internal_empty, C69_internal_malformed."
  },
  {
   "property": "C70",
   "status": "partial",
   "theorems": [
    "Verif.Images.C70_last_band_partial",
    "Verif.Images.C70_last_data_partial",
    "Verif.Images.C70_frame",
    "Verif.Images.C70_errors",
    "Verif.Images.C70_shared_array_false",
    "Verif.Images.C70_view_changes",
    "Verif.Images.C70_converted_false",
    "Verif.Images.C70_poke"
   ],
   "note": "The code breaks the full statement: C70_shared_array_false: The statement is false when two images were given the same array: setting a band of one sets it in the other. | C70_converted_false: The value stored is not always the value given: in an image of integers a value that is not one comes back changed. What is proved instead: C70_last_band_partial: After `set_image_band(v, b)` with data of the image's size, and any further calls that do not set that band or the image's data again, `get_image_band` of that band (by either of its two numbers) returns `v`, converted to the dtype of the image. | C70_last_data_partial: After `set_image_data(a)` with an array no other image holds, and any further calls that do not set band `k` or the image's data again, `get_image_band` of band `k` returns the band of that array. Proved in full: C70_frame, C70_errors, C70_view_changes, C70_poke."
  },
  {
   "property": "C71",
   "status": "proved",
   "theorems": [
    "Verif.Images.C71_last_value",
    "Verif.Images.C71_never_set",
    "Verif.Images.C71_constructors"
   ],
   "note": "Proved for the whole quantifier: C71_last_value: After any history of setter calls on a metadata object, a getter returns the value of the last call of its own setter. | C71_never_set: A getter whose setter was never called raises KeyError, except that of the no-data value, which returns None. | C71_constructors: The metadata objects built by the library answer with the numbers they were built from."
  },
  {
   "property": "C72",
   "status": "partial",
   "theorems": [
    "Verif.Ortho.C72_unloaded_false",
    "Verif.Ortho.C72_loaded_partial",
    "Verif.Ortho.C72_not_coregistered_partial",
    "Verif.Images.C72_physical_camera_false"
   ],
   "note": "The code breaks the full statement: C72_unloaded_false: A co-registered image whose data is not in memory: no request of at least one band succeeds, whatever is on disk. | C72_physical_camera_false: `PhysicalCameraImage.read_band_from_disk` on an image just opened raises TypeError for every band, although the file has it. What is proved instead: C72_loaded_partial: The same request on the same image once its data is loaded does not touch the disk: it gives what it would give with any other file. | C72_not_coregistered_partial: For an image whose bands are not co-registered the data in memory is not used at all: every band is read from disk."
  },
  {
   "property": "C73",
   "status": "partial",
   "theorems": [
    "Verif.Camera.C73_orientation_partial",
    "Verif.Camera.C73_orientation_given_partial",
    "Verif.Camera.C73_units_false"
   ],
   "note": "The code breaks the full statement: C73_units_false: C73 fails: the unit given for the external orientation is ignored. With boresight angles in degrees and platform angles in radians, a commanded yaw of \u03c0 radians (a half turn) does not give boresight times platform. What is proved instead: C73_orientation_partial: C73 (partial: platform angles must be in the boresight units, and boresight angles within 1e-8 of zero are first moved by 1e-8): the simulated camera's orientation is boresight times platform. | C73_orientation_given_partial: C73 (partial), boresight angles not within 1e-8 of zero are used as given."
  },
  {
   "property": "C74",
   "status": "partial",
   "theorems": [
    "Verif.Readers.C74_svc",
    "Verif.Readers.C74_svc_refused",
    "Verif.Readers.C74_svc_no_data",
    "Verif.Readers.C74_envi",
    "Verif.Readers.C74_envi_error",
    "Verif.Readers.C74_csv",
    "Verif.Readers.C74_csv_short",
    "Verif.Readers.C74_usgs_column",
    "Verif.Readers.C74_usgs_partial",
    "Verif.Readers.C74_usgs_lengths_false"
   ],
   "note": "The code breaks the full statement: C74_usgs_lengths_false: But the lengths are not compared: with one more value than wavelengths the spectrum is still returned, whatever numbers the files hold. What is proved instead: C74_usgs_partial: A USGS spectrum: when the three files have the same number of lines, wavelength, resolution and value `i` come from line `i + 1` of their files. Proved in full: C74_svc, C74_svc_refused, C74_svc_no_data, C74_envi, C74_envi_error, C74_csv, C74_csv_short, C74_usgs_column."
  },
  {
   "property": "C75",
   "status": "proved",
   "theorems": [
    "Verif.Grids.C75_largest_fit",
    "Verif.Grids.C75_refused"
   ],
   "note": "Proved for the whole quantifier: C75_largest_fit: C75: the pixel counts are the largest whole numbers of pixels that fit in the extent's width and height. | C75_refused: A ground sample distance of zero in either direction is a ZeroDivisionError, an extent without points a ValueError."
  },
  {
   "property": "C76",
   "status": "partial",
   "theorems": [
    "Verif.Nav.C76_utc_machine_partial",
    "Verif.Nav.C76_exact_partial",
    "Verif.Nav.C76_away_from_leaps_partial",
    "Verif.Nav.C76_time_zone_false",
    "Verif.Nav.C76_moved_zone_false"
   ],
   "note": "The code breaks the full statement: C76_time_zone_false: C76 fails elsewhere: on a machine west of Greenwich (`0 < z d`) the conversion is one second slow for `z d` seconds after every leap second (for instance five hours in New York's standard time). | C76_moved_zone_false: C76 fails at every time in a zone that moved between 1970 and 1980: the conversion is wrong by the move, up to a second (in London, which kept summer time through the winter of 1970, by an hour). What is proved instead: C76_utc_machine_partial: C76 (partial): on a machine set to UTC the conversion gives GPS time. Missing: other time zones (`C76_time_zone_false`, `C76_moved_zone_false`). | C76_exact_partial: C76, exactly, in any time zone: the conversion gives GPS time at a time since 1980 if the zone had the same distance from UTC on 1970-01-01 and 1980-01-06 and no leap second falls between the time and its local reading; if only the latter fails it is one second wrong. | C76_away_from_leaps_partial: C76: in any time zone that did not move between 1970 and 1980 the conversion gives GPS time at every time at least a day away from the leap seconds and from the epoch."
  },
  {
   "property": "C77",
   "status": "partial",
   "theorems": [
    "Verif.Envi.C77_metadata_partial",
    "Verif.Envi.C77_stale_header_false"
   ],
   "note": "The code breaks the full statement: C77_stale_header_false: When a header of the shorter name exists, say of another image `old` stored as `name.img` + `name.hdr`, an `EnviImage` opened on the file just written reports the dimensions of that other image, although `read_envi_image` reads the new one. What is proved instead: C77_metadata_partial: When no header of the shorter name exists, the metadata of an `EnviImage` opened after the write is the written one."
  },
  {
   "property": "C78",
   "status": "partial",
   "theorems": [
    "Verif.Images.C78_band_of_all_partial",
    "Verif.Images.C78_negative_false",
    "Verif.Images.C78_micasense",
    "Verif.Images.C78_micasense_sizes_false"
   ],
   "note": "The code breaks the full statement: C78_negative_false: A negative band number, which selects a band from the end in memory, raises AttributeError on disk. | C78_micasense_sizes_false: Band files of two sizes: reading all bands fails, reading one does not. What is proved instead: C78_band_of_all_partial: For an image opened from a file, `read_all_image_data_from_disk` returns all pixels of the file and `read_band_from_disk(b)`, for every band number from 0, returns band `b` of them. Proved in full: C78_micasense."
  },
  {
   "property": "C79",
   "status": "partial",
   "theorems": [
    "Verif.Images.C79_roundtrip_partial",
    "Verif.Images.C79_from_array_partial",
    "Verif.Images.C79_nodata_false",
    "Verif.Images.C79_copy_partial",
    "Verif.Images.C79_nan_nodata_false",
    "Verif.Images.C79_nan_copy_false",
    "Verif.Images.C79_larger_data_false"
   ],
   "note": "The code breaks the full statement: C79_nodata_false: A no-data value that is not a whole number never comes back, whatever the image. | C79_nan_nodata_false: An image with NaN (or an infinity) as its no-data value, the usual one of float rasters, can never be written: an image whose data fits its metadata raises ValueError (OverflowError). | C79_nan_copy_false: The same for an image opened from a float raster with a NaN no-data value: a copy cannot be made. | C79_larger_data_false: Data replaced by a larger array without changing the metadata cannot be written. What is proved instead: C79_roundtrip_partial: An image whose data fits its metadata, in values of the file's data type: what `write_to_disk` writes, opened again, has the same size, data type, geotransform and projection, and the same pixels; its no-data value is that of the image truncated to an integer. | C79_from_array_partial: In particular for an image made from an array, with a whole number or no no-data value, everything comes back. | C79_copy_partial: An image opened from a file and written elsewhere without having been loaded: the copy has the pixels of the file, and the image object is left with its data loaded."
  },
  {
   "property": "C80",
   "status": "partial",
   "theorems": [
    "Verif.Images.C80_fraction_partial",
    "Verif.Images.C80_leading_zeros_false"
   ],
   "note": "The code breaks the full statement: C80_leading_zeros_false: With `k` leading zeros the value is `10 ^ k` times what the tag says. What is proved instead: C80_fraction_partial: The fraction of a second recorded by a MicaSense image as the digits `tag`, when the first digit is not 0 (or there is a single digit): the value of `0.tag`."
  },
  {
   "property": "C81",
   "status": "partial",
   "theorems": [
    "Verif.Images.C81_dms_partial",
    "Verif.Images.C81_denominators_false",
    "Verif.Images.C81_exact_partial",
    "Verif.Images.C81_zero_denominator"
   ],
   "note": "The code breaks the full statement: C81_denominators_false: Minutes (or degrees) given with another denominator are read as if they were whole: the result differs from the angle of the tag unless the two errors cancel. What is proved instead: C81_dms_partial: Degrees and minutes given as whole numbers: the result is degrees plus minutes / 60 plus seconds / 3600, negative exactly for the southern and western references. | C81_exact_partial: C81, exactly: the result is the angle of the tags if and only if degrees and minutes, read without their denominators, add up to the same. Proved in full: C81_zero_denominator."
  },
  {
   "property": "C82",
   "status": "partial",
   "theorems": [
    "Verif.Readers.C82_master_partial",
    "Verif.Readers.C82_files_partial",
    "Verif.Readers.C82_no_camera",
    "Verif.Readers.C82_zero_false",
    "Verif.Readers.C82_two_digits_false",
    "Verif.Readers.C82_no_external"
   ],
   "note": "The code breaks the full statement: C82_zero_false: But number 0 is taken for the last camera. | C82_two_digits_false: And cameras numbered 10 or more cannot be named: two digits are refused even when there are so many cameras. What is proved instead: C82_master_partial: Every image gets its calibrated parameters, its external parameters and those of the camera whose number ends its name, in the order of the calibrated parameters. | C82_files_partial: From the files: when the three files are read (see C69) and every image has external parameters and the number of a camera, `make_master_dict` succeeds and each image's entry holds its own (last) calibrated parameters, the external parameters listed under its name, and those of the camera whose number ends its name. Proved in full: C82_no_camera, C82_no_external."
  },
  {
   "property": "C83",
   "status": "proved",
   "theorems": [
    "Verif.Readers.C83_csv_columns",
    "Verif.Readers.C83_csv_empty"
   ],
   "note": "Proved for the whole quantifier: C83_csv_columns: C83. Of a file whose first line has the cells `header` and whose other lines have the cells `table`: if the table is a rectangle with at least as many columns as the header has names, the result maps every name to the complete column below it, in order (the last such column if the name is repeated), and has no other names; if it is not (no data line, lines with different numbers of cells, a blank line, too few ... | C83_csv_empty: C83, the empty file: reading fails."
  },
  {
   "property": "C84",
   "status": "partial",
   "theorems": [
    "Verif.Scoring.C84_scores_aligned_partial",
    "Verif.Scoring.C84_class_scores_partial",
    "Verif.Scoring.C84_label_without_output",
    "Verif.Scoring.C84_default_ledger_false",
    "Verif.Scoring.C84_single_chip_false",
    "Verif.Scoring.C84_empty_chip",
    "Verif.Scoring.C84_unknown_class",
    "Verif.Scoring.C84_gray_rejected"
   ],
   "note": "The code breaks the full statement: C84_default_ledger_false: C84 is false for the default call: without a progress ledger every image that has a chip makes scoring raise AttributeError. | C84_single_chip_false: C84 is false for an image of exactly one chip: asking for one class raises IndexError, because the only row has lost its axis. What is proved instead: C84_scores_aligned_partial: C84. With a progress ledger, a network of at least two classes and an image larger than one chip, scoring returns one row per chip in the order of the upper lefts, and row `k` is the network's prediction for the window of the image at upper left `k` (without alpha, resized, normalised as requested); every pixel of the image lies in one of those windows. Missing: the default call without ledger and images of one ... | C84_class_scores_partial: C84, one class: with the label list and the class to find given, entry `k` of the returned vector is the network's score of that class for the window at upper left `k`. Proved in full: C84_label_without_output, C84_empty_chip, C84_unknown_class, C84_gray_rejected."
  },
  {
   "property": "C85",
   "status": "partial",
   "theorems": [
    "Verif.Scoring.C85_heat_map_partial",
    "Verif.Scoring.C85_list_of_tuples_false"
   ],
   "note": "The code breaks the full statement: C85_list_of_tuples_false: C85 is false without the conversion: the chipper returns a list of tuples, which the detection image rejects with TypeError. What is proved instead: C85_heat_map_partial: C85. Scoring an image for one class and handing the scores with the upper lefts (as an array) to the detection image gives an image of exactly the size of the input in which every pixel is the largest score of the class among the windows containing the pixel."
  },
  {
   "property": "C86",
   "status": "proved",
   "theorems": [
    "Verif.Scoring.C86_label_file"
   ],
   "note": "Proved for the whole quantifier: C86_label_file: C86. Keras numbers the classes of a training directory in the order of their names. Then the label file written next to the trained model, read back as a list of lines, gives for every class exactly the column of the network's output that belongs to it."
  },
  {
   "property": "C87",
   "status": "partial",
   "theorems": [
    "Verif.Nav.C87_sbet",
    "Verif.Nav.C87_sbet_names",
    "Verif.Nav.C87_eo",
    "Verif.Nav.C87_records",
    "Verif.Nav.C87_eo_record",
    "Verif.Nav.C87_out_of_range",
    "Verif.Nav.C87_num_records",
    "Verif.Nav.C87_record_length_sbet",
    "Verif.Nav.C87_record_length_eo_false"
   ],
   "note": "The code breaks the full statement: C87_record_length_eo_false: C87 fails for the record length of exterior-orientation objects: it is always reported as 7, but every record has nine entries. Proved in full: C87_sbet, C87_sbet_names, C87_eo, C87_records, C87_eo_record, C87_out_of_range, C87_num_records, C87_record_length_sbet."
  },
  {
   "property": "C88",
   "status": "partial",
   "theorems": [
    "Verif.Ortho.C88_history",
    "Verif.Ortho.C88_elevations",
    "Verif.Ortho.C88_factory",
    "Verif.Ortho.C88_integer_false",
    "Verif.Ortho.C88_integer_without",
    "Verif.Ortho.C88_bad_method_false",
    "Verif.Ortho.C88_mean",
    "Verif.Ortho.C88_mean_between",
    "Verif.Ortho.C88_no_cells"
   ],
   "note": "The code breaks the full statement: C88_integer_false: C88 fails for integer rasters: with a no-data value, given or in the file, opening the file raises ValueError (even when no cell holds it). | C88_bad_method_false: C88 fails for misspelt methods: they are silently replaced by bilinear interpolation. Proved in full: C88_history, C88_elevations, C88_factory, C88_integer_without, C88_mean, C88_mean_between, C88_no_cells."
  },
  {
   "property": "C89",
   "status": "partial",
   "theorems": [
    "Verif.Micasense.C89_bands",
    "Verif.Micasense.C89_missing",
    "Verif.Micasense.C89_missing_keyerror",
    "Verif.Micasense.C89_opencv_number",
    "Verif.Micasense.C89_no_extension_false",
    "Verif.Micasense.C89_opencv_reject",
    "Verif.Micasense.C89_name",
    "Verif.Micasense.C89_sixth_band_false",
    "Verif.Micasense.C89_two_digits_false"
   ],
   "note": "The code breaks the full statement: C89_no_extension_false: \"the OpenCV variant uses the parameters of the file's band number\": of a name without a full stop the last character but one counts, not the last. | C89_sixth_band_false: \"every band of the dictionary is in the image\". A sixth band is left out without a word. | C89_two_digits_false: \"the OpenCV variant uses the parameters of the file's band number\": from ten on only the last digit counts. Proved in full: C89_bands, C89_missing, C89_missing_keyerror, C89_opencv_number, C89_opencv_reject, C89_name."
  },
  {
   "property": "C90",
   "status": "partial",
   "theorems": [
    "Verif.Micasense.C90_roundtrip_partial",
    "Verif.Micasense.C90_too_few_names",
    "Verif.Micasense.C90_distinct",
    "Verif.Micasense.C90_one_row_false",
    "Verif.Micasense.C90_repeated_false",
    "Verif.Micasense.C90_one_pixel_false"
   ],
   "note": "The code breaks the full statement: C90_one_row_false: \"a band comes back as it was\": a single row is stored as a column. | C90_repeated_false: \"a band comes back as it was\": a name used twice leaves both bands with the later data. | C90_one_pixel_false: \"any array can be made into an image\": a one-pixel array is an IndexError. What is proved instead: C90_roundtrip_partial: PARTIAL (at least two rows; distinct files): every band is in its own file and is read back as it was, by position or counted from the end; the image has one file per band, named as asked; no other file changes. Proved in full: C90_too_few_names, C90_distinct."
  },
  {
   "property": "C91",
   "status": "partial",
   "theorems": [
    "Verif.Workflow.C91_roundtrip_partial",
    "Verif.Workflow.C91_solver_error",
    "Verif.Workflow.C91_vertical_false"
   ],
   "note": "The code breaks the full statement: C91_vertical_false: \"the altitude given is in the sensor's own reference in both directions\". Pixel to world leaves it alone, world to pixel transforms it: with a projection whose heights differ by a constant a sensor that looks slantwise does not find its pixel again. What is proved instead: C91_roundtrip_partial: PARTIAL (horizontal transforms): a pixel taken to the world in any projection and back is the same pixel, when the sensor's own answer (closed form or solver) is right, and pyproj's transform to the native projection undoes the one from it and leaves altitudes alone. Proved in full: C91_solver_error."
  },
  {
   "property": "C92",
   "status": "partial",
   "theorems": [
    "Verif.Workflow.C92_flat_partial",
    "Verif.Workflow.C92_one_step_partial",
    "Verif.Workflow.C92_slope_false",
    "Verif.Workflow.C92_projection_false"
   ],
   "note": "The code breaks the full statement: C92_slope_false: on sloping terrain the point returned is not where the pixel sees the terrain. | C92_projection_false: with a DEM in another projection than the sensor's the elevations are looked up at the sensor's coordinates, unconverted (here: metres against kilometres), so that even on terrain that is flat around the pixel the point is wrong. What is proved instead: C92_flat_partial: PARTIAL (flat terrain): the point returned is where the pixel sees the terrain. | C92_one_step_partial: PARTIAL (one correction step): the point returned is the pixel's position at the altitude of the terrain below its position at the highest altitude; if terrain altitudes change by at most `L` per unit of distance, the terrain at the returned point is within `L` times the correction of that altitude."
  },
  {
   "property": "C93",
   "status": "partial",
   "theorems": [
    "Verif.Workflow.C93_spacing",
    "Verif.Workflow.C93_degrees_false",
    "Verif.Workflow.C93_image",
    "Verif.Workflow.C93_zero",
    "Verif.Workflow.C93_default_gsd_partial",
    "Verif.Workflow.C93_default_gsd_false"
   ],
   "note": "The code breaks the full statement: C93_degrees_false: \"any image can be orthorectified at any distance\". The extent is in the image's units and the distance in metres: an extent smaller than two of them - so any image with coordinates in degrees, unless its pixels are kilometres wide - is an IndexError. | C93_default_gsd_false: \"the default distance is the pixel spacing\": it is always smaller. What is proved instead: C93_default_gsd_partial: for pixels `s` apart along rows and along columns, the default distance is short of `s` by half of `s/nx + s/ny`. Proved in full: C93_spacing, C93_image, C93_zero."
  },
  {
   "property": "C94",
   "status": "partial",
   "theorems": [
    "Verif.Workflow.C94_values",
    "Verif.Workflow.C94_first_band",
    "Verif.Workflow.C94_projection_false"
   ],
   "note": "The code breaks the full statement: C94_projection_false: \"the simulated image shows the geotiff at each pixel's ground point\". The ground point is in the simulator's world projection, the geotiff is asked in its own: with a world projection in kilometres every pixel is sampled elsewhere. Proved in full: C94_values, C94_first_band."
  },
  {
   "property": "C95",
   "status": "partial",
   "theorems": [
    "Verif.Workflow.C95_igm",
    "Verif.Workflow.C95_data_false"
   ],
   "note": "The code breaks the full statement: C95_data_false: \"an IGM image can be made of any image\": one whose data are not in memory is an AttributeError, a two-dimensional one an IndexError - after the rays have been cast. Proved in full: C95_igm."
  },
  {
   "property": "C96",
   "status": "proved",
   "theorems": [
    "Verif.Workflow.C96_hemisphere"
   ],
   "note": "Proved for the whole quantifier: C96_hemisphere: The local UTM projection is a southern one exactly for points south of the equator; latitudes UTM does not cover are rejected."
  },
  {
   "property": "C97",
   "status": "partial",
   "theorems": [
    "Verif.Workflow.C97_p_matrices",
    "Verif.Workflow.C97_blank_false",
    "Verif.Workflow.C97_space_in_name"
   ],
   "note": "The code breaks the full statement: C97_blank_false: \"only the named files have an entry\": a blank line adds an entry without a name and without numbers. Proved in full: C97_p_matrices, C97_space_in_name."
  },
  {
   "property": "C98",
   "status": "partial",
   "theorems": [
    "Verif.Workflow.C98_shifts",
    "Verif.Workflow.C98_bounds",
    "Verif.Workflow.C98_ground_partial",
    "Verif.Workflow.C98_ground_false"
   ],
   "note": "The code breaks the full statement: C98_ground_false: \"the points move by that many metres\": at sixty degrees they move half as far. What is proved instead: C98_ground_partial: PARTIAL (spherical earth, eastward): a shift of `east` metres moves a point along its parallel, by `east \u00b7 cos(latitude)` metres on the ground. Proved in full: C98_shifts, C98_bounds."
  },
  {
   "property": "C99",
   "status": "partial",
   "theorems": [
    "Verif.Workflow.C99_pixels",
    "Verif.Workflow.C99_unchanged_partial",
    "Verif.Workflow.C99_in_place",
    "Verif.Workflow.C99_unchanged_false"
   ],
   "note": "The code breaks the full statement: C99_unchanged_false: \"the image passed in is left as it was\": a floating-point image comes back with the mean spectrum subtracted. What is proved instead: C99_unchanged_partial: PARTIAL (the caller's image is not a floating-point array in one piece): the image is left as it was. Proved in full: C99_pixels, C99_in_place."
  },
  {
   "property": "C100",
   "status": "proved",
   "theorems": [
    "Verif.ImageUtils.C100_uniform"
   ],
   "note": "Proved for the whole quantifier: C100_uniform: C100: the image has the requested number of rows, columns and bands; with one number every pixel of every band has it, with a list every pixel of band `b` has the list's entry `b` and the bands beyond the list are zero; a list with more entries than bands is an IndexError."
  },
  {
   "property": "C101",
   "status": "partial",
   "theorems": [
    "Verif.Readers.C101_files_partial",
    "Verif.Readers.C101_missing",
    "Verif.Readers.C101_order_false"
   ],
   "note": "The code breaks the full statement: C101_order_false: \"the files used are determined by the folder's content\": with two candidates the one listed first is used, and the order in which `glob` lists a folder is arbitrary. What is proved instead: C101_files_partial: C101: when exactly one text file of the library's folder has a name with \"wavelength\" or \"waves\" in it, and exactly one a name with \"resolution\" or \"bandpass\" (in any case), the spectrum is read with these two files. Proved in full: C101_missing."
  },
  {
   "property": "C102",
   "status": "proved",
   "theorems": [
    "Verif.TextUtils.C102_folders",
    "Verif.TextUtils.C102_path"
   ],
   "note": "Proved for the whole quantifier: C102_folders: C102: exactly the sub-folders are listed, in the order of the directory. | C102_path: C102: the parts of a path are joined with single slashes; an absolute part discards everything before it."
  },
  {
   "property": "C103",
   "status": "partial",
   "theorems": [
    "Verif.Setup.C103_loaded",
    "Verif.Setup.C103_unreadable",
    "Verif.Setup.C103_file_to_pixel_partial",
    "Verif.Setup.C103_short_false"
   ],
   "note": "The code breaks the full statement: C103_short_false: C103 fails for short files: a file with a coefficient list of fewer than twenty numbers is loaded, and only using the calculator is an error \u2014 for every ground point. What is proved instead: C103_file_to_pixel_partial: PARTIAL (nineteenth coefficients 0, see C23; at least twenty coefficients in each list): the pixel of a ground point is the standard rational polynomial evaluated with the values of the file's own entries. Proved in full: C103_loaded, C103_unreadable."
  },
  {
   "property": "C104",
   "status": "proved",
   "theorems": [
    "Verif.Setup.C104_wgs84",
    "Verif.Setup.C104_nadir",
    "Verif.Setup.C104_ifov_x",
    "Verif.Setup.C104_ifov_y",
    "Verif.Setup.C104_no_focal_length"
   ],
   "note": "Proved for the whole quantifier: C104_wgs84: C104: a camera given by its position in degrees is the camera given by the same position in the local UTM projection, stands there, and uses that projection; when the position has no UTM zone the call fails. | C104_nadir: C104: a camera looking straight down (omega and phi zero, any heading) sees the ground point at its own longitude and latitude, at every other altitude, in the middle of the array. | C104_ifov_x: C104: the field of view reported for a pixel, in any units, is an acute angle such that a point seen that far off the optical axis in the x direction falls exactly one pixel from the middle of the array."
  },
  {
   "property": "C105",
   "status": "partial",
   "theorems": [
    "Verif.Setup.C105_set_projection",
    "Verif.Setup.C105_agree_partial",
    "Verif.Setup.C105_after_set",
    "Verif.Setup.C105_added_false",
    "Verif.Setup.C105_no_projection",
    "Verif.Setup.C105_distortion_false"
   ],
   "note": "The code breaks the full statement: C105_added_false: C105 fails for a calculator added later: it keeps its own projection, the sensor model hands it coordinates in the sensor model's projection, and its answer is not the one the calculator gives itself. | C105_distortion_false: C105: the distortion model of a sensor model that has calculators cannot be set at all. What is proved instead: C105_agree_partial: C105, PARTIAL (calculators in the sensor model's own projection): a query for a band gives the answer the band's calculator itself gives to the same question, for any projection of the question. Proved in full: C105_set_projection, C105_after_set, C105_no_projection."
  },
  {
   "property": "C106",
   "status": "partial",
   "theorems": [
    "Verif.Setup.C106_pixel",
    "Verif.Setup.C106_missing",
    "Verif.Setup.C106_not_placed",
    "Verif.Setup.C106_zone_false"
   ],
   "note": "The code breaks the full statement: C106_zone_false: C106 fails for the projection: whatever the parameters and wherever the camera is placed, the calculator says it works in UTM zone 18, so two cameras at the same easting and northing of different zones cannot be told apart. Proved in full: C106_pixel, C106_missing, C106_not_placed."
  },
  {
   "property": "C107",
   "status": "partial",
   "theorems": [
    "Verif.Warp.C107_warp_partial",
    "Verif.Warp.C107_changes_ignored_false",
    "Verif.Warp.C107_stale_false",
    "Verif.Warp.C107_gdal_fails",
    "Verif.Warp.C107_closed",
    "Verif.Warp.C107_dem_partial",
    "Verif.Warp.C107_reverse",
    "Verif.Warp.C107_convert_reference_false",
    "Verif.Warp.C107_map_tiles_false"
   ],
   "note": "The code breaks the full statement: C107_changes_ignored_false: C107 fails for changes made in memory: for an image with an open file, whatever is set as its image data, the file's pixels are warped. | C107_stale_false: C107 fails when GDAL does and a file of the destination's name exists already, such as that of an earlier warp under the default name: that file is returned as if it were the result. | C107_convert_reference_false: C107 fails for `convert_reference`: it raises NameError for every DEM, file and code. | C107_map_tiles_false: C107 fails for `create_map_tiles`: it raises TypeError for every image. What is proved instead: C107_warp_partial: C107: an image with an open file, or made from an array: if GDAL warps its dataset, the result is the warped raster, which is also what the destination file (or the default name) holds; no other file changes. | C107_dem_partial: C107, height conversion of a DEM: after it the elevations are those of the warped raster, with NaN in exactly the cells holding the DEM's no-data value; the no-data value and the interpolation method are kept. Proved in full: C107_gdal_fails, C107_closed, C107_reverse."
  },
  {
   "property": "C108",
   "status": "partial",
   "theorems": [
    "Verif.Warp.C108_transparency",
    "Verif.Warp.C108_grid_warp",
    "Verif.Warp.C108_unknown_name",
    "Verif.Warp.C108_ortho_partial",
    "Verif.Warp.C108_not_loaded_false",
    "Verif.Warp.C108_ortho_unknown_name"
   ],
   "note": "The code breaks the full statement: C108_not_loaded_false: C108 fails for an image whose bands share one projection and which is not loaded: TypeError, although the function has a line that would read the band from disk. What is proved instead: C108_ortho_partial: C108, the orthorectifier: the bands either have a projection each and are read from disk, or share that of band 0 and are in memory; in both cases every pixel of the result is the resampled value, converted to the image's data type, at the position of its ground cell in the image, and the no-data value outside. Proved in full: C108_transparency, C108_grid_warp, C108_unknown_name, C108_ortho_unknown_name."
  },
  {
   "property": "C109",
   "status": "partial",
   "theorems": [
    "Verif.SpectrumObject.C109_last_set",
    "Verif.SpectrumObject.C109_live_arrays_false",
    "Verif.SpectrumObject.C109_data_copied",
    "Verif.SpectrumObject.C109_with_units_partial",
    "Verif.SpectrumObject.C109_data_with_units_partial",
    "Verif.SpectrumObject.C109_text_units_false",
    "Verif.SpectrumObject.C109_resampled_partial",
    "Verif.SpectrumObject.C109_missing_spreads_false",
    "Verif.SpectrumObject.C109_unit_lost_false",
    "Verif.SpectrumObject.C109_units_mixed_false",
    "Verif.SpectrumObject.C109_failures"
   ],
   "note": "The code breaks the full statement: C109_live_arrays_false: C109 fails for wavelengths and widths: unlike the spectral data they are returned as the stored array itself, so assigning to an entry of what the getter returned changes what it returns from then on. | C109_text_units_false: C109 fails with units for spectra from ENVI, SVC and csv files: these readers store the units as text (\"nanometers\", \"reflectance_0-1\"), and asking for wavelengths, widths or data with units then raises TypeError whenever there is an array; so it does without units. | C109_missing_spreads_false: C109 fails for missing values: one NaN or no-data value anywhere in the spectrum, even where every response function is zero, makes every band of the result NaN. | C109_unit_lost_false: C109 fails for the unit of the new spectrum's wavelengths: it is never set, so that asking for them with units raises TypeError. | C109_units_mixed_false: C109 fails when the spectrum and the response functions have different wavelength units, such as nanometres from an SVC file and micrometres: the numbers are compared as they are, whatever the units stored; if all wavelengths of the spectrum are larger numbers than those of a response, that band is NaN. What is proved instead: C109_with_units_partial: C109, with units: for wavelengths, widths and data stored with a pint unit the result has the stored values (for data: as the getter without units reports them) and that unit, and is a new array; nothing else changes. | C109_data_with_units_partial: C109, with units, for the spectral data. | C109_resampled_partial: C109, resampling: the new spectrum has the given band centres as its wavelengths, one value per response function (that of C51 for data without missing values), and the spectrum's units; no array or spectrum that existed is changed. Proved in full: C109_last_set, C109_data_copied, C109_failures."
  },
  {
   "property": "C110",
   "status": "partial",
   "theorems": [
    "Verif.Shapes.C110_image_size",
    "Verif.Shapes.C110_size_iff",
    "Verif.Shapes.C110_four_axes_false",
    "Verif.Shapes.C110_too_few_axes",
    "Verif.Shapes.C110_cube_size",
    "Verif.Shapes.C110_cubes",
    "Verif.Shapes.C110_chips",
    "Verif.Shapes.C110_resize",
    "Verif.Shapes.C110_resize_same",
    "Verif.Shapes.C110_resize_refused",
    "Verif.Shapes.C110_gdal_grid_false"
   ],
   "note": "The code breaks the full statement: C110_four_axes_false: C110 fails for arrays that are no images because they have too many axes: they are not refused. | C110_gdal_grid_false: C110 fails for `gdal_grid_image_band`: it raises TypeError for every image. Proved in full: C110_image_size, C110_size_iff, C110_too_few_axes, C110_cube_size, C110_cubes, C110_chips, C110_resize, C110_resize_same, C110_resize_refused."
  },
  {
   "property": "C111",
   "status": "partial",
   "theorems": [
    "Verif.ImageObjects.C111_read_all_partial",
    "Verif.ImageObjects.C111_written_partial",
    "Verif.ImageObjects.C111_failures",
    "Verif.ImageObjects.C111_stale_header_false"
   ],
   "note": "The code breaks the full statement: C111_stale_header_false: C111 fails when the header chosen is not the raster's: an image opened on a file just written, beside which the header of another image with the shorter name lies, has that image's sizes; reading then returns fewer bands than were written without any exception. What is proved instead: C111_read_all_partial: C111: when the header names at most the bands of the raster, `read_all_image_data_from_disk` returns exactly that many of the raster's bands, from the first, and `read_band_from_disk(b)` is band `b` of them. | C111_written_partial: C111: written by `write_envi_image` and opened as an `EnviImage`: when no header of the shorter name lies beside it and GDAL reads the raster that was written, the image has the written sizes and reading it gives the written array. Proved in full: C111_failures."
  },
  {
   "property": "C113",
   "status": "partial",
   "theorems": [
    "Verif.ImageObjects.C113_attributes",
    "Verif.ImageObjects.C113_unset_false",
    "Verif.ImageObjects.C113_from_file",
    "Verif.ImageObjects.C113_not_with_gdal",
    "Verif.ImageObjects.C113_from_array",
    "Verif.ImageObjects.C113_igm",
    "Verif.ImageObjects.C113_metadata_false"
   ],
   "note": "The code breaks the full statement: C113_unset_false: C113: an attribute never assigned reads as the abstract class itself, an object no check for None notices. | C113_metadata_false: C113 fails: metadata and data need not agree: for every array there are metadata, and for IGM images a number of bands, that contradict it and are accepted. Proved in full: C113_attributes, C113_from_file, C113_not_with_gdal, C113_from_array, C113_igm."
  },
  {
   "property": "C114",
   "status": "partial",
   "theorems": [
    "Verif.ImageObjects.C114_attributes_partial",
    "Verif.ImageObjects.C114_unset_false"
   ],
   "note": "The code breaks the full statement: C114_unset_false: C114 fails before an assignment: asking for a projection or reference that was never assigned is an AttributeError, though the base class declares defaults: so for every constant-elevation DEM as the factory makes it. What is proved instead: C114_attributes_partial: C114: after any history of assignments a DEM has the projection and the vertical reference assigned last, each independent of the other."
  },
  {
   "property": "C112",
   "status": "proved",
   "theorems": [
    "Verif.Training.C112_epochs",
    "Verif.Training.C112_labels",
    "Verif.Training.C112_label_file",
    "Verif.Training.C112_failures"
   ],
   "note": "Proved for the whole quantifier: C112_epochs: C112: every epoch of every training uses every training image exactly once and every validation image exactly once, each with its own label, in batches of the requested size (the last one may be smaller, none is empty). | C112_labels: C112: the images of a directory are exactly those in its sub-folders, each labelled with the number of its folder in the order of names. | C112_label_file: C112: the label file written beside the model, read back, names for every class the label its training images had."
  },
  {
   "property": "C115",
   "status": "proved",
   "theorems": [
    "Verif.Training.C115_freeze",
    "Verif.Training.C115_unfreeze",
    "Verif.Training.C115_transfer",
    "Verif.Training.C115_separate_networks"
   ],
   "note": "Proved for the whole quantifier: C115_freeze: C115: freezing (unfreezing) a model makes all of its layers untrainable (trainable) and leaves every layer that is not in it alone. | C115_unfreeze: C115: unfreezing what was frozen makes the whole model trainable again, whatever it was before. | C115_transfer: C115: a network loaded without its classification layers, frozen, and trained with new final layers: the training changes exactly the four new layers; without freezing it changes all; frozen and trained without new layers it changes nothing."
  },
  {
   "property": "C116",
   "status": "proved",
   "theorems": [
    "Verif.Training.C116_best_model"
   ],
   "note": "Proved for the whole quantifier: C116_best_model: C116: the model file holds the model after the first epoch of lowest validation loss; it is not written exactly when no epoch had a loss that is a number."
  },
  {
   "property": "C117",
   "status": "partial",
   "theorems": [
    "Verif.Training.C117_validation_labels_partial",
    "Verif.Training.C117_validation_false"
   ],
   "note": "The code breaks the full statement: C117_validation_false: C117 fails when the validation directory has as many folders under other names: nothing is raised, and validation images of a class known from training count as another class. What is proved instead: C117_validation_labels_partial: C117: validation and training images of one class have the same label if both directories have folders of the same names, and with equally many folders only then."
  },
  {
   "property": "C118",
   "status": "partial",
   "theorems": [
    "Verif.Training.C118_final_layers_partial",
    "Verif.Training.C118_include_top_false"
   ],
   "note": "The code breaks the full statement: C118_include_top_false: C118 fails for a network loaded the default way, with its own classification layers: the final layers cannot be put on it (ValueError). What is proved instead: C118_final_layers_partial: C118: on every network loaded without its classification layers the final layers can be put, after freezing or not: the result has the network's layers, four more, and a score per class."
  },
  {
   "property": "C119",
   "status": "partial",
   "theorems": [
    "Verif.Training.C119_own_optimizer_partial",
    "Verif.Training.C119_default_optimizer_false"
   ],
   "note": "The code breaks the full statement: C119_default_optimizer_false: C119 fails with the default optimizer: of any sequence of trainings every one but the first starts with an optimizer that has already counted the steps of all before it. What is proved instead: C119_own_optimizer_partial: C119: with an optimizer of its own a training counts its own steps, one per batch: epochs times batches per epoch."
  },
  {
   "property": "C120",
   "status": "proved",
   "theorems": [
    "Verif.Chipper.C120_given_names",
    "Verif.Chipper.C120_too_few_names"
   ],
   "note": "Proved for the whole quantifier: C120_given_names: C120. Chips written under given names: when there are at least as many names as chips and the first ones are different relative names, the call succeeds, chip `k` is in the file `<dir>/<name k>.<format>` (the format with or without its leading dot), and no other file changes. | C120_too_few_names: C120: a list with fewer names than chips is an IndexError."
  },
  {
   "property": "C121",
   "status": "proved",
   "theorems": [
    "Verif.ImageUtils.C121_resampled",
    "Verif.ImageUtils.C121_refined",
    "Verif.ImageUtils.C121_degenerate"
   ],
   "note": "Proved for the whole quantifier: C121_resampled: C121: with `n_bins = m` colours the image is coloured with a palette whose colour `i` is the given palette's colour at the fraction `i / (m - 1)` of its length. In continuous mode a pixel between the limits is at its own fraction of that palette, pixels beyond the limits have its first or last colour; in discrete mode a pixel has the colour of the bin, of `m` equal ones, in which it lies. | C121_refined: C121, continuous mode: resampling to a number of colours that refines the palette evenly (`m - 1` a multiple of `n - 1`, in particular `m = n`) does not change the picture. | C121_degenerate: C121: no bins at all are a ValueError, a single bin is an IndexError (for a palette of at least one colour)."
  },
  {
   "property": "C122",
   "status": "proved",
   "theorems": [
    "Verif.OrthoFile.C122_orthophoto_file",
    "Verif.OrthoFile.C122_on_raster"
   ],
   "note": "Proved for the whole quantifier: C122_orthophoto_file: C122. An orthophoto of a loaded image with co-registered bands can be written and opened again. In the file every ground point that lies on the raster shows, in every requested band, the source image at (the elevation of) a ground point `q` less than one and a half output pixels away in each direction: the no-data value when `q` is outside the source, the resampled value of the band when it is at least two pixels ... | C122_on_raster: C122: the ground points that lie on the raster, whatever the file: those of the extent less its last column and row, one part in the number of columns and rows plus one."
  },
  {
   "property": "C123",
   "status": "partial",
   "theorems": [
    "Verif.OrthoFile.C123_transparency_partial",
    "Verif.OrthoFile.C123_dark_false",
    "Verif.OrthoFile.C123_unrepresentable_false"
   ],
   "note": "The code breaks the full statement: C123_dark_false: C123 fails at dark pixels: a pixel at least two pixels inside the source whose first band happens to have the no-data value is transparent. | C123_unrepresentable_false: C123 fails for a no-data value the data type cannot hold (such as -1 for bytes): every pixel outside the source is opaque. What is proved instead: C123_transparency_partial: C123 (partial): for a no-data value of the image's data type, the transparency band is 0 wherever the output pixel falls outside the source, and 255 wherever it falls at least two pixels inside and the first requested band has another value there; the other bands are those of the plain orthophoto."
  },
  {
   "property": "C124",
   "status": "proved",
   "theorems": [
    "Verif.Collect.C124_standard_files",
    "Verif.Collect.C124_endings_differ",
    "Verif.Collect.C124_no_file",
    "Verif.Collect.C124_refused",
    "Verif.Collect.C124_calculator"
   ],
   "note": "Proved for the whole quantifier: C124_standard_files: C124: a directory with one file of each kind needs no file names: the files with the standard endings are read. | C124_endings_differ: C124: a file is of one kind only: no name has two of the endings. | C124_no_file: C124: when of one of the four kinds neither a name is given nor a file exists, the call is an IndexError (nothing is read)."
  },
  {
   "property": "C125",
   "status": "proved",
   "theorems": [
    "Verif.Exif.C125_calendar",
    "Verif.Exif.C125_leap_dates",
    "Verif.Exif.C125_exif_time",
    "Verif.Exif.C125_exif_outcomes",
    "Verif.Exif.C125_timestamp",
    "Verif.Exif.C125_order"
   ],
   "note": "Proved for the whole quantifier: C125_calendar: C125: Unix time is the count of civil seconds from 1970-01-01 00:00:00 on: this second is 0 and each next second of the calendar is one more (which determines it), and exactly the dates of the calendar are accepted. | C125_leap_dates: C125: the dates of the leap seconds known to the conversion are the civil dates listed in the source, in Unix time. | C125_exif_time: C125: the tag `YYYY:MM:DD hh:mm:ss` (whatever the separators) is the Unix time of that date; a date that does not exist is a ValueError."
  },
  {
   "property": "C126",
   "status": "partial",
   "theorems": [
    "Verif.IntImages.C126_same_as_floats_partial",
    "Verif.IntImages.C126_overflow_false",
    "Verif.IntImages.C126_iff_partial",
    "Verif.IntImages.C126_empty",
    "Verif.IntImages.C126_discrete_partial",
    "Verif.IntImages.C126_discrete_false"
   ],
   "note": "The code breaks the full statement: C126_overflow_false: C126 fails for every image of signed integers whose range does not fit its type (for instance int16 data from -20000 to 20000) and that has a third value: **every** pixel strictly between the extremes leaves the requested range: it goes below it when it is less than `2 ^ (bits - 1)` above the smallest value, and above it otherwise. | C126_discrete_false: C126 fails for discrete colours too: when the range of an image of signed integers does not fit its type, every pixel gets the last colour (palettes of two colours or more). What is proved instead: C126_same_as_floats_partial: C126 (partial: the range of the image must fit its own type, see `C126_overflow_false`): an image of unsigned integers, or of signed integers whose values are less than `2 ^ (bits - 1)` apart, is normalised as the same image of floats would be. | C126_iff_partial: C126: hence an image of signed integers keeps its floats' normalisation exactly when its range fits its type or it has no value strictly between its smallest and largest. | C126_discrete_partial: C126, discrete colours with default limits: when the range fits the type (always for unsigned types) a pixel gets the colour the same image of floats would give it. Proved in full: C126_empty."
  },
  {
   "property": "C127",
   "status": "partial",
   "theorems": [
    "Verif.IntImages.C127_same_as_floats_partial",
    "Verif.IntImages.C127_same_type_partial",
    "Verif.IntImages.C127_unsigned_iff_partial",
    "Verif.IntImages.C127_overflow_false",
    "Verif.IntImages.C127_multiples_false",
    "Verif.IntImages.C127_self_false",
    "Verif.IntImages.C127_wrong_length"
   ],
   "note": "The code breaks the full statement: C127_overflow_false: C127 fails for unsigned images: a sample that is exactly the target, with a square that does not fit the type, never gets the score 1: it gets more than 1, or none at all. | C127_multiples_false: C127 fails for unsigned images of an even number of bits: a sample whose values are multiples of `2 ^ (bits / 2)` (256, 512, ... in uint16) has no finite score, whatever the target. | C127_self_false: C127 fails when a sample of an unsigned image is the target itself, of the image's type: if the squares fit but their sum does not, the score is less than 1 (or none), although the sample is the target. What is proved instead: C127_same_as_floats_partial: C127 (partial: the squares of the values must fit the image's type, see `C127_overflow_false`): for a target of floats, a sample of an image of integers gets the score of the same image of floats when the squares of its values fit the image's type. | C127_same_type_partial: C127: an image of integers and a target of the same type: the score is that of floats when moreover the two inner products with the target fit. | C127_unsigned_iff_partial: C127, unsigned types and a target of floats, exactly: the score of a sample that has one is the cosine of its angle to the target if and only if all squares of its values fit the type or the sample is orthogonal to the target; otherwise the score is farther from zero than the cosine. Proved in full: C127_wrong_length."
  },
  {
   "property": "C128",
   "status": "partial",
   "theorems": [
    "Verif.Collect.C128_contents_partial",
    "Verif.Collect.C128_rotation_false"
   ],
   "note": "The code breaks the full statement: C128_rotation_false: C128 fails for the rotation matrices: the dictionary has one entry 'r_matrix_computed', the matrix of the last image's angles (none when there is no image). The matrix computed for any image whose matrix differs from the last one's is nowhere in the dictionary. What is proved instead: C128_contents_partial: C128, the part that holds: wherever `make_master_dict` finds and reads its files, the dictionary holds under 'projection' what osr and pyproj make of the projection file (their exception is passed on), and under every other name except 'r_matrix_computed' exactly the image entries of C82 and C124: no image can be called by one of the two special names. Missing from the full statement: the rotation matrices, see ..."
  },
  {
   "property": "C129",
   "status": "partial",
   "theorems": [
    "Verif.Rounded.C129_partial",
    "Verif.Rounded.C129_count",
    "Verif.Rounded.C129_power_of_two",
    "Verif.Rounded.C129_zero_scale",
    "Verif.Rounded.C129_false"
   ],
   "note": "The code breaks the full statement: C129_false: C129 fails of the code: with scale factor 49 an image of 5 columns gives 246 grid columns, not `ceil(5 * 49) = 245`, and the last one is at 5.0, outside the image. What is proved instead: C129_partial: C129, what holds of every positive scale factor: the grid has the exact number of rows and columns or one more or less; entry `(j, i)` is off by at most `2u + u\u00b2` of the exact `(i/s, j/s)`, never negative and never beyond `(nx, ny)`; entries do not decrease along the axes. Missing: the exact counts, and entries strictly below `(nx, ny)` (`C129_false`). Proved in full: C129_count, C129_power_of_two, C129_zero_scale."
  },
  {
   "property": "C130",
   "status": "partial",
   "theorems": [
    "Verif.Rounded.C130_error_partial",
    "Verif.Rounded.C130_ends",
    "Verif.Rounded.C130_monotone",
    "Verif.Rounded.C130_symmetric",
    "Verif.Rounded.C130_cast",
    "Verif.Rounded.C130_false"
   ],
   "note": "The code breaks the full statement: C130_false: C130 fails of the code: blending two pixels of value 255 with weight 0.08 gives a pixel above 255, and with weight 0.04 a pixel below 255 (254 after a cast to an integer type). What is proved instead: C130_error_partial: C130, accuracy: for a weight `0 \u2264 w \u2264 1` and pixels of magnitude at most `M` every computed pixel is within `((1+u)\u00b3 - 1) M` of the exact blend. Missing: the computed pixel need not lie between the two images' pixels (`C130_false`). Proved in full: C130_ends, C130_monotone, C130_symmetric, C130_cast."
  },
  {
   "property": "C131",
   "status": "partial",
   "theorems": [
    "Verif.Rounded.C131_partial",
    "Verif.Rounded.C131_range",
    "Verif.Rounded.C131_integer_range",
    "Verif.Rounded.C131_constant_image",
    "Verif.Rounded.C131_false"
   ],
   "note": "The code breaks the full statement: C131_false: C131 fails of the code: normalising the image `[[0, 1]]` to the range from 0.3 to 0.9 sends its largest pixel to 0.9000000000000001, above the requested maximum. What is proved instead: C131_partial: C131, what holds of every range: for a non-constant image every pixel of the result is finite, at least `new_min` and at most `(new_max - new_min) + new_min` as the machine computes it; smallest pixels go to `new_min` exactly, largest ones to that upper end; the order of pixel values is preserved; and each value is within `((1+u)\u2075/(1-u) - 1) (|new_min| + new_max - new_min)` of the exact one. Missing: the upper end ... Proved in full: C131_range, C131_integer_range, C131_constant_image."
  },
  {
   "property": "C132",
   "status": "partial",
   "theorems": [
    "Verif.Rounded.C132_error_partial",
    "Verif.Rounded.C132_zero",
    "Verif.Rounded.C132_out_of_range",
    "Verif.Rounded.C132_false"
   ],
   "note": "The code breaks the full statement: C132_false: C132 fails of the code: with records 0 at time 0 and 0.1 at time 0.1, the time 0.1 of the second record gives 0.10000000000000002, not the recorded 0.1, and more than both records. What is proved instead: C132_error_partial: C132: for records at increasing times every queried time in range gets a finite value within `((1+u)\u2074/(1-u) - 1) max(|y_k|, |y_k+1|)` of the exact interpolation between the records around it, however large the times are and however close the records. Missing: the recorded value itself at the time of a record, and values between those of the records around (`C132_false`). Proved in full: C132_zero, C132_out_of_range."
  },
  {
   "property": "C133",
   "status": "partial",
   "theorems": [
    "Verif.Rounded.C133_partial",
    "Verif.Rounded.C133_exact",
    "Verif.Rounded.C133_false"
   ],
   "note": "The code breaks the full statement: C133_false: C133 fails of the code: an extent 0.5 wide holds four whole pixels of size 0.1 (the float 0.1 is a little more than a tenth), but the computed count is 5. What is proved instead: C133_partial: C133: for positive pixel sizes both computed counts are those of the exact division or off by one, as long as the exact quotients stay below `1 / (2u + u\u00b2)` (about 2^52 pixels). Missing: the exact counts (`C133_false`). Proved in full: C133_exact."
  },
  {
   "property": "C134",
   "status": "proved",
   "theorems": [
    "Verif.Rounded.C134_exact",
    "Verif.Rounded.C134_increasing",
    "Verif.Rounded.C134_roundtrip"
   ],
   "note": "Proved for the whole quantifier: C134_exact: C134: converting a float timestamp to GPS time, and the result back to UTC, involves no rounding: the answers are those of exact arithmetic. | C134_increasing: C134: hence the order of float timestamps is kept, strictly: two timestamps that differ by a quarter of a microsecond stay different. | C134_roundtrip: C134: hence UTC to GPS and back gives the same float, whenever no leap second follows within as many seconds as were inserted before."
  },
  {
   "property": "C135",
   "status": "proved",
   "theorems": [
    "Verif.Rounded.C135_decomposes",
    "Verif.Rounded.C135_microsecond",
    "Verif.Rounded.C135_whole_seconds",
    "Verif.Rounded.C135_seconds_below_week",
    "Verif.Rounded.C135_not_exact"
   ],
   "note": "Proved for the whole quantifier: C135_decomposes: C135: the computed week and seconds decompose the GPS time up to `u g + (2u + u\u00b2) 604800` (for float64 and today's dates a fifth of a microsecond); the seconds are between 0 and 604800; the week is the right one unless the time is within `u g` of the turn of a week. `C135_not_exact` shows that the error is not always zero. | C135_microsecond: C135 in float64, for timestamps before 2038: week and seconds decompose the GPS time within a microsecond. | C135_whole_seconds: C135 for whole seconds: the week number is exact and the seconds are off by at most `u g + (2u + u\u00b2) 604800`."
  },
  {
   "property": "C136",
   "status": "proved",
   "theorems": [
    "Verif.Rounded.C136_forward",
    "Verif.Rounded.C136_inverse",
    "Verif.Rounded.C136_monotone",
    "Verif.Rounded.C136_roundtrip",
    "Verif.Rounded.C136_pixel_recovered",
    "Verif.Rounded.C136_truncation"
   ],
   "note": "Proved for the whole quantifier: C136_forward: C136: the world position of a pixel is off by at most `((1+u)\u00b3 - 1)` times the size of the summed terms, for every geotransform. | C136_inverse: C136: the pixel position of a world point is off by at most `((1+u)\u00b3 - 1)` times the size of the summed terms, for every inverse geotransform `i` used, rotated ones too. | C136_monotone: C136: pixels to the right are never computed to lie to the left, and pixels below never above."
  },
  {
   "property": "C137",
   "status": "proved",
   "theorems": [
    "Verif.Rounded.C137_degenerate",
    "Verif.Rounded.C137_error",
    "Verif.Rounded.C137_monotone",
    "Verif.Rounded.C137_inside",
    "Verif.Rounded.C137_tiny_cells"
   ],
   "note": "Proved for the whole quantifier: C137_degenerate: C137: with fewer than two rows or columns the call is an IndexError, and only then. | C137_error: C137: in float arithmetic (`p \u2265 8` bits) every grid point is within `10 u (|min| + width)` of the centre of its cell, for extents of any size and position and grids of up to `2^p` rows and columns. | C137_monotone: C137: positions never run backwards: they do not decrease to the right and do not increase downward."
  },
  {
   "property": "C138",
   "status": "proved",
   "theorems": [
    "Verif.Jobs.C138_crash",
    "Verif.Jobs.C138_repeat",
    "Verif.Jobs.C138_complete"
   ],
   "note": "Proved for the whole quantifier: C138_crash: C138: stopped at any moment, `write_chips_to_disk` has written the first chips completely, at most one more chip is opened and incomplete, and every other file is as it was. | C138_repeat: C138: repeating the interrupted call gives the disk the uninterrupted call would have given (with generated or given names). | C138_complete: C138: a call that ends without exception leaves every file complete, and what it leaves is what `write_chips_to_disk` returns for the files before."
  },
  {
   "property": "C139",
   "status": "proved",
   "theorems": [
    "Verif.Jobs.C139_parallel"
   ],
   "note": "Proved for the whole quantifier: C139_parallel: C139: several calls of `write_chips_to_disk` at the same time, no two with the same directory, base name and format. At any moment of any schedule the files of each call are what a call running alone and stopped somewhere would have left; a call that has come to its end has written all its chips; no other file has changed."
  },
  {
   "property": "C140",
   "status": "partial",
   "theorems": [
    "Verif.Jobs.C140_working_dir",
    "Verif.Jobs.C140_make_dir_partial",
    "Verif.Jobs.C140_race_false",
    "Verif.Jobs.C140_own_dir_partial"
   ],
   "note": "The code breaks the full statement: C140_race_false: C140 is false of `make_dir_if_not_exists`: of two processes making a missing directory in an existing one, both may find it missing; the second then ends with FileExistsError. What is proved instead: C140_make_dir_partial: C140 (partial): `make_dir_if_not_exists` among any other processes that make directories, whatever the schedule: it finishes, the directory is there, and the only error it can end with is FileExistsError. Missing: that there is no error (`C140_race_false`). | C140_own_dir_partial: C140 (partial): when no other process makes the directory itself - they may make the directories it is in, or others next to it - `make_dir_if_not_exists` finishes without error whatever the schedule, and the directory is there. Proved in full: C140_working_dir."
  },
  {
   "property": "C141",
   "status": "partial",
   "theorems": [
    "Verif.TextUtils.C141_first_lines_partial",
    "Verif.TextUtils.C141_cut_false"
   ],
   "note": "The code breaks the full statement: C141_cut_false: C141 is false: a file that lacks only the last letter is read without complaint, as the same list with a shorter last line. What is proved instead: C141_first_lines_partial: C141 (partial): when `write_text_list_to_file` was stopped, so that the file holds only the beginning of what was to be written, `read_text_list_from_file` returns the first lines and then at most one line that is the beginning of the next. Missing: that an incomplete list is not returned at all (`C141_cut_false`)."
  },
  {
   "property": "C142",
   "status": "partial",
   "theorems": [
    "Verif.TrainFiles.C142_between_epochs_partial",
    "Verif.TrainFiles.C142_label_file",
    "Verif.TrainFiles.C142_passes",
    "Verif.TrainFiles.C142_anywhere_partial",
    "Verif.TrainFiles.C142_torn_false"
   ],
   "note": "The code breaks the full statement: C142_torn_false: C142 is false: while the model of a better epoch is written, the best model so far, already complete, is gone. What is proved instead: C142_between_epochs_partial: C142 (partial): stopped between two epochs, after `m` of them, the model file holds the model of the best epoch so far - or what it held before, when no epoch had a loss that is a number - and the label file is complete; every other file is as before. | C142_anywhere_partial: C142 (partial): stopped anywhere, the model file is as before, or incomplete, or holds the model of an epoch whose loss is lower than those of all epochs before it. Missing: that it is complete (`C142_torn_false`). Proved in full: C142_label_file, C142_passes."
  },
  {
   "property": "C143",
   "status": "partial",
   "theorems": [
    "Verif.TrainFiles.C143_last_training_partial",
    "Verif.TrainFiles.C143_resume_false",
    "Verif.TrainFiles.C143_repeat"
   ],
   "note": "The code breaks the full statement: C143_resume_false: C143 is false: training goes on in the same directory (from the saved weights, say), and the first epoch that has a loss replaces the better model that was there. What is proved instead: C143_last_training_partial: C143 (partial): a complete training leaves in its directory the best model of its own epochs, whatever was there before. Missing: that a model already there with a lower loss is kept (`C143_resume_false`). Proved in full: C143_repeat."
  },
  {
   "property": "C144",
   "status": "partial",
   "theorems": [
    "Verif.TrainFiles.C144_same_classes_partial",
    "Verif.TrainFiles.C144_other_classes_false",
    "Verif.TrainFiles.C144_complete"
   ],
   "note": "The code breaks the full statement: C144_other_classes_false: C144 is false: training with other classes in the directory of an earlier model overwrites the label file at once; until the first epoch is saved - and for good when no epoch has a loss that is a number - the old model stands next to the new labels. What is proved instead: C144_same_classes_partial: C144 (partial): in a directory without a model, or with one of the same labels, label file and model belong together wherever the training is stopped. Missing: directories with a model of other classes (`C144_other_classes_false`). Proved in full: C144_complete."
  },
  {
   "property": "C145",
   "status": "partial",
   "theorems": [
    "Verif.Micasense.C145_history",
    "Verif.Micasense.C145_kept_partial",
    "Verif.Micasense.C145_reused_names_false",
    "Verif.Micasense.C145_fresh"
   ],
   "note": "The code breaks the full statement: C145_reused_names_false: \"an image goes on reading its own data\": a second image made in the same folder under the same names replaces the first one's. What is proved instead: C145_kept_partial: C145: a band of an image made earlier is read back as it was, by position or counted from the end, when neither a later band of the same call nor any later call writes to its file. Proved in full: C145_history, C145_fresh."
  },
  {
   "property": "C146",
   "status": "partial",
   "theorems": [
    "Verif.Micasense.C146_effect",
    "Verif.Micasense.C146_same",
    "Verif.Micasense.C146_failed_call_false"
   ],
   "note": "The code breaks the full statement: C146_failed_call_false: \"a call that raises leaves the disk as it was\": with one name too few, the file of the first band has been overwritten. Proved in full: C146_effect, C146_same."
  },
  {
   "property": "C147",
   "status": "partial",
   "theorems": [
    "Verif.Warp.C147_other_dems",
    "Verif.Warp.C147_own_image_partial",
    "Verif.Warp.C147_shared_image_false"
   ],
   "note": "The code breaks the full statement: C147_shared_image_false: \"converting a DEM's heights leaves the image it was made from usable, and other DEMs of that image\". After the conversion of any DEM the image it had can no longer be read; another DEM that had the same image can no longer be converted (unless the image's data had been loaded), and no DEM can be made from it. What is proved instead: C147_own_image_partial: PARTIAL (an image no DEM has): it stays open with its data, whatever is done with the DEMs and with other images, as long as it is not closed or set in a DEM. Proved in full: C147_other_dems."
  },
  {
   "property": "C148",
   "status": "partial",
   "theorems": [
    "Verif.Warp.C148_conversion_partial",
    "Verif.Warp.C148_unreadable_image_false",
    "Verif.Warp.C148_no_image",
    "Verif.Warp.C148_integer_image_false",
    "Verif.Warp.C148_set"
   ],
   "note": "The code breaks the full statement: C148_unreadable_image_false: \"a `set_geotiff_image` that raises leaves the DEM as it was\". Given an image that cannot be read from disk (closed, or made from an array) it raises AttributeError, and the DEM is left with the old elevations and the new image, by whose georeferencing they are looked up from then on. | C148_integer_image_false: \"a DEM never reports its no-data value as an elevation\" after an error. A DEM with a no-data value in force that is given a raster of integers raises ValueError, and is left with that raster, its no-data cells unmasked. What is proved instead: C148_conversion_partial: C148: a height conversion that raises before the new raster is opened leaves every DEM and every image as it was. Proved in full: C148_no_image, C148_set."
  },
  {
   "property": "C149",
   "status": "partial",
   "theorems": [
    "Verif.Geotiff.C149_kept_partial",
    "Verif.Geotiff.C149_created_partial",
    "Verif.Geotiff.C149_exact",
    "Verif.Geotiff.C149_two_images_false"
   ],
   "note": "The code breaks the full statement: C149_two_images_false: \"images made from one list, changed between them, keep their own georeferencing\": the first image's pixels are placed where the second one's are, whatever the geotransforms, and its world-to-pixel queries are still answered for the place it was made for. What is proved instead: C149_kept_partial: PARTIAL (the list is not assigned to afterwards): from the `set_geot` on, whatever else the program does, pixel to world is the geotransform given, and world to pixel its inverse, until the next `set_geot` on that calculator. | C149_created_partial: the same from the calculator's creation on. Proved in full: C149_exact."
  },
  {
   "property": "C150",
   "status": "proved",
   "theorems": [
    "Verif.Envi.C150_parallel",
    "Verif.Envi.C150_own_progress",
    "Verif.Envi.C150_other_files",
    "Verif.Envi.C150_history"
   ],
   "note": "Proved for the whole quantifier: C150_parallel: C150. Images written at the same time by any number of processes, in any order of their effects: at every moment, a 'bil' image of a supported type whose call has returned is read back identical, when no other call writes to its data or header file, whatever files existed before, whatever the other calls are doing, and whether or not they succeed. | C150_own_progress: C150: as long as a call has not begun, the image stored under its name is the one stored there before: at every moment its files are as some beginning of its own effects leaves them. | C150_other_files: C150: files none of the calls writes to are never touched."
  },
  {
   "property": "C151",
   "status": "partial",
   "theorems": [
    "Verif.Envi.C151_same_image_partial",
    "Verif.Envi.C151_false"
   ],
   "note": "The code breaks the full statement: C151_false: C151: two processes that write different images, of the same shape and type, under the same name at the same time can leave an image that is neither, and reading it back reports nothing. What is proved instead: C151_same_image_partial: C151, partial. Any number of processes write the *same* image under the same name (the same call made twice, say), while others write elsewhere, byte by byte and in any order: when all have returned, the image is read back. Missing: different images under one name (`C151_false`); and while somebody is still writing."
  },
  {
   "property": "C152",
   "status": "partial",
   "theorems": [
    "Verif.CalcObject.C152_factories_partial",
    "Verif.CalcObject.C152_geotiff",
    "Verif.CalcObject.C152_opencv_false",
    "Verif.CalcObject.C152_opencv_centre",
    "Verif.CalcObject.C152_sensor_model_false",
    "Verif.CalcObject.C152_micasense_pix4d",
    "Verif.CalcObject.C152_micasense_opencv_false",
    "Verif.CalcObject.C152_micasense_none"
   ],
   "note": "The code breaks the full statement: C152_opencv_false: C152: an OpenCV calculator, which has no method of its own, has no centre either: every call raises TypeError, until somebody gives it a centre. | C152_sensor_model_false: C152: a bare sensor model fails whatever it is asked, even for bands with their own method. | C152_micasense_opencv_false: C152: one made from OpenCV calculators has no centre: no pixel of it can be located. What is proved instead: C152_factories_partial: C152, partial. Calculators made from RPCs, pix4d parameters, pinhole parameters or an IGM: every pixel-to-world call gives the position the calculator's own method gives or, where it has none, the solver's answer from the centre the factory knows, expressed in the projection asked for (the calculator's own when none is); it fails only when that method or the solver does. Missing: OpenCV calculators and bare sensor ... Proved in full: C152_geotiff, C152_opencv_centre, C152_micasense_pix4d, C152_micasense_none."
  },
  {
   "property": "C153",
   "status": "partial",
   "theorems": [
    "Verif.CalcObject.C153_last_set_partial",
    "Verif.CalcObject.C153_unassigned_false"
   ],
   "note": "The code breaks the full statement: C153_unassigned_false: C153: the centre of a GeoTIFF calculator is not None before it is set: reading it raises AttributeError; so does reading the projection of one that was not made by a factory. What is proved instead: C153_last_set_partial: C153. After any history of setters on a calculator from any factory, the projection and the centre read are those last set, or else the factory's, or None; the one does not touch the other, nor whether the bands are coregistered. Partial: for the factories that leave an attribute unassigned see `C153_unassigned_false`."
  },
  {
   "property": "C154",
   "status": "partial",
   "theorems": [
    "Verif.Nav.C154_factory_eo",
    "Verif.Nav.C154_factory_sbet",
    "Verif.Nav.C154_keywords",
    "Verif.Nav.C154_history_exact_partial",
    "Verif.Nav.C154_new",
    "Verif.Nav.C154_reload_false",
    "Verif.Nav.C154_sbet_partial"
   ],
   "note": "The code breaks the full statement: C154_reload_false: C154 is false of a load that raises: given a file that can be read and projection arguments pyproj refuses, the call raises, and the object now has the new file's records with the old projection. What is proved instead: C154_history_exact_partial: C154, exactly, after any history of loads of exterior-orientation files into one object (calls that raise included): the records are those of the last call that could read its file, the projection is that of the last call that did not raise. | C154_sbet_partial: C154, trajectory files: a call that raises leaves the object as it was when pdal could not read the file; without an array only the number of records is new; when pyproj refused the arguments the records are new and the projection old; a call that does not raise replaces both. Proved in full: C154_factory_eo, C154_factory_sbet, C154_keywords, C154_new."
  },
  {
   "property": "C155",
   "status": "proved",
   "theorems": [
    "Verif.FloatSpectral.C155_defined",
    "Verif.FloatSpectral.C155_error",
    "Verif.FloatSpectral.C155_demean_error",
    "Verif.FloatSpectral.C155_demean_shape",
    "Verif.FloatSpectral.C155_integers"
   ],
   "note": "Proved for the whole quantifier: C155_defined: An image with at least one sample has a mean in every band; one without samples has none. | C155_error: The computed mean is off by at most `(1+u)^n - 1` times the mean absolute value, in every order of adding up. | C155_demean_error: A demeaned value is off by at most one rounding of the exact one plus the error `E` of the mean."
  },
  {
   "property": "C156",
   "status": "proved",
   "theorems": [
    "Verif.FloatSpectral.C156_refused",
    "Verif.FloatSpectral.C156_defined",
    "Verif.FloatSpectral.C156_error",
    "Verif.FloatSpectral.C156_nonneg",
    "Verif.FloatSpectral.C156_float64",
    "Verif.FloatSpectral.C156_scale"
   ],
   "note": "Proved for the whole quantifier: C156_refused: A target of another length is refused. | C156_defined: The score is finite exactly when neither the target nor the sample is all zero. | C156_error: The score is off the cosine by at most `(1+u)^(n+1)/(1-u)^(n+3) - 1`, in every order of the `n` bands; so it is at most that far above 1."
  },
  {
   "property": "C157",
   "status": "partial",
   "theorems": [
    "Verif.FloatSpectral.C157_mean_between_partial",
    "Verif.FloatSpectral.C157_mean_false",
    "Verif.FloatSpectral.C157_sam_partial",
    "Verif.FloatSpectral.C157_sam_false"
   ],
   "note": "The code breaks the full statement: C157_mean_false: the float64 mean of a band lies between its smallest and its largest sample. Three samples of 0.1 have the mean 0.10000000000000002. | C157_sam_false: the float64 score of a sample is at most 1. A sample equal to the target (1, 1, 1) scores 1.0000000000000002. What is proved instead: C157_mean_between_partial: the mean of a whole-number band lies between its smallest and its largest value, when these are floats. | C157_sam_partial: the score is at most `(1+u)^(n+1)/(1-u)^(n+3)` in size, a little above 1."
  },
  {
   "property": "C158",
   "status": "proved",
   "theorems": [
    "Verif.Spectral.C158_rx",
    "Verif.Spectral.C158_rx_outcome",
    "Verif.Spectral.C158_ace"
   ],
   "note": "Proved for the whole quantifier: C158_rx: RX scores are unchanged by every invertible change of the bands and every offset: gains, units, band order, principal components. | C158_rx_outcome: Recalibrating never turns a computable RX image into an error or the other way round. | C158_ace: ACE scores are unchanged when image and target are recalibrated together; masked samples are left out of the statistics but are scored."
  },
  {
   "property": "C159",
   "status": "proved",
   "theorems": [
    "Verif.Spectral.C159_mean",
    "Verif.Spectral.C159_cov",
    "Verif.Spectral.C159_demean",
    "Verif.Spectral.C159_rx",
    "Verif.Spectral.C159_ace",
    "Verif.Spectral.C159_ace_demeaned",
    "Verif.Spectral.C159_cov_eq",
    "Verif.Spectral.C159_sam",
    "Verif.Spectral.C159_image_statistics",
    "Verif.Spectral.C159_image_rx",
    "Verif.Spectral.C159_image_ace",
    "Verif.Spectral.C159_image_ace_demeaned",
    "Verif.Spectral.C159_image_demean",
    "Verif.Spectral.C159_image_cov_eq",
    "Verif.Spectral.C159_image_sam",
    "Verif.Spectral.C159_motions"
   ],
   "note": "Proved for the whole quantifier: C159_mean: C159: the spectral mean is the same. | C159_cov: C159: the spectral covariance is the same. | C159_demean: C159: demeaned samples move with the samples."
  },
  {
   "property": "C160",
   "status": "proved",
   "theorems": [
    "Verif.Missing.C160_statistics",
    "Verif.Missing.C160_others",
    "Verif.Missing.C160_numbers"
   ],
   "note": "Proved for the whole quantifier: C160_statistics: C160: what is under the mask, numbers or NaN, has no influence on mean and covariance. | C160_others: C160: and so none on the ACE score or the demeaned value of any other sample. | C160_numbers: C160: when every missing value is under the mask, mean and covariance are those of the image with any numbers in the gaps (so C52, C53 apply), the ACE score of every complete sample, masked or not, is that of the filled image (so C55 applies), and that of an incomplete sample is NaN."
  },
  {
   "property": "C161",
   "status": "partial",
   "theorems": [
    "Verif.Missing.C161_mean_partial",
    "Verif.Missing.C161_given_partial",
    "Verif.Missing.C161_rx_false",
    "Verif.Missing.C161_ace_false",
    "Verif.Missing.C161_sam_partial"
   ],
   "note": "The code breaks the full statement: C161_rx_false: C161 is false of RX: one missing value anywhere, and with the computed statistics no sample gets a score, whatever `np.linalg.inv` does. | C161_ace_false: C161 is false of ACE: one missing value in a sample that is not masked, and no sample gets a score. What is proved instead: C161_mean_partial: C161 (partial): a band of the mean is a number exactly when some sample is used and none of those used is missing there. | C161_given_partial: C161 (partial): with mean and inverse covariance given, a complete sample is scored as if no other sample were missing values, and an incomplete one is NaN. | C161_sam_partial: C161 (partial): the spectral angle of a sample depends on that sample alone: complete samples are scored as in the filled image, incomplete ones are NaN."
  },
  {
   "property": "C162",
   "status": "proved",
   "theorems": [
    "Verif.Missing.C162_blend",
    "Verif.Missing.C162_colour_given",
    "Verif.Missing.C162_above",
    "Verif.Missing.C162_below",
    "Verif.Missing.C162_colour"
   ],
   "note": "Proved for the whole quantifier: C162_blend: C162: a blended pixel is a number exactly when both pixels are, and then it is the weighted mean of the two; no other pixel matters. | C162_colour_given: C162: with clip limits given, a pixel's colour is that of its value alone: as in an image without missing values. A missing pixel is NaN in every channel in the continuous mode. | C162_above: C162: in the continuous mode a pixel above a limit given is painted with the last colour, whatever the other pixels are: also when they leave no lower limit."
  },
  {
   "property": "C163",
   "status": "partial",
   "theorems": [
    "Verif.Missing.C163_whole_partial",
    "Verif.Missing.C163_normalise_false",
    "Verif.Missing.C163_detection_false",
    "Verif.Missing.C163_discrete_false"
   ],
   "note": "The code breaks the full statement: C163_normalise_false: C163 is false of `normalize_grayscale_image`: one missing pixel makes every pixel NaN. | C163_detection_false: C163 is false of `create_detection_image_from_scores`: numpy sorts NaN last (the top element here), so a chip with a missing score is painted over all the chips it overlaps, however well they score. | C163_discrete_false: C163 is false of `apply_colormap_to_grayscale_image` in the discrete mode: a missing pixel gets the first colour of the palette, as the smallest values do. What is proved instead: C163_whole_partial: C163 (partial): an image without missing values is normalised as C10 says."
  },
  {
   "property": "C164",
   "status": "proved",
   "theorems": [
    "Verif.Voids.C164_bilinear",
    "Verif.Voids.C164_nearest"
   ],
   "note": "Proved for the whole quantifier: C164_bilinear: C164: bilinear interpolation over a raster with voids fails as it does without them; the answer is NaN exactly when one of the cells next to the point is a void, and otherwise the elevation is that of the raster with any numbers in the voids. | C164_nearest: C164: the same with nearest interpolation, where the only cell is the one that contains the point."
  },
  {
   "property": "C165",
   "status": "proved",
   "theorems": [
    "Verif.Voids.C165_hit_or_nan"
   ],
   "note": "Proved for the whole quantifier: C165_hit_or_nan: C165: over a DEM with voids whose known elevations lie between the altitude bounds used, each pixel's answer is a point on its ray and on the known terrain, at the first sample known to be above the ray, or NaN; and it is NaN only when the elevation just before that sample, or at the end of the ray, is unknown."
  },
  {
   "property": "C166",
   "status": "partial",
   "theorems": [
    "Verif.Voids.C166_known_partial",
    "Verif.Voids.C166_unnoticed_false",
    "Verif.Voids.C166_behind_false"
   ],
   "note": "The code breaks the full statement: C166_unnoticed_false: C166 is false: voids that the ray passes before the two samples around the hit are not noticed. Removing any elevations there does not change the answer. | C166_behind_false: C166 is false, an instance: the ray meets a mountain at altitude 5050/67; with a void at the mountain the answer is a point on the plain behind it. What is proved instead: C166_known_partial: C166 (partial): when the elevations are known up to the first sample above the ray, the answer is the first hit (C21) whatever the terrain is in the voids."
  },
  {
   "property": "C167",
   "status": "partial",
   "theorems": [
    "Verif.Voids.C167_decided_partial",
    "Verif.Voids.C167_marked_partial",
    "Verif.Voids.C167_void_seen_false",
    "Verif.Voids.C167_unknown_seen_false"
   ],
   "note": "The code breaks the full statement: C167_void_seen_false: C167 is false: a pixel whose own elevation is unknown is always reported as seen, in every scene. | C167_unknown_seen_false: C167 is false: nor do the voids on the line of sight matter: over a DEM known only at the ground points every pixel is reported as seen. What is proved instead: C167_decided_partial: C167 (partial): what is decided over a DEM with voids: a pixel is marked exactly when its altitude is known and the terrain (mirrored as in C39) is known to be above the line of sight at one of the samples; unknown elevations never obstruct. | C167_marked_partial: C167 (partial): a pixel that is marked is marked whatever the terrain is in the voids (and whatever the altitudes are that are not known)."
  },
  {
   "property": "C168",
   "status": "partial",
   "theorems": [
    "Verif.Voids.C168_void_partial",
    "Verif.Voids.C168_affine_partial",
    "Verif.Voids.C168_others_lost_false"
   ],
   "note": "The code breaks the full statement: C168_others_lost_false: C168 is false: there is a sensor and a pixel that is located exactly on its own, and is NaN when the request also contains a pixel without an altitude, for every iteration limit. What is proved instead: C168_void_partial: C168 (partial): what happens to the other pixels when one altitude is unknown: each of them is computed by itself from the centre with both steps 2 and exactly `max_iter` updates; the pixel without an altitude is NaN. | C168_affine_partial: C168 (partial): for sensors that are affine at each altitude the other pixels are still exact."
  },
  {
   "property": "C169",
   "status": "proved",
   "theorems": [
    "Verif.FloatGeom.C169_rpc_error",
    "Verif.FloatGeom.C169_rpc_double",
    "Verif.FloatGeom.C169_no_rounding"
   ],
   "note": "Proved for the whole quantifier: C169_rpc_error: C169: the float RPC projection. When the denominators are not lost in rounding, the float result exists exactly where the exact one does, and its pixel coordinates are off by at most the bounds shown, whose size comes from the terms actually added up. | C169_rpc_double: C169 in double precision: with terms of ordinary size (numerator and denominator terms together at most 2, denominator at least 1/2 in size), and images of up to a few hundred thousand pixels, the computed pixel is within a hundred-millionth of a pixel of the exact one. | C169_no_rounding: C169 without rounding: the formula is the one of C23 and C103."
  },
  {
   "property": "C170",
   "status": "proved",
   "theorems": [
    "Verif.FloatGeom.C170_entries",
    "Verif.FloatGeom.C170_orthonormal",
    "Verif.FloatGeom.C170_double",
    "Verif.FloatGeom.C170_no_rounding"
   ],
   "note": "Proved for the whole quantifier: C170_entries: C170: every entry of the float orientation matrix is within `(1+u)^12 - 1` of the exact one, in every rotation order, however matrix products are added up. | C170_orthonormal: C170: the rows of the float matrix are orthonormal up to `3 * ((1+u)^24 - 1)`. | C170_double: C170 in double precision, with a library that is good to the last bit (relative error `2^-52`)."
  },
  {
   "property": "C171",
   "status": "proved",
   "theorems": [
    "Verif.FloatGeom.C171_image_plane",
    "Verif.FloatGeom.C171_double",
    "Verif.FloatGeom.C171_no_rounding"
   ],
   "note": "Proved for the whole quantifier: C171_image_plane: C171: a pinhole camera with float position and focal length and the float matrix of its angles. `X`, `Y`, `Z` are the exact coordinates of the point in the camera's frame. Unless the depth `Z` is lost in rounding, the point has an image in floats and exactly, and the two are this close. | C171_double: C171 in double precision with a library good to the last bit: for every point that is not more than ten times as far away (summed along the axes) as it is deep, the float image position is within a millionth of a millionth of the focal length. | C171_no_rounding: C171 without rounding: the image position is the one of C27."
  },
  {
   "property": "C172",
   "status": "partial",
   "theorems": [
    "Verif.FloatGeom.C172_recovered_partial",
    "Verif.FloatGeom.C172_double_partial",
    "Verif.FloatGeom.C172_level_false",
    "Verif.FloatGeom.C172_binary64_false",
    "Verif.FloatGeom.C172_no_rounding"
   ],
   "note": "The code breaks the full statement: C172_level_false: C172 is false of level cameras: for every accuracy `u`, however fine, and every pitch between 0 and 90 degrees, a library that is good to `u` can make both roll and heading of a camera with roll 0 and heading 0 NaN. | C172_binary64_false: C172 is false of binary64 with perfectly rounded functions: a camera with a pitch of 251/256 radians and roll and heading 0, or off 0 by up to 1e-8 radians (what the camera simulator adds to avoid this), has NaN for both recovered roll and heading. What is proved instead: C172_recovered_partial: C172, for cameras that are neither level nor upside down: if roll and heading keep away from 0 and 180 degrees by so much that their cosines are not within `17 u` of \u00b11, and the pitch is at most 60 degrees, the three angles recovered in float arithmetic from the float matrix are numbers close to the angles it was made from. | C172_double_partial: C172 in double precision: with roll and heading at least a ten-millionth of a radian off 0 and 180 degrees and a pitch of at most 60 degrees, all three angles are recovered to a five-millionth of a radian. Proved in full: C172_no_rounding."
  },
  {
   "property": "C173",
   "status": "proved",
   "theorems": [
    "Verif.PointCalc.C173_given_deltas",
    "Verif.PointCalc.C173_converges",
    "Verif.PointCalc.C173_frame_camera",
    "Verif.PointCalc.C173_default",
    "Verif.PointCalc.C173_fpa",
    "Verif.PointCalc.C173_nadir"
   ],
   "note": "Proved for the whole quantifier: C173_given_deltas: C173 for steps that are given: the solver's answers project within the threshold of the requested pixels and lie close to the ground points seen there. | C173_converges: C173: the call with the steps the solver finds itself. | C173_frame_camera: C173 for frame cameras, as computed: `f'` projects with an error of at most `\u03b5` pixels; the pixels asked for are those at which the ground points `gs` appear. With `L = 2 \u03bd R (N + Q \u03bd) / d\u00b2` the largest change of the slopes over the region, the solver's answers reproject within the threshold and lie within `(thr + 4 \u03b5) / (m - L)` ground units of the points."
  },
  {
   "property": "C174",
   "status": "proved",
   "theorems": [
    "Verif.PointCalc.C174_terrain",
    "Verif.PointCalc.C174_accuracy",
    "Verif.PointCalc.C174_raster"
   ],
   "note": "Proved for the whole quantifier: C174_terrain: C174: a DEM `E` that is within `\u03b4` of a terrain `T` of slope at most `c`, sampled at most `dist` apart: the answer lies on the pixel's ray, its altitude is the terrain's there up to `c * dist / 2 + \u03b4`, and nowhere before it is the ray below the terrain by more than that. | C174_accuracy: C174 for the terrain itself. | C174_raster: C174 for a raster read cell by cell: at the raster's nodes the cells hold the terrain's elevations, and no point is further than `g` from the node of the cell it lies in; then the raster is within `c * g` of the terrain, at every point inside it."
  },
  {
   "property": "C175",
   "status": "proved",
   "theorems": [
    "Verif.FloatGeom.C175_elevation",
    "Verif.FloatGeom.C175_double",
    "Verif.FloatGeom.C175_no_rounding"
   ],
   "note": "Proved for the whole quantifier: C175_elevation: C175: the elevation computed at a point, for every raster, point and rounding: the call raises exactly when exact arithmetic would, and otherwise the result differs from the exact weighted average by a few roundings of the largest elevation. | C175_double: C175 in double precision: within 3e-15 of the largest elevation in size (for a raster up to 10 km high: less than a tenth of a nanometre). | C175_no_rounding: C175 without rounding: the elevation is the one of C43."
  },
  {
   "property": "C176",
   "status": "proved",
   "theorems": [
    "Verif.GeoFiles.C176_copies",
    "Verif.GeoFiles.C176_separate_files",
    "Verif.GeoFiles.C176_copy"
   ],
   "note": "Proved for the whole quantifier: C176_copies: C176: over every program whose disk reads are safe, opening an image is as good as copying its file: every call returns the same, and the files are the same at the end. | C176_separate_files: C176 for programs that never write a file they open: nothing they see depends on when the pixels are read. | C176_copy: C176 end to end: a program opens a file, does anything that keeps the image object, writes the image under some name, does anything that leaves that file alone, opens it and reads it. If all its disk reads are safe, it reads the pixels the first file had when it was opened (in values of its data type)."
  },
  {
   "property": "C177",
   "status": "partial",
   "theorems": [
    "Verif.GeoFiles.C177_loaded_partial",
    "Verif.GeoFiles.C177_pixels_lost_false",
    "Verif.GeoFiles.C177_false"
   ],
   "note": "The code breaks the full statement: C177_pixels_lost_false: C177 is false: for every behaviour of GDAL on a file that was emptied under an open dataset, writing an image that was not loaded to its own file gives a result that does not depend on the pixels the file had. | C177_false: C177 is false, in terms of programs: whatever GDAL does, there is a file which opening and writing back (without loading) does not preserve. What is proved instead: C177_loaded_partial: C177 for an image that was loaded: it can be written to its own file, which then has the same pixels."
  },
  {
   "property": "C178",
   "status": "partial",
   "theorems": [
    "Verif.GeoFiles.C178_others_partial",
    "Verif.GeoFiles.C178_empty_refused",
    "Verif.GeoFiles.C178_closed_false",
    "Verif.GeoFiles.C178_nan_false"
   ],
   "note": "The code breaks the full statement: C178_closed_false: C178 is false for an image closed before it was loaded: the write raises AttributeError, and the file, whatever it held, is an image of zeros. | C178_nan_false: C178 is false for an image whose no-data value is NaN or infinite: the write raises, the file that was there is replaced by one that opens as an image of the right size, with the first band of the data and zeros in all others. What is proved instead: C178_others_partial: C178 as far as it holds: a write touches no other file, and of the image object at most the data, which it loads. Proved in full: C178_empty_refused."
  },
  {
   "property": "C179",
   "status": "partial",
   "theorems": [
    "Verif.GeoFiles.C179_named_partial",
    "Verif.GeoFiles.C179_reused_false",
    "Verif.GeoFiles.C179_default_name_false"
   ],
   "note": "The code breaks the full statement: C179_reused_false: C179 is false for a destination that is used twice: what is read from the first result is what GDAL makes of a dataset whose file now holds the second raster; the first raster does not enter. | C179_default_name_false: C179 is false when the destination is left out: two images are warped one after another, then the first result is read. Whatever GDAL does with the first dataset, for some images the pixels are not those of the first warp. What is proved instead: C179_named_partial: C179 for warps with destinations of their own: the image a warp returned has the pixels GDAL made of the raster the image stands for, however many images are warped to other destinations before it is read."
  },
  {
   "property": "C180",
   "status": "proved",
   "theorems": [
    "Verif.PointCalc.C180_default_close",
    "Verif.PointCalc.C180_default",
    "Verif.PointCalc.C180_given_deltas",
    "Verif.PointCalc.C180_converges",
    "Verif.PointCalc.C180_no_rounding"
   ],
   "note": "Proved for the whole quantifier: C180_default_close: C180 in double precision with the default settings (threshold 0.01 pixel, at most 1000 iterations), for a sensor `f'` that computes a sensor `f` to a millionth of a pixel: when `f` is close to an affine one over the region, its slopes changing by less than a seventh of the resolution, the first guess is at most a million pixels off and the coordinates are at most a thousand million pixels, the answers reproject ... | C180_default: `C180_default_close` for a sensor `f'` that computes a frame camera to a millionth of a pixel: when the slopes change by less than a seventh of the resolution over the region, the first guess is at most a million pixels off and the coordinates are at most a thousand million pixels, the answers reproject within 0.0101 pixel and are within a fiftieth of a pixel of the ground positions. | C180_given_deltas: C180 for steps that are given."
  },
  {
   "property": "C181",
   "status": "proved",
   "theorems": [
    "Verif.FloatGeom.C181_double",
    "Verif.PointCalc.C181_solver",
    "Verif.FloatGeom.C181_no_rounding"
   ],
   "note": "Proved for the whole quantifier: C181_double: C181 in double precision with a library good to the last bit: for every point that is not more than ten times as far away (summed along the axes) as it is deep, the float pixel is within a few millionths of a millionth of the focal length in pixels and of the size of the array. | C181_solver: C181: the iterative conversion with a focal plane array camera, everything in double precision with a library good to the last bit, default settings: the camera is the one of `C173_fpa`, its focal length and array at most a few hundred thousand pixels. | C181_no_rounding: C181 without rounding: the pixel is the one of C28."
  },
  {
   "property": "C182",
   "status": "proved",
   "theorems": [
    "Verif.PointCalc.C182_close",
    "Verif.PointCalc.C182_converges",
    "Verif.PointCalc.C182_double",
    "Verif.PointCalc.C182_opencv",
    "Verif.PointCalc.C182_pix4d"
   ],
   "note": "Proved for the whole quantifier: C182_close: C182: over a region in which the perspective stays close to the affine sensor and the image within `q` focal lengths of the principal point, so does the camera with its lens. | C182_converges: C182 in exact arithmetic, for a sensor `f'` that computes the camera to `\u03b5` pixels. | C182_double: C182 in double precision with the default settings, for a sensor `f'` that computes the camera to a millionth of a pixel."
  },
  {
   "property": "C183",
   "status": "proved",
   "theorems": [
    "Verif.FloatGeom.C183_double",
    "Verif.FloatGeom.C183_calculator",
    "Verif.FloatGeom.C183_solver",
    "Verif.FloatGeom.C183_no_rounding"
   ],
   "note": "Proved for the whole quantifier: C183_double: C183 in double precision, for a computed pose: an orientation `rot'` off by at most 45 roundings per entry and a position `xyz'` off by at most `e` along each axis. `S` is the strength of the lens at 1.1 (about 48 degrees off the optical axis, along each axis of the image), `\u03b8` the precision of the pose relative to the depth of the point, which lies within 45 degrees of the optical axis. The float pixel is within ... | C183_calculator: C183 for the calculator: the fixture at `f` with angles `w, p, k`, the camera offset by `rel` with angles `w', p', k'`. | C183_solver: C183, pixels to positions: the iterative conversion with its default settings, all in double precision, on the OpenCV calculator in double precision. The hypotheses on the camera are those of `C182_double`; `hd`, `h45` and `h\u03b5` bound the precision of a pixel by a millionth."
  },
  {
   "property": "C184",
   "status": "proved",
   "theorems": [
    "Verif.FloatSpectral.C184_rx_error",
    "Verif.FloatSpectral.C184_rx_shapes",
    "Verif.FloatSpectral.C184_ace_demeaned_error",
    "Verif.FloatSpectral.C184_ace_error",
    "Verif.FloatSpectral.C184_ace_undefined",
    "Verif.FloatSpectral.C184_condition",
    "Verif.FloatSpectral.C184_no_rounding",
    "Verif.FloatSpectral.C184_rx_double",
    "Verif.FloatSpectral.C184_ace_double"
   ],
   "note": "Proved for the whole quantifier: C184_rx_error: C184: each RX score is within `(1+u)^(2n+2) - 1` times the form of the absolute values of the exact score, for every order of the additions. | C184_rx_shapes: C184: other shapes are a ValueError, and only those. | C184_ace_demeaned_error: C184: each score of `ace_demeaned` is close to the exact one, for every order of the additions, when the sample and the target are not zero."
  },
  {
   "property": "C185",
   "status": "partial",
   "theorems": [
    "Verif.FloatSpectral.C185_rx_partial",
    "Verif.FloatSpectral.C185_rx_diagonal_partial",
    "Verif.FloatSpectral.C185_ace_partial",
    "Verif.FloatSpectral.C185_rx_false",
    "Verif.FloatSpectral.C185_ace_false"
   ],
   "note": "The code breaks the full statement: C185_rx_false: with a positive definite inverse covariance of float64 entries, no RX score of a float64 sample is negative. | C185_ace_false: with a positive definite inverse covariance, every ACE score is at most 1. One band, inverse covariance 1, mean 0, target 4503599627370497 and sample 3: 1.0000000000000002. What is proved instead: C185_rx_partial: C185, RX: the score of a sample is not negative when its terms do not cancel below the rounding errors. Missing: all samples, see `C185_rx_false`. | C185_rx_diagonal_partial: C185, RX: a matrix without cancellation (diagonal, not negative) gives no negative score. | C185_ace_partial: C185, ACE: the score of a sample is between 0 and 1 up to the rounding errors. Missing: at most 1 exactly, see `C185_ace_false`."
  },
  {
   "property": "C186",
   "status": "proved",
   "theorems": [
    "Verif.Envi.C186_entries"
   ],
   "note": "Proved for the whole quantifier: C186_entries: C186: for every header of lines and blocks, each ended by a line end: every entry is what `HeaderValue` says of the text of its last piece, for any case of its name; nothing else is an entry; and the reader raises ValueError exactly when some entry has no value."
  },
  {
   "property": "C187",
   "status": "partial",
   "theorems": [
    "Verif.Envi.C187_partial",
    "Verif.Envi.C187_list_false",
    "Verif.Envi.C187_brace_false",
    "Verif.Envi.C187_copy_false"
   ],
   "note": "The code breaks the full statement: C187_list_false: a dictionary with a list of wavelengths is read back. An array is written in square brackets (`str` of a numpy array); the reader raises ValueError. | C187_brace_false: a dictionary with a text in braces is read back. The texts the reader returns for blocks lack the closing brace; what is written for them is a header the reader never ends on. Here the entries before it fit in one line each, and no later text has a closing brace. | C187_copy_false: a header can be read and written back. On POSIX, for every header with a block under a name of no special meaning (`map info = {...}`), and no other closing brace: the dictionary is read, and the header written from it is one the reader never ends on. What is proved instead: C187_partial: C187: a dictionary of ordinary texts and whole numbers is read back as it was written. Missing: lists of numbers and texts in braces, see the `_false` theorems."
  },
  {
   "property": "C188",
   "status": "proved",
   "theorems": [
    "Verif.Ieee.C188_mean_error",
    "Verif.Ieee.C188_demean",
    "Verif.Ieee.C188_shape",
    "Verif.Ieee.C188_same"
   ],
   "note": "Proved for the whole quantifier: C188_mean_error: C188: as long as the absolute values of a band add up to at most a quarter of the largest power of two of the format, its mean is a number, off the exact mean by at most the relative error of C155 and half the spacing of subnormal numbers, in every order of adding up; inputs and results may be subnormal. (`u = 2^-p`; `n` samples, `1 \u2264 n \u2264 2^(p-1)`.) | C188_demean: C188: a demeaned value is the difference of the value and the computed mean, correctly rounded: differences do not underflow. | C188_shape: C188: one mean per band, and the demeaned image has the size of the image."
  },
  {
   "property": "C189",
   "status": "proved",
   "theorems": [
    "Verif.Ieee.C189_same",
    "Verif.Ieee.C189_score",
    "Verif.Ieee.C189_float64",
    "Verif.Ieee.C189_float32"
   ],
   "note": "Proved for the whole quantifier: C189_same: C189: for values of moderate size the scores are, bit for bit, those computed with unbounded exponents, so that everything known of these (C156) holds; a score that has no value there is NaN. | C189_score: C189 as the error of a score: the score of a sample is NaN when the sample or the target is all zero, and otherwise a number off the cosine by at most the bound of C156. | C189_float64: C189 in double precision: values that are zero or between `2^-147` and `2^200` in size, at most `2^50` bands."
  },
  {
   "property": "C190",
   "status": "partial",
   "theorems": [
    "Verif.Ieee.C190_overflow_false",
    "Verif.Ieee.C190_finite_partial"
   ],
   "note": "The code breaks the full statement: C190_overflow_false: C190 is FALSE at the top of the range: two samples of `2^emax` (float64: about 9e307) have an infinite mean, and the demeaned samples are infinite, although their exact mean is `2^emax`. What is proved instead: C190_finite_partial: C190 (partial): a band whose absolute values add up to at most a quarter of `2^emax` has a finite mean and finite demeaned samples. Missing: larger samples (`C190_overflow_false`)."
  },
  {
   "property": "C191",
   "status": "partial",
   "theorems": [
    "Verif.Ieee.C191_overflow_false",
    "Verif.Ieee.C191_underflow_false",
    "Verif.Ieee.C191_scale_partial"
   ],
   "note": "The code breaks the full statement: C191_overflow_false: C191 is FALSE for bright samples: against the target (1), the sample (2^e) with `2 e > emax` (float64: from 1.4e154, float32: from 1.9e19) scores 0 instead of 1, the cosine. | C191_underflow_false: C191 is FALSE for dark samples: against the target (1), the sample (2^e) whose square underflows (float64: below 1.6e-162, float32: below 2.7e-23) scores infinity instead of 1. What is proved instead: C191_scale_partial: C191 (partial): rescaling a sample of moderate size by a power of two that leaves it of moderate size does not change the value of its score. Missing: samples that become too bright or too dark (`C191_overflow_false`, `C191_underflow_false`)."
  },
  {
   "property": "C192",
   "status": "proved",
   "theorems": [
    "Verif.PointCalc.C192_sight",
    "Verif.PointCalc.C192_camera",
    "Verif.PointCalc.C192_double"
   ],
   "note": "Proved for the whole quantifier: C192_sight: C192: the positions found for the top and the bottom of the search are within `\u03b5` (in each coordinate) of the true line of sight; the line of sight is straight. Then every answer is within `\u03b5` of the true line of sight at the answer's altitude, on the terrain up to `c * dist / 2 + \u03b4`, and the true line of sight is nowhere before it below the terrain by more than `c * (dist / 2 + \u221a2 * \u03b5) + \u03b4`. | C192_camera: C192: a frame camera above the search range; the positions at the top and the bottom of the range are found up to `\u03b5`. Each answer is within `\u03b5` of a position that has exactly the pixel asked for, it is on the terrain up to `c * dist / 2 + \u03b4`, and no position with that pixel between the answer and the top of the search is below the terrain by more than `c * (dist / 2 + \u221a2 * \u03b5) + \u03b4`. | C192_double: C192 with the solver in double precision at its default settings: the camera of `C181_solver` seen from the top and the bottom of the search. The positions at both altitudes are found, and each answer is within a fiftieth of a pixel (`m` pixels per ground unit) of a position that has exactly the pixel asked for."
  },
  {
   "property": "C193",
   "status": "proved",
   "theorems": [
    "Verif.Memory.C193_arguments",
    "Verif.Memory.C193_chips",
    "Verif.Memory.C193_independent"
   ],
   "note": "Proved for the whole quantifier: C193_arguments: C193: whatever `chip_images_by_pixel_upper_lefts` returns or raises, no array that existed before the call is changed: neither the image nor the locations. | C193_chips: C193: the chips are those of the pure function (C02) on the contents the image and the locations had, and they are a new array. | C193_independent: C193: later changes of the image, or of anything else that existed before the call, do not reach the chips, and changes of the chips do not reach the image."
  },
  {
   "property": "C194",
   "status": "proved",
   "theorems": [
    "Verif.Memory.C194_detectors",
    "Verif.Memory.C194_demean"
   ],
   "note": "Proved for the whole quantifier: C194_detectors: C194: an image detector changes no array that existed before, its map is a new array, and the map has the scores the one-dimensional detector gives the pixels, whatever the layout of the image in memory. | C194_demean: C194: demeaning an image changes no array that existed before; the result is a new array."
  },
  {
   "property": "C195",
   "status": "partial",
   "theorems": [
    "Verif.Memory.C195_band_values",
    "Verif.Memory.C195_cube_values",
    "Verif.Memory.C195_false",
    "Verif.Memory.C195_band_copy_partial",
    "Verif.Memory.C195_band_shared_partial",
    "Verif.Memory.C195_cube_copy_partial",
    "Verif.Memory.C195_cube_shared_partial",
    "Verif.Memory.C195_unflatten"
   ],
   "note": "The code breaks the full statement: C195_false: C195 is false as stated: writing to the flattened band changes the image, for any band stored row after row. What is proved instead: C195_band_copy_partial: C195, proved part: when the rows do not follow one another at equal distances, the flattened band is a copy: whatever is written to one does not reach the other. Missing: images in one piece, for which `C195_band_shared_partial` says exactly what happens. | C195_band_shared_partial: C195, the rest: for an image in one piece, writing `v` to element `k` of the flattened band writes `v` to pixel `(k / nx, k % nx)` of the image, and to no other pixel. | C195_cube_copy_partial: C195, proved part for cubes. | C195_cube_shared_partial: C195, the rest for cubes. Proved in full: C195_band_values, C195_cube_values, C195_unflatten."
  },
  {
   "property": "C196",
   "status": "proved",
   "theorems": [
    "Verif.PointCalc.C196_rays",
    "Verif.PointCalc.C196_double",
    "Verif.PointCalc.C196_camera",
    "Verif.PointCalc.C196_all_double"
   ],
   "note": "Proved for the whole quantifier: C196_rays: C196: the whole ray caster in float arithmetic with relative error `u` per operation. All coordinates and altitudes are at most `H` in size; `E` (the DEM as it is computed) is within `\u03b4` of a terrain `T` of slope at most `c`. Along every ray the ray drops, from one sample to the next, by at least `g` more than the terrain can (`V`): this is what the last hypothesis says, `L` being the longest ray. Then every pixel ... | C196_double: C196 in double precision (relative error `2^-52` per operation is allowed, twice the unit roundoff): coordinates and altitudes up to 10000 km, samples at most 10 m apart, terrain of slope `c` at most 1 and a DEM within `\u03b4` at most 10 m of it, rays that drop by at least `c * dist + 2 * \u03b4` and 4 cm from sample to sample (`L`: the longest ray). The ray caster is given positions within `\u03b5` of the true lines of sight ... | C196_camera: C196: a frame camera above the search range; the positions at the top and the bottom of the range are found up to `\u03b5`, and the ray caster runs in double precision. Each answer is within `\u03b5` and a millimetre of a position that has exactly the pixel asked for."
  },
  {
   "property": "C197",
   "status": "partial",
   "theorems": [
    "Verif.PointCalc.C197_false",
    "Verif.PointCalc.C197_answered_partial"
   ],
   "note": "The code breaks the full statement: C197_false: C197 is FALSE of the code: the line of sight passes from above the terrain to below it, exact arithmetic gives the position where, but in double precision the pixel's position is not a number: the ray and the terrain have the same computed slope between the two samples, and the crossing is computed by dividing by their difference. (`sq` is any square root function with `\u221a400 = 20`.) What is proved instead: C197_answered_partial: C197 (partial): every pixel gets an answer on terrain that is everywhere less steep than the lines of sight, by a margin `g` per sample that is at least 1000 times the rounding error of the largest number. Missing: steeper terrain, of which the claim is false (`C197_false`)."
  },
  {
   "property": "C198",
   "status": "proved",
   "theorems": [
    "Verif.Ortho.C198_transparency",
    "Verif.Ortho.C198_no_rounding",
    "Verif.Ortho.C198_nearest",
    "Verif.Ortho.C198_camera",
    "Verif.Ortho.C198_flat",
    "Verif.Ortho.C198_tie",
    "Verif.Ortho.C198_separate"
   ],
   "note": "Proved for the whole quantifier: C198_transparency: C198 with a transparency band, any camera: the bands are those of the plain orthophoto; the last band is 0 wherever the true position is outside the shown part of the image by at least `\u03b4`, and where it is inside by more than `\u03b4`, it is 0 or 255 as a source pixel of the first requested band at most half a pixel, `\u03b4` and one rounding away is the no-data value or not. | C198_no_rounding: C198, identity: with exact arithmetic the float orthophoto is the orthophoto of `Model/Ortho.lean`: the same size and the same value at every pixel of every band. | C198_nearest: C198, any camera: let the computed position of every output pixel be within `\u03b4` of the position `P` it should have. Then every output pixel whose true position is inside the shown part of the image by more than `\u03b4` shows a source pixel at most half a pixel, `\u03b4` and one rounding (`\u03b7`) away; one that is outside by at least `\u03b4` shows the no-data value; and on the border, one or the other."
  },
  {
   "property": "C199",
   "status": "proved",
   "theorems": [
    "Verif.Spectrum.C199_no_rounding",
    "Verif.Spectrum.C199_near",
    "Verif.Spectrum.C199_tabulated",
    "Verif.Spectrum.C199_double",
    "Verif.Spectrum.C199_example"
   ],
   "note": "Proved for the whole quantifier: C199_no_rounding: With exact arithmetic the float model is the exact one. | C199_near: C199: in float arithmetic, with any rounding of relative error `u` and any order of adding, the resampled value of a band differs from the exact weighted average by a small multiple of `u`, of the largest spectral value `M` and of the band's condition number `\u03ba`: twice the peak response times the range of the wavelengths, over the area of the response the wavelengths see. | C199_tabulated: C199: a response tabulated at the spectrum's own wavelengths (as far as they lie in its range) needs no condition number."
  },
  {
   "property": "C200",
   "status": "partial",
   "theorems": [
    "Verif.Spectrum.C200_outside_false",
    "Verif.Spectrum.C200_nan_false",
    "Verif.Spectrum.C200_partial"
   ],
   "note": "The code breaks the full statement: C200_outside_false: C200 fails: a band falling from 0.73 at 0.34 \u00b5m to zero at 0.96 \u00b5m, seen by a spectrum of reflectances 0 and 1 at the two doubles before 0.96, gives the reflectance -1: the computed response at the last wavelength is negative. | C200_nan_false: C200 fails: the response 1.8499999999999999 \u00b5m sees is positive but computed as zero, so a spectrum that overlaps the band there only gives no number. What is proved instead: C200_partial: What remains of C200: a band whose seen area is not tiny against twice its peak times the wavelength range."
  },
  {
   "property": "C201",
   "status": "proved",
   "theorems": [
    "Verif.SolverIeee.C201_two_degrees",
    "Verif.SolverIeee.C201_answers"
   ],
   "note": "Proved for the whole quantifier: C201_two_degrees: C201: whatever the coefficients of an RPC model (its longitude offset and scale being numbers of any size met on Earth and far beyond), and whatever the altitude, the conversion of its pixels to ground positions in double precision measures slopes with shifts of exactly two degrees: among the trial shifts are some that overflow. | C201_answers: C201: so the answers are those of the iteration with shifts of two degrees."
  },
  {
   "property": "C202",
   "status": "partial",
   "theorems": [
    "Verif.SolverIeee.C202_double_partial",
    "Verif.SolverIeee.C202_reaches_partial",
    "Verif.SolverIeee.C202_false"
   ],
   "note": "The code breaks the full statement: C202_false: C202 fails: over the footprint of this image the slopes vary by a sixteenth at most, and not a single pixel can be converted: every request at ground level, whatever the pixels, the threshold and the number of iterations, is answered with NaN. What is proved instead: C202_double_partial: C202 in double precision, with the shifts of C201 and the default threshold and iteration limit: for an RPC image of at most 65536 pixels that is within a seventh of linear over about two degrees beyond its footprint (radius `\u03c1` around the model's offset) and whose polynomials are of ordinary size there, every pixel of the footprint gets a position that projects within 0.0101 pixel of it and lies within a fiftieth ... | C202_reaches_partial: C202 holds where the image is close to linear over two degrees beyond the footprint: with the shifts of C201, and apart from rounding (see `C202_double_partial` in `Props/RpcInverse.lean`), the conversion reaches every pixel within a hundredth of a pixel, within the distance `1 / (100 (m - L))` of the ground position seen there. `S` is the linear approximation, `m` and `M` its smallest and largest scale in pixels ..."
  },
  {
   "property": "C203",
   "status": "proved",
   "theorems": [
    "Verif.SolverIeee.C203_nan",
    "Verif.SolverIeee.C203_first",
    "Verif.SolverIeee.C203_fails"
   ],
   "note": "Proved for the whole quantifier: C203_nan: C203: when the horizontal pixel coordinate of some trial position east of the centre cannot be compared with the centre's, both shifts are 2, whatever the trials to the north. | C203_first: C203: otherwise each shift is the first of the doubling trial shifts that moves the pixel of the centre by more than one pixel, measured as the difference of the moved centre from the centre. | C203_fails: C203: the search fails, with an IndexError, exactly when no trial shift in one of the two directions moves the pixel of the centre by more than one pixel."
  },
  {
   "property": "C204",
   "status": "proved",
   "theorems": [
    "Verif.SolverIeee.C204_stops",
    "Verif.SolverIeee.C204_answers",
    "Verif.SolverIeee.C204_empty",
    "Verif.SolverIeee.C204_numbers",
    "Verif.SolverIeee.C204_update"
   ],
   "note": "Proved for the whole quantifier: C204_stops: C204: the iteration returns the estimates after the first update that brings every pixel within the threshold, or after the last update allowed. | C204_answers: C204 for the whole conversion of at least one pixel: the shifts are those of C203, the first estimate of every pixel is the centre. | C204_empty: C204 for no pixels: once the shifts are found, the first update raises ValueError (the largest error of no pixels); with no update allowed the answer is empty."
  },
  {
   "property": "C205",
   "status": "proved",
   "theorems": [
    "Verif.SolverIeee.C205_double"
   ],
   "note": "Proved for the whole quantifier: C205_double: C205: the pixel of a position in the box of an RPC (normalised coordinates at most 1), computed in IEEE doubles: both coordinates are finite numbers within two hundred-millionths of a pixel of the exact ones, subnormal intermediate results included."
  },
  {
   "property": "C206",
   "status": "proved",
   "theorems": [
    "Verif.SolverIeee.C206_double"
   ],
   "note": "Proved for the whole quantifier: C206_double: C206: pixels of an RPC image to ground positions, the whole conversion in IEEE doubles with the default iteration limit and the threshold 0.01 as stored. `S` is the linear approximation of the image, `m` and `M` its smallest and largest scale in pixels per degree, `L` the deviation of the slopes from it, `\u03c1` the radius of the footprint around the offset of the model."
  },
  {
   "property": "C207",
   "status": "proved",
   "theorems": [
    "Verif.FloatGeom.C207_double",
    "Verif.FloatGeom.C207_lens"
   ],
   "note": "Proved for the whole quantifier: C207_double: C207. A Pix4d calculator without distortion model, in double precision: for a point within 45 degrees of the optical axis along each axis of the image, seen from a depth `Z` with `\u03b8` at least `50 u` times its distance (along the axes) relative to the depth, the pixel is finite and within `|f| (2.2 \u03b8 + 10 u) + 5 u (|n| + |p|)` of the exact one, `f` the focal length, `n` the size of the image and `p` the principal ... | C207_lens: C207 with the lens distortion: as `C207_double`, with a slightly larger bound. `S` is the strength of the lens at 1.1 (about 48 degrees off the optical axis along each axis of the image); the pixel is finite and within `|f| (1 + S) (2.2 \u03b8 + 36 u) + 5 u (|n| + |p|)` of the exact one."
  }
 ]
}