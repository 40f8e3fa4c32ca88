# Axioms of each property theorem

Output of `#print axioms` for every theorem named in `MANIFEST.json`.

## none (10 theorems)

- `Verif.ImageUtils.C08_unflatten_cube_rejects`
- `Verif.ImageUtils.C14_false_shared_label`
- `Verif.Ortho.C38_empty`
- `Verif.TextUtils.C67_bad_extensions`
- `Verif.Setup.C105_distortion_false`
- `Verif.Shapes.C110_gdal_grid_false`
- `Verif.ImageObjects.C113_igm`
- `Verif.Training.C118_include_top_false`
- `Verif.CalcObject.C152_sensor_model_false`
- `Verif.CalcObject.C152_micasense_none`

## propext (36 theorems)

- `Verif.Chipper.C02_false_without_keep`
- `Verif.Chipper.C03_overlap_equal_chip_raises`
- `Verif.Chipper.C06_false_broadcast`
- `Verif.ImageUtils.C08_flatten_unflatten_band`
- `Verif.ImageUtils.C08_unflatten_rejects`
- `Verif.ImageUtils.C08_flatten_unflatten_cube`
- `Verif.ImageUtils.C14_wrong_bands`
- `Verif.Grids.C33_band_none`
- `Verif.Grids.C33_shared_list_false`
- `Verif.Envi.C61_documented_partial`
- `Verif.Envi.C61_complex_false`
- `Verif.Images.C70_poke`
- `Verif.Images.C72_physical_camera_false`
- `Verif.Images.C78_micasense_sizes_false`
- `Verif.Readers.C82_no_external`
- `Verif.Readers.C83_csv_empty`
- `Verif.Micasense.C90_distinct`
- `Verif.Micasense.C90_one_pixel_false`
- `Verif.Setup.C105_agree_partial`
- `Verif.Setup.C105_no_projection`
- `Verif.Shapes.C110_cubes`
- `Verif.Shapes.C110_chips`
- `Verif.ImageObjects.C113_attributes`
- `Verif.ImageObjects.C113_unset_false`
- `Verif.ImageObjects.C113_not_with_gdal`
- `Verif.ImageObjects.C114_attributes_partial`
- `Verif.ImageObjects.C114_unset_false`
- `Verif.CalcObject.C152_factories_partial`
- `Verif.CalcObject.C152_geotiff`
- `Verif.CalcObject.C152_opencv_false`
- `Verif.CalcObject.C152_opencv_centre`
- `Verif.CalcObject.C152_micasense_pix4d`
- `Verif.CalcObject.C152_micasense_opencv_false`
- `Verif.CalcObject.C153_last_set_partial`
- `Verif.CalcObject.C153_unassigned_false`
- `Verif.Memory.C195_unflatten`

## propext, Quot.sound (116 theorems)

- `Verif.Chipper.C07_file_content`
- `Verif.Chipper.C07_grayscale_chips_raise`
- `Verif.ImageUtils.C08_unflatten_flatten_band`
- `Verif.ImageUtils.C08_flatten_row_major`
- `Verif.ImageUtils.C08_cube`
- `Verif.ImageUtils.C09_zero_scale`
- `Verif.ImageUtils.C10_empty_image`
- `Verif.ImageUtils.C12_clipped`
- `Verif.PointCalc.C16_array1`
- `Verif.PointCalc.C16_mismatch`
- `Verif.PointCalc.C16_one_element`
- `Verif.Geotiff.C23_difference_partial`
- `Verif.Geotiff.C23_rpc00b_partial`
- `Verif.Grids.C32_alt_array`
- `Verif.Grids.C32_alt_number_false`
- `Verif.Grids.C32_centre`
- `Verif.Grids.C33_missing_band_false`
- `Verif.Grids.C34_too_small`
- `Verif.Ortho.C37_no_band`
- `Verif.Ortho.C41_constant`
- `Verif.Ortho.C41_alts`
- `Verif.Ortho.C42_single_row_false`
- `Verif.Nav.C45_out_of_range`
- `Verif.Nav.C45_no_records`
- `Verif.Spectrum.C50_independent`
- `Verif.Spectrum.C50_values`
- `Verif.Spectrum.C50_raw_values`
- `Verif.Spectrum.C50_integer_false`
- `Verif.Spectrum.C50_returned_array`
- `Verif.Spectrum.C50_setter_shares`
- `Verif.Spectrum.C51_malformed`
- `Verif.Envi.C61_roundtrip`
- `Verif.TextUtils.C63_roundtrip_partial`
- `Verif.TextUtils.C63_empty_last_line_false`
- `Verif.TextUtils.C64_cleanup_posix`
- `Verif.TextUtils.C64_remove_posix`
- `Verif.TextUtils.C64_remove_windows_partial`
- `Verif.TextUtils.C64_remove_windows_false`
- `Verif.TextUtils.C64_cleanup_windows_false`
- `Verif.TextUtils.C64_no_newline`
- `Verif.TextUtils.C65_snake`
- `Verif.TextUtils.C66_no_column`
- `Verif.TextUtils.C66_ragged`
- `Verif.TextUtils.C66_ragged_old`
- `Verif.TextUtils.C66_remove`
- `Verif.TextUtils.C67_listing_partial`
- `Verif.TextUtils.C67_kinds_false`
- `Verif.Readers.C69_malformed`
- `Verif.Ortho.C72_unloaded_false`
- `Verif.Ortho.C72_loaded_partial`
- `Verif.Ortho.C72_not_coregistered_partial`
- `Verif.Readers.C74_envi_error`
- `Verif.Readers.C74_csv_short`
- `Verif.Grids.C75_refused`
- `Verif.Images.C80_fraction_partial`
- `Verif.Images.C81_zero_denominator`
- `Verif.Scoring.C84_unknown_class`
- `Verif.Scoring.C85_list_of_tuples_false`
- `Verif.Micasense.C89_name`
- `Verif.Workflow.C91_roundtrip_partial`
- `Verif.Workflow.C91_solver_error`
- `Verif.Workflow.C92_flat_partial`
- `Verif.Workflow.C92_one_step_partial`
- `Verif.Workflow.C94_first_band`
- `Verif.Workflow.C98_shifts`
- `Verif.Workflow.C98_bounds`
- `Verif.Workflow.C99_pixels`
- `Verif.Workflow.C99_unchanged_partial`
- `Verif.Workflow.C99_in_place`
- `Verif.ImageUtils.C100_uniform`
- `Verif.TextUtils.C102_folders`
- `Verif.TextUtils.C102_path`
- `Verif.Setup.C105_set_projection`
- `Verif.Setup.C105_after_set`
- `Verif.Warp.C107_convert_reference_false`
- `Verif.Warp.C107_map_tiles_false`
- `Verif.Shapes.C110_resize`
- `Verif.Shapes.C110_resize_same`
- `Verif.Shapes.C110_resize_refused`
- `Verif.ImageObjects.C113_from_array`
- `Verif.ImageObjects.C113_metadata_false`
- `Verif.Training.C115_freeze`
- `Verif.Training.C115_separate_networks`
- `Verif.Exif.C125_exif_time`
- `Verif.Exif.C125_exif_outcomes`
- `Verif.IntImages.C126_discrete_partial`
- `Verif.Rounded.C129_zero_scale`
- `Verif.Rounded.C131_integer_range`
- `Verif.Rounded.C132_out_of_range`
- `Verif.Rounded.C137_degenerate`
- `Verif.Jobs.C138_repeat`
- `Verif.Jobs.C138_complete`
- `Verif.Micasense.C146_same`
- `Verif.Warp.C148_unreadable_image_false`
- `Verif.Warp.C148_integer_image_false`
- `Verif.Warp.C148_set`
- `Verif.Geotiff.C149_kept_partial`
- `Verif.Geotiff.C149_created_partial`
- `Verif.FloatSpectral.C155_demean_shape`
- `Verif.Missing.C162_blend`
- `Verif.Missing.C162_colour_given`
- `Verif.Missing.C162_above`
- `Verif.Missing.C162_below`
- `Verif.Missing.C162_colour`
- `Verif.Missing.C163_whole_partial`
- `Verif.Missing.C163_normalise_false`
- `Verif.Missing.C163_discrete_false`
- `Verif.Voids.C168_void_partial`
- `Verif.FloatGeom.C169_no_rounding`
- `Verif.GeoFiles.C178_others_partial`
- `Verif.GeoFiles.C178_empty_refused`
- `Verif.GeoFiles.C178_closed_false`
- `Verif.PointCalc.C180_no_rounding`
- `Verif.FloatSpectral.C184_rx_shapes`
- `Verif.Memory.C195_band_copy_partial`
- `Verif.Memory.C195_cube_copy_partial`

## propext, Classical.choice, Quot.sound (700 theorems)

- `Verif.Chipper.C01_every_pixel_covered`
- `Verif.Chipper.C02_chips_are_windows_partial`
- `Verif.Chipper.C02_without_keep_partial`
- `Verif.Chipper.C02_without_keep_exact_partial`
- `Verif.Chipper.C03_grid`
- `Verif.Chipper.C04_requests_clamped`
- `Verif.Chipper.C04_fitting_request_not_moved`
- `Verif.Chipper.C04_gray_bands`
- `Verif.Chipper.C05_centers_are_upper_lefts`
- `Verif.Chipper.C05_chip_contains_center_partial`
- `Verif.Chipper.C05_false_for_single_pixel_chip`
- `Verif.Chipper.C05_contains_iff_partial`
- `Verif.Chipper.C06_oversize_rejected_partial`
- `Verif.Chipper.C06_refused`
- `Verif.Chipper.C06_accepted_iff`
- `Verif.Chipper.C07_distinct_files`
- `Verif.ImageUtils.C09_pixel_grid`
- `Verif.ImageUtils.C09_pixel_grid_default`
- `Verif.ImageUtils.C10_normalize`
- `Verif.ImageUtils.C10_constant_image`
- `Verif.ImageUtils.C11_detection_image`
- `Verif.ImageUtils.C11_order_independent`
- `Verif.ImageUtils.C11_listing_order`
- `Verif.ImageUtils.C11_refused`
- `Verif.ImageUtils.C12_interpolates_partial`
- `Verif.ImageUtils.C12_within_palette_partial`
- `Verif.ImageUtils.C12_false_beyond_128_bins`
- `Verif.ImageUtils.C12_exact_partial`
- `Verif.ImageUtils.C12_equal_limits_not_finite`
- `Verif.ImageUtils.C12_image_within_palette_partial`
- `Verif.ImageUtils.C12_discrete_partial`
- `Verif.ImageUtils.C12_refused`
- `Verif.ImageUtils.C13_blend`
- `Verif.ImageUtils.C14_mask_dict_partial`
- `Verif.ImageUtils.C14_mask_dict_exact_partial`
- `Verif.ImageUtils.C14_mask_any`
- `Verif.ImageUtils.C14_one_band`
- `Verif.Registration.C15_symmetric`
- `Verif.Registration.C15_self_maximal`
- `Verif.Registration.C15_value`
- `Verif.Registration.C15_contrast`
- `Verif.Registration.C15_size_mismatch`
- `Verif.PointCalc.C16_scalar`
- `Verif.PointCalc.C16_array2`
- `Verif.PointCalc.C16_array2_any`
- `Verif.Geotiff.C17_pixel_roundtrip`
- `Verif.Geotiff.C17_world_roundtrip`
- `Verif.Geotiff.C17_singular`
- `Verif.Geotiff.C18_smallest_box_partial`
- `Verif.Geotiff.C18_contains_iff_partial`
- `Verif.Geotiff.C18_rotated_false`
- `Verif.PointCalc.C19_exact_given_deltas_partial`
- `Verif.PointCalc.C19_exact_partial`
- `Verif.PointCalc.C19_region_partial`
- `Verif.PointCalc.C19_empty`
- `Verif.PointCalc.C19_rotated_false`
- `Verif.PointCalc.C20_threshold_or_exhausted_partial`
- `Verif.PointCalc.C20_silent_false`
- `Verif.PointCalc.C20_silent_call_false`
- `Verif.PointCalc.C21_first_hit`
- `Verif.PointCalc.C21_vertical_false`
- `Verif.PointCalc.C22_flat_false`
- `Verif.PointCalc.C22_flat_partial`
- `Verif.Geotiff.C23_term19_false`
- `Verif.Rotation.C24_rotation`
- `Verif.Rotation.C24_order`
- `Verif.Rotation.C24_bad_order`
- `Verif.Rotation.C25_angles_recovered`
- `Verif.Rotation.C25_matrix_rebuilt`
- `Verif.Rotation.C25_gimbal_lock`
- `Verif.Rotation.C26_offsets`
- `Verif.Rotation.C26_offsets_rotation`
- `Verif.Rotation.C26_singular`
- `Verif.Camera.C27_same_line`
- `Verif.Camera.C27_collinearity`
- `Verif.Camera.C27_units`
- `Verif.Camera.C27_injective`
- `Verif.Camera.C28_optical_axis`
- `Verif.Camera.C28_flip_x`
- `Verif.Camera.C28_flip_y`
- `Verif.Camera.C28_units`
- `Verif.Camera.C28_scale`
- `Verif.Camera.C29_last_setting`
- `Verif.Camera.C29_pose_of_last`
- `Verif.Camera.C29_rigid_position`
- `Verif.Camera.C29_rigid_orientation`
- `Verif.Camera.C29_unset`
- `Verif.Camera.C30_pinhole`
- `Verif.Camera.C30_distorted`
- `Verif.Camera.C30_same_ray`
- `Verif.Camera.C31_exact_partial`
- `Verif.Camera.C31_regular_partial`
- `Verif.Camera.C31_no_distortion`
- `Verif.Camera.C31_zero_coefficients`
- `Verif.Camera.C31_radial3_false`
- `Verif.Camera.C31_key`
- `Verif.Grids.C32_pixel_reads_grid`
- `Verif.Grids.C32_within_neighbours`
- `Verif.Grids.C32_small_grid`
- `Verif.Grids.C32_near_node`
- `Verif.Grids.C33_refines`
- `Verif.Grids.C33_query`
- `Verif.Grids.C33_query_total_partial`
- `Verif.Grids.C34_cell_centres`
- `Verif.Grids.C34_inside_symmetric`
- `Verif.Grids.C35_georef_false`
- `Verif.Grids.C35_subpixel_partial`
- `Verif.Ortho.C36_coregistered_exact`
- `Verif.Ortho.C36_coregistered`
- `Verif.Ortho.C36_separate_bands_false`
- `Verif.Ortho.C36_separate_bands_partial`
- `Verif.Ortho.C36_not_loaded`
- `Verif.Ortho.C37_mask`
- `Verif.Ortho.C37_int8_false`
- `Verif.Ortho.C38_border`
- `Verif.Ortho.C38_points`
- `Verif.Ortho.C38_coverage`
- `Verif.Ortho.C38_simplified`
- `Verif.Ortho.C39_mirrored_partial`
- `Verif.Ortho.C39_flat`
- `Verif.Ortho.C39_diagonal_false`
- `Verif.Ortho.C39_wall_missed_false`
- `Verif.Ortho.C39_clear_sight_false`
- `Verif.Ortho.C40_window_mean`
- `Verif.Ortho.C40_cut_at_edges`
- `Verif.Ortho.C40_wraps_partial`
- `Verif.Ortho.C40_between`
- `Verif.Ortho.C40_window_one_false`
- `Verif.Ortho.C40_edge_false`
- `Verif.Ortho.C42_nearest`
- `Verif.Ortho.C42_range`
- `Verif.Ortho.C43_between_partial`
- `Verif.Ortho.C43_range_partial`
- `Verif.Ortho.C43_node_false`
- `Verif.Ortho.C43_exact_partial`
- `Verif.Ortho.C43_batch_node_false`
- `Verif.Ortho.C43_reversed_false`
- `Verif.Nav.C44_interpolates`
- `Verif.Nav.C44_between`
- `Verif.Nav.C44_single_record`
- `Verif.Nav.C45_shape`
- `Verif.Nav.C46_no_wrap_partial`
- `Verif.Nav.C46_wrap_false`
- `Verif.Nav.C46_iff_partial`
- `Verif.Nav.C47_aligned_partial`
- `Verif.Nav.C47_exact_partial`
- `Verif.Nav.C47_broken_line_false`
- `Verif.Nav.C48_increasing`
- `Verif.Nav.C48_roundtrip_partial`
- `Verif.Nav.C48_roundtrip_false`
- `Verif.Nav.C48_roundtrip_iff`
- `Verif.Nav.C48_before_1980_false`
- `Verif.Nav.C49_week_seconds`
- `Verif.Nav.C49_unique`
- `Verif.Spectrum.C51_weighted_average`
- `Verif.Spectrum.C51_average_facts`
- `Verif.Spectrum.C51_no_overlap`
- `Verif.Spectrum.C51_broadcast`
- `Verif.Spectral.C52_mean`
- `Verif.Spectral.C52_masked_irrelevant`
- `Verif.Spectral.C52_nothing_left`
- `Verif.Spectral.C52_demean`
- `Verif.Spectral.C52_wrong_mask`
- `Verif.Spectral.C53_covariance`
- `Verif.Spectral.C53_one_band_partial`
- `Verif.Spectral.C53_one_band_false`
- `Verif.Spectral.C53_affine`
- `Verif.Spectral.C53_shift`
- `Verif.Spectral.C53_too_few`
- `Verif.Spectral.C54_default`
- `Verif.Spectral.C54_score`
- `Verif.Spectral.C54_nonneg`
- `Verif.Spectral.C54_total`
- `Verif.Spectral.C54_one_band_false`
- `Verif.Spectral.C55_range`
- `Verif.Spectral.C55_target_one`
- `Verif.Spectral.C55_target_scale`
- `Verif.Spectral.C55_sample_scale`
- `Verif.Spectral.C55_ace_demeaned`
- `Verif.Spectral.C55_default`
- `Verif.Spectral.C56_cosine`
- `Verif.Spectral.C56_scale`
- `Verif.Spectral.C57_statistics`
- `Verif.Spectral.C57_demean`
- `Verif.Spectral.C57_rx`
- `Verif.Spectral.C57_ace`
- `Verif.Spectral.C57_ace_demeaned`
- `Verif.Spectral.C57_sam`
- `Verif.Spectral.C57_cov_eq`
- `Verif.Spectral.C57_transform_partial`
- `Verif.Spectral.C57_transform_no_mask_false`
- `Verif.Spectral.C58_covariance`
- `Verif.Spectral.C58_one_band_false`
- `Verif.Spectral.C58_band_mismatch`
- `Verif.Envi.C59_layout`
- `Verif.Envi.C59_file_size`
- `Verif.Envi.C59_roundtrip_partial`
- `Verif.Envi.C59_interleave_false`
- `Verif.Envi.C59_unsupported`
- `Verif.Envi.C59_short_file`
- `Verif.Envi.C60_terminates_partial`
- `Verif.Envi.C60_unclosed_brace_false`
- `Verif.Envi.C60_entries_partial`
- `Verif.Envi.C60_last_line_false`
- `Verif.Envi.C60_second_equals_false`
- `Verif.Envi.C61_unknown`
- `Verif.Envi.C62_header_partial`
- `Verif.Envi.C62_new_name_partial`
- `Verif.Envi.C62_reshaped_false`
- `Verif.Envi.C62_truncated_false`
- `Verif.Envi.C62_same_shape_partial`
- `Verif.TextUtils.C65_words`
- `Verif.TextUtils.C66_transpose`
- `Verif.TextUtils.C67_patterns_false`
- `Verif.TextUtils.C67_exact_partial`
- `Verif.Rotation.C68_r_is_transpose`
- `Verif.Rotation.C68_short`
- `Verif.Readers.C69_calibrated`
- `Verif.Readers.C69_calibrated_blank`
- `Verif.Readers.C69_truncated_false`
- `Verif.Readers.C69_external`
- `Verif.Readers.C69_internal_partial`
- `Verif.Readers.C69_last_line_false`
- `Verif.Readers.C69_internal_empty`
- `Verif.Readers.C69_internal_malformed`
- `Verif.Images.C70_last_band_partial`
- `Verif.Images.C70_last_data_partial`
- `Verif.Images.C70_frame`
- `Verif.Images.C70_errors`
- `Verif.Images.C70_shared_array_false`
- `Verif.Images.C70_view_changes`
- `Verif.Images.C70_converted_false`
- `Verif.Images.C71_last_value`
- `Verif.Images.C71_never_set`
- `Verif.Images.C71_constructors`
- `Verif.Camera.C73_orientation_partial`
- `Verif.Camera.C73_orientation_given_partial`
- `Verif.Camera.C73_units_false`
- `Verif.Readers.C74_svc`
- `Verif.Readers.C74_svc_refused`
- `Verif.Readers.C74_svc_no_data`
- `Verif.Readers.C74_envi`
- `Verif.Readers.C74_csv`
- `Verif.Readers.C74_usgs_column`
- `Verif.Readers.C74_usgs_partial`
- `Verif.Readers.C74_usgs_lengths_false`
- `Verif.Grids.C75_largest_fit`
- `Verif.Nav.C76_utc_machine_partial`
- `Verif.Nav.C76_exact_partial`
- `Verif.Nav.C76_away_from_leaps_partial`
- `Verif.Nav.C76_time_zone_false`
- `Verif.Nav.C76_moved_zone_false`
- `Verif.Envi.C77_metadata_partial`
- `Verif.Envi.C77_stale_header_false`
- `Verif.Images.C78_band_of_all_partial`
- `Verif.Images.C78_negative_false`
- `Verif.Images.C78_micasense`
- `Verif.Images.C79_roundtrip_partial`
- `Verif.Images.C79_from_array_partial`
- `Verif.Images.C79_nodata_false`
- `Verif.Images.C79_copy_partial`
- `Verif.Images.C79_nan_nodata_false`
- `Verif.Images.C79_nan_copy_false`
- `Verif.Images.C79_larger_data_false`
- `Verif.Images.C80_leading_zeros_false`
- `Verif.Images.C81_dms_partial`
- `Verif.Images.C81_denominators_false`
- `Verif.Images.C81_exact_partial`
- `Verif.Readers.C82_master_partial`
- `Verif.Readers.C82_files_partial`
- `Verif.Readers.C82_no_camera`
- `Verif.Readers.C82_zero_false`
- `Verif.Readers.C82_two_digits_false`
- `Verif.Readers.C83_csv_columns`
- `Verif.Scoring.C84_scores_aligned_partial`
- `Verif.Scoring.C84_class_scores_partial`
- `Verif.Scoring.C84_label_without_output`
- `Verif.Scoring.C84_default_ledger_false`
- `Verif.Scoring.C84_single_chip_false`
- `Verif.Scoring.C84_empty_chip`
- `Verif.Scoring.C84_gray_rejected`
- `Verif.Scoring.C85_heat_map_partial`
- `Verif.Scoring.C86_label_file`
- `Verif.Nav.C87_sbet`
- `Verif.Nav.C87_sbet_names`
- `Verif.Nav.C87_eo`
- `Verif.Nav.C87_records`
- `Verif.Nav.C87_eo_record`
- `Verif.Nav.C87_out_of_range`
- `Verif.Nav.C87_num_records`
- `Verif.Nav.C87_record_length_sbet`
- `Verif.Nav.C87_record_length_eo_false`
- `Verif.Ortho.C88_history`
- `Verif.Ortho.C88_elevations`
- `Verif.Ortho.C88_factory`
- `Verif.Ortho.C88_integer_false`
- `Verif.Ortho.C88_integer_without`
- `Verif.Ortho.C88_bad_method_false`
- `Verif.Ortho.C88_mean`
- `Verif.Ortho.C88_mean_between`
- `Verif.Ortho.C88_no_cells`
- `Verif.Micasense.C89_bands`
- `Verif.Micasense.C89_missing`
- `Verif.Micasense.C89_missing_keyerror`
- `Verif.Micasense.C89_opencv_number`
- `Verif.Micasense.C89_no_extension_false`
- `Verif.Micasense.C89_opencv_reject`
- `Verif.Micasense.C89_sixth_band_false`
- `Verif.Micasense.C89_two_digits_false`
- `Verif.Micasense.C90_roundtrip_partial`
- `Verif.Micasense.C90_too_few_names`
- `Verif.Micasense.C90_one_row_false`
- `Verif.Micasense.C90_repeated_false`
- `Verif.Workflow.C91_vertical_false`
- `Verif.Workflow.C92_slope_false`
- `Verif.Workflow.C92_projection_false`
- `Verif.Workflow.C93_spacing`
- `Verif.Workflow.C93_degrees_false`
- `Verif.Workflow.C93_image`
- `Verif.Workflow.C93_zero`
- `Verif.Workflow.C93_default_gsd_partial`
- `Verif.Workflow.C93_default_gsd_false`
- `Verif.Workflow.C94_values`
- `Verif.Workflow.C94_projection_false`
- `Verif.Workflow.C95_igm`
- `Verif.Workflow.C95_data_false`
- `Verif.Workflow.C96_hemisphere`
- `Verif.Workflow.C97_p_matrices`
- `Verif.Workflow.C97_blank_false`
- `Verif.Workflow.C97_space_in_name`
- `Verif.Workflow.C98_ground_partial`
- `Verif.Workflow.C98_ground_false`
- `Verif.Workflow.C99_unchanged_false`
- `Verif.Readers.C101_files_partial`
- `Verif.Readers.C101_missing`
- `Verif.Readers.C101_order_false`
- `Verif.Setup.C103_loaded`
- `Verif.Setup.C103_unreadable`
- `Verif.Setup.C103_file_to_pixel_partial`
- `Verif.Setup.C103_short_false`
- `Verif.Setup.C104_wgs84`
- `Verif.Setup.C104_nadir`
- `Verif.Setup.C104_ifov_x`
- `Verif.Setup.C104_ifov_y`
- `Verif.Setup.C104_no_focal_length`
- `Verif.Setup.C105_added_false`
- `Verif.Setup.C106_pixel`
- `Verif.Setup.C106_missing`
- `Verif.Setup.C106_not_placed`
- `Verif.Setup.C106_zone_false`
- `Verif.Warp.C107_warp_partial`
- `Verif.Warp.C107_changes_ignored_false`
- `Verif.Warp.C107_stale_false`
- `Verif.Warp.C107_gdal_fails`
- `Verif.Warp.C107_closed`
- `Verif.Warp.C107_dem_partial`
- `Verif.Warp.C107_reverse`
- `Verif.Warp.C108_transparency`
- `Verif.Warp.C108_grid_warp`
- `Verif.Warp.C108_unknown_name`
- `Verif.Warp.C108_ortho_partial`
- `Verif.Warp.C108_not_loaded_false`
- `Verif.Warp.C108_ortho_unknown_name`
- `Verif.SpectrumObject.C109_last_set`
- `Verif.SpectrumObject.C109_live_arrays_false`
- `Verif.SpectrumObject.C109_data_copied`
- `Verif.SpectrumObject.C109_with_units_partial`
- `Verif.SpectrumObject.C109_data_with_units_partial`
- `Verif.SpectrumObject.C109_text_units_false`
- `Verif.SpectrumObject.C109_resampled_partial`
- `Verif.SpectrumObject.C109_missing_spreads_false`
- `Verif.SpectrumObject.C109_unit_lost_false`
- `Verif.SpectrumObject.C109_units_mixed_false`
- `Verif.SpectrumObject.C109_failures`
- `Verif.Shapes.C110_image_size`
- `Verif.Shapes.C110_size_iff`
- `Verif.Shapes.C110_four_axes_false`
- `Verif.Shapes.C110_too_few_axes`
- `Verif.Shapes.C110_cube_size`
- `Verif.ImageObjects.C111_read_all_partial`
- `Verif.ImageObjects.C111_written_partial`
- `Verif.ImageObjects.C111_failures`
- `Verif.ImageObjects.C111_stale_header_false`
- `Verif.ImageObjects.C113_from_file`
- `Verif.Training.C112_epochs`
- `Verif.Training.C112_labels`
- `Verif.Training.C112_label_file`
- `Verif.Training.C112_failures`
- `Verif.Training.C115_unfreeze`
- `Verif.Training.C115_transfer`
- `Verif.Training.C116_best_model`
- `Verif.Training.C117_validation_labels_partial`
- `Verif.Training.C117_validation_false`
- `Verif.Training.C118_final_layers_partial`
- `Verif.Training.C119_own_optimizer_partial`
- `Verif.Training.C119_default_optimizer_false`
- `Verif.Chipper.C120_given_names`
- `Verif.Chipper.C120_too_few_names`
- `Verif.ImageUtils.C121_resampled`
- `Verif.ImageUtils.C121_refined`
- `Verif.ImageUtils.C121_degenerate`
- `Verif.OrthoFile.C122_orthophoto_file`
- `Verif.OrthoFile.C122_on_raster`
- `Verif.OrthoFile.C123_transparency_partial`
- `Verif.OrthoFile.C123_dark_false`
- `Verif.OrthoFile.C123_unrepresentable_false`
- `Verif.Collect.C124_standard_files`
- `Verif.Collect.C124_endings_differ`
- `Verif.Collect.C124_no_file`
- `Verif.Collect.C124_refused`
- `Verif.Collect.C124_calculator`
- `Verif.Exif.C125_calendar`
- `Verif.Exif.C125_leap_dates`
- `Verif.Exif.C125_timestamp`
- `Verif.Exif.C125_order`
- `Verif.IntImages.C126_same_as_floats_partial`
- `Verif.IntImages.C126_overflow_false`
- `Verif.IntImages.C126_iff_partial`
- `Verif.IntImages.C126_empty`
- `Verif.IntImages.C126_discrete_false`
- `Verif.IntImages.C127_same_as_floats_partial`
- `Verif.IntImages.C127_same_type_partial`
- `Verif.IntImages.C127_unsigned_iff_partial`
- `Verif.IntImages.C127_overflow_false`
- `Verif.IntImages.C127_multiples_false`
- `Verif.IntImages.C127_self_false`
- `Verif.IntImages.C127_wrong_length`
- `Verif.Collect.C128_contents_partial`
- `Verif.Collect.C128_rotation_false`
- `Verif.Rounded.C129_partial`
- `Verif.Rounded.C129_count`
- `Verif.Rounded.C129_power_of_two`
- `Verif.Rounded.C129_false`
- `Verif.Rounded.C130_error_partial`
- `Verif.Rounded.C130_ends`
- `Verif.Rounded.C130_monotone`
- `Verif.Rounded.C130_symmetric`
- `Verif.Rounded.C130_cast`
- `Verif.Rounded.C130_false`
- `Verif.Rounded.C131_partial`
- `Verif.Rounded.C131_range`
- `Verif.Rounded.C131_constant_image`
- `Verif.Rounded.C131_false`
- `Verif.Rounded.C132_error_partial`
- `Verif.Rounded.C132_zero`
- `Verif.Rounded.C132_false`
- `Verif.Rounded.C133_partial`
- `Verif.Rounded.C133_exact`
- `Verif.Rounded.C133_false`
- `Verif.Rounded.C134_exact`
- `Verif.Rounded.C134_increasing`
- `Verif.Rounded.C134_roundtrip`
- `Verif.Rounded.C135_decomposes`
- `Verif.Rounded.C135_microsecond`
- `Verif.Rounded.C135_whole_seconds`
- `Verif.Rounded.C135_seconds_below_week`
- `Verif.Rounded.C135_not_exact`
- `Verif.Rounded.C136_forward`
- `Verif.Rounded.C136_inverse`
- `Verif.Rounded.C136_monotone`
- `Verif.Rounded.C136_roundtrip`
- `Verif.Rounded.C136_pixel_recovered`
- `Verif.Rounded.C136_truncation`
- `Verif.Rounded.C137_error`
- `Verif.Rounded.C137_monotone`
- `Verif.Rounded.C137_inside`
- `Verif.Rounded.C137_tiny_cells`
- `Verif.Jobs.C138_crash`
- `Verif.Jobs.C139_parallel`
- `Verif.Jobs.C140_working_dir`
- `Verif.Jobs.C140_make_dir_partial`
- `Verif.Jobs.C140_race_false`
- `Verif.Jobs.C140_own_dir_partial`
- `Verif.TextUtils.C141_first_lines_partial`
- `Verif.TextUtils.C141_cut_false`
- `Verif.TrainFiles.C142_between_epochs_partial`
- `Verif.TrainFiles.C142_label_file`
- `Verif.TrainFiles.C142_passes`
- `Verif.TrainFiles.C142_anywhere_partial`
- `Verif.TrainFiles.C142_torn_false`
- `Verif.TrainFiles.C143_last_training_partial`
- `Verif.TrainFiles.C143_resume_false`
- `Verif.TrainFiles.C143_repeat`
- `Verif.TrainFiles.C144_same_classes_partial`
- `Verif.TrainFiles.C144_other_classes_false`
- `Verif.TrainFiles.C144_complete`
- `Verif.Micasense.C145_history`
- `Verif.Micasense.C145_kept_partial`
- `Verif.Micasense.C145_reused_names_false`
- `Verif.Micasense.C145_fresh`
- `Verif.Micasense.C146_effect`
- `Verif.Micasense.C146_failed_call_false`
- `Verif.Warp.C147_other_dems`
- `Verif.Warp.C147_own_image_partial`
- `Verif.Warp.C147_shared_image_false`
- `Verif.Warp.C148_conversion_partial`
- `Verif.Warp.C148_no_image`
- `Verif.Geotiff.C149_exact`
- `Verif.Geotiff.C149_two_images_false`
- `Verif.Envi.C150_parallel`
- `Verif.Envi.C150_own_progress`
- `Verif.Envi.C150_other_files`
- `Verif.Envi.C150_history`
- `Verif.Envi.C151_same_image_partial`
- `Verif.Envi.C151_false`
- `Verif.Nav.C154_factory_eo`
- `Verif.Nav.C154_factory_sbet`
- `Verif.Nav.C154_keywords`
- `Verif.Nav.C154_history_exact_partial`
- `Verif.Nav.C154_new`
- `Verif.Nav.C154_reload_false`
- `Verif.Nav.C154_sbet_partial`
- `Verif.FloatSpectral.C155_defined`
- `Verif.FloatSpectral.C155_error`
- `Verif.FloatSpectral.C155_demean_error`
- `Verif.FloatSpectral.C155_integers`
- `Verif.FloatSpectral.C156_refused`
- `Verif.FloatSpectral.C156_defined`
- `Verif.FloatSpectral.C156_error`
- `Verif.FloatSpectral.C156_nonneg`
- `Verif.FloatSpectral.C156_float64`
- `Verif.FloatSpectral.C156_scale`
- `Verif.FloatSpectral.C157_mean_between_partial`
- `Verif.FloatSpectral.C157_mean_false`
- `Verif.FloatSpectral.C157_sam_partial`
- `Verif.FloatSpectral.C157_sam_false`
- `Verif.Spectral.C158_rx`
- `Verif.Spectral.C158_rx_outcome`
- `Verif.Spectral.C158_ace`
- `Verif.Spectral.C159_mean`
- `Verif.Spectral.C159_cov`
- `Verif.Spectral.C159_demean`
- `Verif.Spectral.C159_rx`
- `Verif.Spectral.C159_ace`
- `Verif.Spectral.C159_ace_demeaned`
- `Verif.Spectral.C159_cov_eq`
- `Verif.Spectral.C159_sam`
- `Verif.Spectral.C159_image_statistics`
- `Verif.Spectral.C159_image_rx`
- `Verif.Spectral.C159_image_ace`
- `Verif.Spectral.C159_image_ace_demeaned`
- `Verif.Spectral.C159_image_demean`
- `Verif.Spectral.C159_image_cov_eq`
- `Verif.Spectral.C159_image_sam`
- `Verif.Spectral.C159_motions`
- `Verif.Missing.C160_statistics`
- `Verif.Missing.C160_others`
- `Verif.Missing.C160_numbers`
- `Verif.Missing.C161_mean_partial`
- `Verif.Missing.C161_given_partial`
- `Verif.Missing.C161_rx_false`
- `Verif.Missing.C161_ace_false`
- `Verif.Missing.C161_sam_partial`
- `Verif.Missing.C163_detection_false`
- `Verif.Voids.C164_bilinear`
- `Verif.Voids.C164_nearest`
- `Verif.Voids.C165_hit_or_nan`
- `Verif.Voids.C166_known_partial`
- `Verif.Voids.C166_unnoticed_false`
- `Verif.Voids.C166_behind_false`
- `Verif.Voids.C167_decided_partial`
- `Verif.Voids.C167_marked_partial`
- `Verif.Voids.C167_void_seen_false`
- `Verif.Voids.C167_unknown_seen_false`
- `Verif.Voids.C168_affine_partial`
- `Verif.Voids.C168_others_lost_false`
- `Verif.FloatGeom.C169_rpc_error`
- `Verif.FloatGeom.C169_rpc_double`
- `Verif.FloatGeom.C170_entries`
- `Verif.FloatGeom.C170_orthonormal`
- `Verif.FloatGeom.C170_double`
- `Verif.FloatGeom.C170_no_rounding`
- `Verif.FloatGeom.C171_image_plane`
- `Verif.FloatGeom.C171_double`
- `Verif.FloatGeom.C171_no_rounding`
- `Verif.FloatGeom.C172_recovered_partial`
- `Verif.FloatGeom.C172_double_partial`
- `Verif.FloatGeom.C172_level_false`
- `Verif.FloatGeom.C172_binary64_false`
- `Verif.FloatGeom.C172_no_rounding`
- `Verif.PointCalc.C173_given_deltas`
- `Verif.PointCalc.C173_converges`
- `Verif.PointCalc.C173_frame_camera`
- `Verif.PointCalc.C173_default`
- `Verif.PointCalc.C173_fpa`
- `Verif.PointCalc.C173_nadir`
- `Verif.PointCalc.C174_terrain`
- `Verif.PointCalc.C174_accuracy`
- `Verif.PointCalc.C174_raster`
- `Verif.FloatGeom.C175_elevation`
- `Verif.FloatGeom.C175_double`
- `Verif.FloatGeom.C175_no_rounding`
- `Verif.GeoFiles.C176_copies`
- `Verif.GeoFiles.C176_separate_files`
- `Verif.GeoFiles.C176_copy`
- `Verif.GeoFiles.C177_loaded_partial`
- `Verif.GeoFiles.C177_pixels_lost_false`
- `Verif.GeoFiles.C177_false`
- `Verif.GeoFiles.C178_nan_false`
- `Verif.GeoFiles.C179_named_partial`
- `Verif.GeoFiles.C179_reused_false`
- `Verif.GeoFiles.C179_default_name_false`
- `Verif.PointCalc.C180_default_close`
- `Verif.PointCalc.C180_default`
- `Verif.PointCalc.C180_given_deltas`
- `Verif.PointCalc.C180_converges`
- `Verif.FloatGeom.C181_double`
- `Verif.PointCalc.C181_solver`
- `Verif.FloatGeom.C181_no_rounding`
- `Verif.PointCalc.C182_close`
- `Verif.PointCalc.C182_converges`
- `Verif.PointCalc.C182_double`
- `Verif.PointCalc.C182_opencv`
- `Verif.PointCalc.C182_pix4d`
- `Verif.FloatGeom.C183_double`
- `Verif.FloatGeom.C183_calculator`
- `Verif.FloatGeom.C183_solver`
- `Verif.FloatGeom.C183_no_rounding`
- `Verif.FloatSpectral.C184_rx_error`
- `Verif.FloatSpectral.C184_ace_demeaned_error`
- `Verif.FloatSpectral.C184_ace_error`
- `Verif.FloatSpectral.C184_ace_undefined`
- `Verif.FloatSpectral.C184_condition`
- `Verif.FloatSpectral.C184_no_rounding`
- `Verif.FloatSpectral.C184_rx_double`
- `Verif.FloatSpectral.C184_ace_double`
- `Verif.FloatSpectral.C185_rx_partial`
- `Verif.FloatSpectral.C185_rx_diagonal_partial`
- `Verif.FloatSpectral.C185_ace_partial`
- `Verif.FloatSpectral.C185_rx_false`
- `Verif.FloatSpectral.C185_ace_false`
- `Verif.Envi.C186_entries`
- `Verif.Envi.C187_partial`
- `Verif.Envi.C187_list_false`
- `Verif.Envi.C187_brace_false`
- `Verif.Envi.C187_copy_false`
- `Verif.Ieee.C188_mean_error`
- `Verif.Ieee.C188_demean`
- `Verif.Ieee.C188_shape`
- `Verif.Ieee.C188_same`
- `Verif.Ieee.C189_same`
- `Verif.Ieee.C189_score`
- `Verif.Ieee.C189_float64`
- `Verif.Ieee.C189_float32`
- `Verif.Ieee.C190_overflow_false`
- `Verif.Ieee.C190_finite_partial`
- `Verif.Ieee.C191_overflow_false`
- `Verif.Ieee.C191_underflow_false`
- `Verif.Ieee.C191_scale_partial`
- `Verif.PointCalc.C192_sight`
- `Verif.PointCalc.C192_camera`
- `Verif.PointCalc.C192_double`
- `Verif.Memory.C193_arguments`
- `Verif.Memory.C193_chips`
- `Verif.Memory.C193_independent`
- `Verif.Memory.C194_detectors`
- `Verif.Memory.C194_demean`
- `Verif.Memory.C195_band_values`
- `Verif.Memory.C195_cube_values`
- `Verif.Memory.C195_false`
- `Verif.Memory.C195_band_shared_partial`
- `Verif.Memory.C195_cube_shared_partial`
- `Verif.PointCalc.C196_rays`
- `Verif.PointCalc.C196_double`
- `Verif.PointCalc.C196_camera`
- `Verif.PointCalc.C196_all_double`
- `Verif.PointCalc.C197_false`
- `Verif.PointCalc.C197_answered_partial`
- `Verif.Ortho.C198_transparency`
- `Verif.Ortho.C198_no_rounding`
- `Verif.Ortho.C198_nearest`
- `Verif.Ortho.C198_camera`
- `Verif.Ortho.C198_flat`
- `Verif.Ortho.C198_tie`
- `Verif.Ortho.C198_separate`
- `Verif.Spectrum.C199_no_rounding`
- `Verif.Spectrum.C199_near`
- `Verif.Spectrum.C199_tabulated`
- `Verif.Spectrum.C199_double`
- `Verif.Spectrum.C199_example`
- `Verif.Spectrum.C200_outside_false`
- `Verif.Spectrum.C200_nan_false`
- `Verif.Spectrum.C200_partial`
- `Verif.SolverIeee.C201_two_degrees`
- `Verif.SolverIeee.C201_answers`
- `Verif.SolverIeee.C202_double_partial`
- `Verif.SolverIeee.C202_reaches_partial`
- `Verif.SolverIeee.C202_false`
- `Verif.SolverIeee.C203_nan`
- `Verif.SolverIeee.C203_first`
- `Verif.SolverIeee.C203_fails`
- `Verif.SolverIeee.C204_stops`
- `Verif.SolverIeee.C204_answers`
- `Verif.SolverIeee.C204_empty`
- `Verif.SolverIeee.C204_numbers`
- `Verif.SolverIeee.C204_update`
- `Verif.SolverIeee.C205_double`
- `Verif.SolverIeee.C206_double`
- `Verif.FloatGeom.C207_double`
- `Verif.FloatGeom.C207_lens`

