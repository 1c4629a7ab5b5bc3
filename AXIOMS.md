# Axioms used by each property theorem

Output of `#print axioms` for every theorem named in `MANIFEST.json`.

## none

`c82_registry_none`

## `Classical.choice`, `Quot.sound`, `propext`

`c01_rows_of_ranges`, `c01_expand_roundtrip`, `c02_ranges_separated`, `c02_ranges_minimal`, `c03_chunked_read`, `c03_chunked_eq_unchunked`, `c03_no_uninitialised`, `c03_sorted_indices_ordered`, `c04_chunk_coverage`, `c04_requested_rows_read`, `c05_remote_read`, `c05_slices_sent`, `c05_overlap_refused`, `c06_layout_irrelevant_partial`, `c07_masked_read`, `c07_masked_read_remote_partial`, `c08_conversions_preserve`, `c08_size_after_roundtrip`, `c08_size_of_form`, `c09_history_partial`, `c09_history_as_built`, `c09_refused_call_harmless`, `c09_union_on_bool_fails`, `c09_union_after_refused_property_fails`, `c10_accepted_iff`, `c10_new_mask`, `c11_exact`, `c11_commute`, `c12_axis`, `c12_complete_cells`, `c12_complete_rows`, `c12_closed_region_fails`, `c13_selected_iff`, `c13_selected_meets`, `c13_window_raises`, `c13_free_axis`, `c14_contains_geometric`, `c14_contains_extents`, `c14_contains_drifted`, `c14_no_larger`, `c15_indices_read`, `c15_index_read`, `c15_indices_bool`, `c15_repeated_fails_remote`, `c15_out_of_range_accepted`, `c16_counts`, `c17_subset_partial`, `c17_empty_dataset_fails`, `c18_subset_of_subset_partial`, `c18_order_kept`, `c18_emptied_type_fails`, `c19_dangling_raises`, `c19_nested_links_fails`, `c22_closed_by_owner`, `c22_given_never_closed`, `c22_close_releases`, `c22_one_open_handle`, `c22_temporaries_closed`, `c22_closed_external_raises_partial`, `c23_convert`, `c23_sequence`, `c23_idempotent`, `c23_values`, `c23_refused`, `c24_matching`, `c24_multiply`, `c24_divide`, `c24_power`, `c24_unary`, `c25_homogeneous`, `c25_add_subtract`, `c25_extrema`, `c25_unary`, `c25_scale_free`, `c25_compare`, `c26_scale_factors`, `c26_factors`, `c26_comparisons`, `c26_exponent`, `c26_small_factors_fails`, `c26_power_fails`, `c26_concatenate_fails`, `c27_exponents`, `c27_assoc_comm`, `c27_identity_inverse`, `c27_redshift`, `c27_sum`, `c27_equality_partial`, `c27_exponents_not_compared_fails`, `c27_not_transitive_fails`, `c27_not_symmetric_fails`, `c28_chain`, `c28_operand`, `c28_constructor_fails`, `c28_list_constructor_fails`, `c29_constructor`, `c29_concatenate`, `c29_all_comoving_fails`, `c29_all_physical_fails`, `c29_mixed_physical_fails`, `c30_generated`, `c30_given`, `c30_refused`, `c30_positive`, `c31_written`, `c31_complete`, `c31_refused`, `c31_last_written`, `c32_round_trip_partial`, `c32_exponent_zero_fails`, `c32_physical_fails`, `c32_not_convertible`, `c32_mismatch`, `c32_no_exponent`, `c33_known`, `c33_unknown`, `c33_subset_reader`, `c33_subset_twice`, `c33_subset_total`, `c33_subset_readable`, `c34_positions`, `c34_lower`, `c34_letters`, `c34_idempotent`, `c34_collision_fails`, `c34_attribute_fails`, `c35_histogram`, `c35_total`, `c36_fast_copy`, `c36_fast`, `c36_gpu`, `c36_reference`, `c36_slice_partial`, `c36_slice_truncated_fails`, `c36_volume_partial`, `c36_volume_truncated_fails`, `c37_once`, `c37_complete`, `c37_wide_kernel_fails`, `c37_limited_partial`, `c37_limited_fails`, `c38_parallel`, `c38_backends`, `c38_layers_fails`, `c38_one_layer_fails`, `c39_projection`, `c39_slice`, `c39_volume`, `c40_image`, `c40_mass_partial`, `c40_exact`, `c40_at_least`, `c40_fails`, `c41_depth_partial`, `c41_empty_range_fails`, `c41_reversed_fails`, `c42_one_cell`, `c42_cells`, `c42_total`, `c42_parallel`, `c42_render`, `c42_refused`, `c42_physical_fails`, `c43_folding`, `c43_cell`, `c43_periodic`, `c44_rotation_partial`, `c44_nearly_along`, `c44_parallel_fails`, `c44_opposite_fails`, `c44_axis`, `c45_assign`, `c45_blocks`, `c45_lengths`, `c45_few_fails`, `c46_species`, `c46_fraction`, `c46_default`, `c46_missing_mass_fails`, `c46_negative_fails`, `c46_fraction_lost_fails`, `c47_entries`, `c47_columns`, `c47_file`, `c47_ragged_fails`, `c47_single_space_fails`, `c47_titles_fails`, `c47_whole_first_fails`, `c47_no_data_fails`, `c48_node`, `c48_call`, `c48_call_list`, `c48_linear`, `c48_range`, `c48_anchor_partial`, `c48_transposed_fails`, `c48_mixed_fails`, `c48_far_fails`, `c48_list_fails`, `c48_list_whole_fails`, `c48_three_channels_fails`, `c49_projection`, `c49_volume`, `c49_continuous`, `c49_projection_integral`, `c49_volume_integral`, `c49_projection_width`, `c49_volume_width`, `c49_rooted`, `c50_present`, `c50_declared`, `c50_distinct`, `c50_aligned`, `c50_names_distinct`, `c50_names_exist`, `c50_ninth_type_fails`, `c50_undeclared_fails`, `c50_soap_name`, `c50_soap_unknown`, `c50_soap_distinct`, `c50_soap_levels_fails`, `c51_nearest`, `c51_total`, `c51_error`, `c51_exact`, `c51_digits`, `c51_attributes`, `c51_missing`, `c52_propagated`, `c52_reductions`, `c52_keep`, `c52_prod`, `c52_products`, `c52_where`, `c52_clip`, `c52_histogram`, `c52_density`, `c52_var_fails`, `c52_einsum_fails`, `c52_fft_fails`, `c52_det_stack_fails`, `c52_average_fails`, `c52_clip_keywords_fails`, `c52_select_fails`, `c52_where_condition_fails`, `c52_bin_edges_fails`, `c52_interp_fails`, `c52_density_weights_fails`, `c52_histogram2d_edges_fails`, `c53_projection_partial`, `c53_square`, `c53_norm_fails`, `c53_unframed_fails`, `c53_slice_partial`, `c53_render_partial`, `c53_render_tiny_fails`, `c55_written_in_any_order_partial`, `c55_empty_first_type_fails`, `c56_written_partial`, `c56_not_through_links`, `c56_substring_fails`, `c57_mixed_partial`, `c57_comoving_fails`, `c58_format`, `c58_columns`, `c58_case_fails`, `c58_empty_fails`, `c59_inside`, `c59_periodic_images`, `c59_images`, `c59_data_fails`, `c59_image_fails`, `c60_backend`, `c60_slice`, `c60_tree_exists`, `c61_image`, `c61_parallel`, `c61_within`, `c61_intended_partial`, `c61_mass`, `c61_evaluations`, `c61_upper_border_fails`, `c62_spectrum_partial`, `c62_refused`, `c62_total`, `c62_range`, `c62_default`, `c62_auto`, `c62_invariant`, `c62_first_length`, `c62_not_cubic_fails`, `c62_folding`, `c63_best`, `c63_edges`, `c63_order`, `c63_refused`, `c63_succeeds`, `c63_unsampled_fails`, `c63_label_fails`, `c64_groups`, `c64_time`, `c64_numbers`, `c64_scale_factor`, `c64_box`, `c64_plain`, `c64_texts`, `c64_date`, `c64_counts`, `c64_masses`, `c64_schemes`, `c64_nothing_else`, `c64_succeeds`, `c64_refused`, `c64_cosmology`, `c64_cosmology_text`, `c64_text_numbers_fails`, `c64_redshift_fails`, `c64_scalar_counts_fails`, `c64_refused_values`, `c64_exceptions`, `c65_key`, `c65_key_fails`, `c65_table`, `c65_mappings`, `c65_refused`, `c65_ignored`, `c65_errors`, `c65_prefix_fails`, `c65_underscore_fails`, `c66_parameters`, `c66_hubble`, `c66_temperature`, `c66_inverse`, `c66_neutrinos`, `c66_succeeds`, `c66_refused`, `c66_missing`, `c66_text_refused`, `c66_radiation_fails`, `c66_species_refused`, `c66_species_kind`, `c67_groups`, `c67_file_order`, `c67_order`, `c67_order_fails`, `c67_names`, `c67_names_fails`, `c67_values`, `c67_positions`, `c67_others`, `c67_refused`, `c67_collision_fails`, `c68_extra`, `c68_succeeds`, `c68_numbers`, `c68_box`, `c68_counts`, `c68_types`, `c68_masses`, `c68_box_fails`, `c68_units`, `c68_current_fails`, `c68_units_fails`, `c69_spacing`, `c69_refused`, `c70_copies`, `c70_slice`, `c70_convert`, `c70_others`, `c70_history`, `c70_construct_fails`, `c70_refused_fails`, `c70_assign`, `c70_writer`, `c70_slice_fails`, `c70_writer_refused`, `c70_writer_fails`, `c70_assign_fails`, `c71_factor`, `c71_numbers`, `c71_consistent`, `c71_array`, `c71_without_factor_refused`, `c71_copied`, `c71_quantity`, `c71_quantity_factor`, `c71_quantity_fails`, `c71_bypass`, `c71_bypass_fails`, `c71_import_fails`, `c71_import_factor_fails`, `c71_ignored_fails`, `c72_frames`, `c72_unknown`, `c72_project`, `c72_slice`, `c72_render`, `c72_cubic_fails`, `c73_write`, `c73_moves`, `c73_refused`, `c73_bare`, `c73_fill_diagonal_fails`, `c73_insert`, `c73_linspace`, `c73_trapezoid`, `c73_solve`, `c73_lstsq`, `c73_eig`, `c73_pad`, `c73_pad_fails`, `c73_meshgrid`, `c73_block_fails`, `c73_choose_fails`, `c73_logspace_fails`, `c73_histogramdd`, `c73_density_edges_fails`, `c73_bare_fails`, `c73_apply_over_axes_fails`, `c73_counts`, `c73_place_values`, `c73_putmask_values`, `c73_put_index`, `c73_put_values`, `c73_fill_diagonal_values`, `c73_insert_values`, `c73_trapezoid_line`, `c73_block_values`, `c73_put_along_values`, `c73_block_refused`, `c73_block_frames`, `c73_apply_over_axes`, `c74_out`, `c74_sums`, `c74_multiply`, `c74_divide`, `c74_frame`, `c74_view`, `c74_inplace_fails`, `c74_multiply_reduce`, `c74_divide_reduce`, `c74_keep_reduce`, `c74_lines`, `c74_default_axis_fails`, `c74_axes_fails`, `c75_to`, `c75_values`, `c75_refused`, `c75_compatible`, `c75_compatible_fails`, `c75_pickle`, `c75_unyt_pickle`, `c75_times_unit`, `c75_order`, `c75_order_fails`, `c76_once`, `c76_rows`, `c76_rows_shared`, `c76_links`, `c76_copies`, `c76_cells`, `c76_cells_shared`, `c76_extra_fails`, `c76_lost_fails`, `c76_succeeds`, `c77_sight`, `c77_all`, `c77_limits`, `c77_lighten`, `c77_add`, `c77_range`, `c77_scale`, `c77_depth`, `c77_nonsquare_fails`, `c77_transposed_fails`, `c77_short_fails`, `c77_shared_fails`, `c77_other_fails`, `c77_empty`, `c78_mask`, `c78_attributes`, `c78_no_group`, `c78_missing`, `c78_unknown`, `c78_replaced`, `c78_own`, `c78_metadata_fails`, `c78_group_metadata_fails`, `c78_units_fails`, `c78_hidden_fails`, `c78_mask_fails`, `c79_projections`, `c79_gpu`, `c79_volumes`, `c79_deposit`, `c79_exact`, `c79_exact_threads`, `c80_index`, `c80_outside`, `c80_deposit_partial`, `c80_inside_fails`, `c80_negative_fails`, `c80_lookup`, `c80_size`, `c80_size_fails`, `c81_history`, `c81_projection`, `c81_slice`, `c81_render`, `c81_unpadded_fails`, `c82_package`, `c82_unsupported`, `c82_unsupported_fails`, `c82_unyt_bypass_fails`, `c82_foreign`, `c82_order`, `c83_solve`, `c83_inv`, `c83_det`, `c83_trace`, `c83_dot`, `c83_norm`, `c83_norm_max`, `c83_norm_zero_fails`, `c83_norm_zero_count`, `c83_eig`, `c83_lstsq`, `c84_union`, `c84_intersect`, `c84_setdiff`, `c84_isin`, `c84_equal`, `c84_searchsorted`, `c84_mixed_refused`, `c84_ptp`, `c84_quantile`, `c84_convolve`, `c84_correlate`, `c84_around_fails`, `c84_around_numbers`, `c84_isclose_relative`, `c84_isclose_fails`, `c84_sinc_fails`, `c84_unwrap`, `c84_unwrap_half`, `c84_unwrap_fails`, `c84_sinc_numbers_fails`, `c85_types`, `c85_numbers`, `c85_units`, `c85_field_partial`, `c85_exponent_zero_fails`, `c85_opens`, `c85_writes`, `c85_complete`, `c85_ids`, `c86_buffers`, `c86_constant`, `c86_ranges_array`, `c86_history`, `c86_errors`, `c86_keeps`, `c86_no_mask`, `c86_edit`, `c86_other_file`, `c86_rows`, `c86_open_selects`, `c86_open_changes_mask_fails`, `c86_edit_fails`, `c86_boolean_array_fails`, `c87_written`, `c87_same_arrays`, `c87_projection`, `c87_slice`, `c87_render`, `c87_unpadded_fails`, `c87_empty_fails`, `c88_refused`, `c88_redshift`, `c88_scale_factor`, `c88_report_partial`, `c88_catalogues_fails`, `c88_unknown`, `c88_groups_fails`, `c88_writer_fails`, `c89_rows`, `c89_column`, `c89_subset_column`, `c89_rank_fails`, `c89_single_column_fails`, `c90_colour`, `c90_unique`, `c90_taken_apart`, `c90_refused`, `c90_map`, `c90_range`, `c90_grey`, `c90_anchor_partial`, `c90_image`, `c90_first`, `c90_kept`, `c90_stale_fails`, `c90_red_fails`, `c90_bright_fails`, `c90_far_fails`, `c91_volumes`, `c91_densities`, `c91_fallback`, `c91_slice_volumes`, `c91_slice_densities`, `c91_field`, `c91_histogram_fails`, `c91_fallback_fails`, `c92_field`, `c92_none`, `c92_refused`, `c92_own_names`, `c92_foreign_fails`, `c92_foreign`, `c92_missing`, `c92_file`, `c92_steady_partial`, `c92_scale_fails`, `c92_system_fails`, `c92_hidden_fails`, `c92_same`, `c93_str`, `c93_array2string`, `c93_factor`, `c93_repr`, `c93_repr_words`, `c93_str_fails`, `c93_savetxt_fails`, `c93_lists`, `c93_kinds`, `c93_lists_fails`, `c93_number`, `c93_exact`, `c93_small_fails`, `c93_hydro`, `c93_viscosity`, `c93_diffusion`, `c93_shown`, `c93_library`, `c93_other`, `c93_text_fails`, `c93_missing`, `c93_no_group`, `c93_mapping`, `c94_path`, `c94_loads`, `c94_objects`, `c94_reload_fails`, `c94_reload`, `c94_history`, `c94_user`, `c94_read`, `c94_direct`, `c94_direct_fails`, `c94_direct_reload_fails`, `c95_increasing`, `c95_repeats`, `c95_unordered`, `c95_remote`, `c95_columns_fails`, `c96_factors`, `c96_reflected`, `c96_alien`, `c96_divided_fails`, `c96_order`, `c96_order_none`, `c96_unequal`, `c96_equal_not_addable_fails`, `c96_total_fails`, `c96_extremes`, `c96_extremes_few`, `c96_extremes_none`, `c96_contains`, `c96_contains_fails`, `c97_number`, `c97_not_number`, `c97_no_number`, `c97_negative_fails`, `c97_no_type`, `c97_tables`, `c97_no_masses`, `c97_counts`, `c98_field`, `c98_none`, `c98_none_only`, `c98_raised`, `c98_name_fails`, `c98_scalar_fails`, `c98_letters_fails`, `c98_columns`, `c98_columns_fails`, `c98_columns_text`, `c98_columns_shown`, `c98_columns_quotes`, `c99_reads`, `c99_type`, `c99_unknown`, `c99_updated`, `c99_bare_fails`, `c99_copy_fails`, `c100_groups`, `c100_only`, `c100_opens`, `c100_missing`, `c100_classes`, `c100_fof`, `c100_clash`, `c100_nested_fails`, `c100_same_name_fails`, `c100_catalogue_fails`, `c101_image`, `c101_points`, `c101_no_points`, `c101_bad_colour`, `c101_no_coordinates`, `c101_incomplete`, `c101_uses`, `c101_refused`, `c101_stale_fails`, `c101_labels_fails`, `c101_functions`, `c101_one_width`, `c101_render`, `c101_peak_fails`, `c101_zero_fails`, `c102_rows`, `c102_refines`, `c102_dataset_partial`, `c102_fixed_fails`, `c102_vectors`, `c102_refused`, `c104_scaling`, `c104_factor`, `c104_rootless_partial`, `c104_root_fails`, `c104_product_fails`, `c104_undone`, `c104_powers_fails`, `c104_product_powers_fails`, `c104_unit`, `c104_reread`, `c104_lengths_fails`, `c105_agree_partial`, `c105_values`, `c105_roundtrip`, `c105_identifiers`, `c105_refused`, `c105_integers_fails`, `c105_large_fails`, `c106_warning`, `c106_refines`, `c106_silent`, `c106_lists_fails`, `c106_relations`, `c106_false`, `c107_sequences_partial`, `c107_range`, `c107_range_reversed`, `c107_range_refused`, `c107_frames_fails`, `c107_factors_fails`, `c107_products_fails`, `c107_range_fails`, `c107_range_factor_fails`, `c107_range_point_fails`, `c108_same_call_partial`, `c108_keywords_fails`, `c108_second_fails`, `c108_out`, `c108_out_fails`, `c108_join_out`, `c108_join_out_fails`, `c108_fixed_fails`, `c109_conversion_partial`, `c109_meaning`, `c109_conversion_fails`, `c109_converted`, `c109_mask`, `c109_subset_partial`, `c109_snapshot_partial`, `c110_larger`, `c110_same_region`, `c110_unions`, `c110_parts`, `c110_values`, `c110_shared_range`, `c111_project`, `c111_slice`, `c111_slice_depth`, `c111_render`, `c111_turns`, `c112_particles`, `c112_auto`, `c112_order`, `c112_moved`, `c112_axes`, `c112_mirrored`, `c112_lengths`, `c112_product`, `c112_at_most`, `c112_one_cell`, `c112_together`, `c113_copy`, `c113_program`, `c113_units`, `c113_reads`, `c113_generations`, `c113_field`, `c114_value`, `c114_factor`, `c114_frames`, `c114_equivalent`, `c114_compare`, `c114_errors`, `c114_frame_of_result`, `c115_rows`, `c115_compare`, `c115_mask_rows`, `c115_masked`, `c116_transport`, `c116_chain`, `c116_same_file`, `c116_order`, `c116_one_mask`, `c116_row_numbers_fails`, `c117_unique`, `c117_programs`, `c117_frames`, `c117_conversions`, `c117_no_side_effects`, `c117_converted`, `c118_rows`, `c118_masked`, `c118_branches_fails`, `c119_projection`, `c119_square`, `c119_slice`, `c119_render`, `c119_layer`, `c119_depths`, `c119_depths_fails`, `c119_layer_fails`, `c120_ufuncs`, `c120_angles`, `c120_floor_divide`, `c120_bare_angle_fails`, `c120_bare_first_fails`, `c120_pair`, `c121_two`, `c121_tests`, `c121_one`, `c121_power`, `c121_all`, `c122_histogram`, `c122_deposition`, `c122_sampled`, `c122_means_fails`, `c123_backends`, `c123_project`, `c123_slice`, `c123_render`, `c123_linear`, `c123_kernels`, `c123_signs_fails`, `c124_turns`, `c124_cube_fails`, `c125_value`, `c125_result`, `c125_units`, `c125_equivalent`, `c125_compare`, `c125_refused`, `c125_zero`, `c125_zero_right`, `c125_convert_refused`, `c125_compare_refused`, `c125_factor_refused`, `c125_factor_compare_refused`, `c125_compare_dimensionless_fails`, `c126_unique`, `c126_programs`, `c126_units`, `c126_conversions`, `c126_no_side_effects`, `c126_converted`, `c126_convert_refused`, `c127_preserved`, `c127_computes`, `c127_ends`, `c127_no_exceptions`, `c127_progress`, `c128_rows`, `c128_programs`, `c128_attempts`, `c128_masked`, `c128_refused_fails`, `c128_numbers_fails`, `c129_programs_partial`, `c129_exponent_zero_fails`, `c130_value`, `c130_factor`, `c130_frames`, `c130_one_dimension`, `c130_radii`, `c130_rows_refused`, `c130_rows_weighted`, `c131_rows`, `c131_masked`, `c131_radii`, `c131_rank_fails`, `c132_script`, `c132_frames`, `c132_condition`, `c132_parts`, `c132_unlike_refused`, `c132_bare_choice_fails`, `c133_rows`, `c133_exact`, `c133_missing`, `c133_masked`, `c133_sphere`, `c134_script`, `c134_masked`, `c134_sphere`, `c135_radii`, `c135_inside`, `c135_sphere`, `c136_script`, `c136_masked`, `c136_cube`, `c136_sphere`, `c137_written`, `c137_chain`, `c137_succeeds`, `c138_axis`, `c138_complete`, `c138_sound`, `c138_accepted`, `c138_inside`, `c138_geometric`, `c138_nearest`, `c138_double`, `c138_below`, `c138_toEven`, `c138_above_fails`, `c138_inverted_fails`, `c138_rows`, `c138_rows_sound`, `c138_read`, `c139_matrix`, `c139_vector`, `c139_refused`, `c139_physical`, `c139_physical_vector`, `c139_masked`, `c139_rotated`, `c140_cut`, `c140_inside`, `c140_sphere_extent`, `c140_sphere`, `c140_nearest`, `c140_box`, `c140_double`, `c140_periodic`, `c140_edge_fails`, `c141_rounded`, `c141_masked`, `c141_double`, `c141_double_reference`, `c141_double_slice`, `c141_double_volume`, `c141_doubles`, `c141_threads_fails`, `c142_fast`, `c142_renormalised`, `c142_format`, `c142_floats`, `c142_threads_fails`, `c143_masked`, `c143_projections`, `c143_reference`, `c143_slice`, `c143_volume`, `c144_stored`, `c144_history`, `c144_order`, `c144_bins`, `c144_wider`, `c144_between`, `c144_near`, `c144_double`, `c144_own_fails`, `c144_frames_fails`, `c145_masks`, `c145_further`, `c145_wider`, `c145_order`, `c145_count`, `c145_sum_fails`, `c146_order`, `c146_wider`, `c146_parts`, `c146_read`, `c146_images`, `c147_kind`, `c147_rows`, `c147_read`, `c147_order`, `c147_further`, `c147_bins`, `c147_joined`, `c147_after`, `c148_wider`, `c148_read`, `c148_images`, `c149_subset`, `c149_again`, `c149_regions`, `c150_order`, `c150_sign`, `c150_back`, `c150_units`, `c150_exact`, `c150_compare`, `c150_own_copy_fails`, `c150_back_fails`, `c150_strict_fails`

## `Quot.sound`, `propext`

`c03_unchunked_read`, `c04_chunk_ranges_wellformed`, `c10_forbidden_order`, `c10_indices_need_homogeneous`, `c14_padding`, `c19_datasets`, `c20_guard`, `c21_get`, `c21_independent`, `c21_read_once`, `c21_not_read_while_held`, `c22_close_unopened_raises`, `c31_last`, `c34_fields`, `c38_blocks`, `c41_too_deep`, `c45_visits`, `c45_empty_fails`, `c45_single_neighbour_fails`, `c46_length`, `c47_words`, `c47_unreadable`, `c53_whole_box`, `c53_render_refused`, `c54_values`, `c54_flat_simple`, `c55_written_in_index_order`, `c58_sound`, `c58_complete`, `c59_not_periodic`, `c59_copies`, `c59_project`, `c59_slice`, `c59_render`, `c59_rotated`, `c60_empty_fails`, `c72_flat`, `c81_particles`, `c82_registry`, `c82_kind_tuple`, `c82_ufunc_tuple`, `c89_whole`, `c89_subset`, `c94_handle`, `c94_masked`, `c94_direct_mask_fails`, `c95_unordered_fails`, `c95_no_rows`, `c97_dimensions`, `c97_dimensionless_fails`, `c97_written`, `c97_angle_fails`, `c103_wrapped`, `c103_honest`, `c103_kept_partial`, `c103_mixed`, `c103_block`, `c103_operation_fails`, `c103_three_fails`, `c103_list_fails`, `c109_other_files`, `c109_no_cells_fails`, `c109_subset_fails`, `c111_transposed`, `c111_sum`, `c111_order`, `c111_masked`, `c124_slice_sum`, `c124_render_sum`, `c124_order`, `c124_masked`, `c124_slice_transposed`, `c124_render_whole`, `c124_render_turned`, `c124_render_tipped`, `c138_extents`, `c141_projections`, `c141_reference`, `c141_histogram`, `c141_slice`, `c141_volume`, `c141_limited`, `c142_histogram`, `c142_reference`, `c142_subsampled`, `c142_slice`, `c142_volume`, `c142_limited`, `c142_deposit`, `c144_refines`, `c147_call`, `c150_copy`, `c150_again`, `c150_error`, `c150_accepted`, `c150_in_place`, `c150_comparable`

## `propext`

`c03_unordered_fails`, `c03_nested_fails`, `c06_empty_local`, `c06_empty_fails_remote`, `c19_links_partial`, `c22_open_file_reopens_fails`, `c22_closed_at_construction_fails`, `c30_alias_fails`, `c31_no_particles_fails`, `c31_nothing_set_fails`, `c31_extra_header_fails`, `c31_generated_ids_stay_fails`, `c33_missing`, `c54_native`, `c54_idempotent`, `c54_nested_fails`, `c68_refused`, `c79_parallel`, `c82_kind`, `c82_bare`, `c82_nested_fails`, `c82_methods`, `c82_mul_unit`, `c82_ufunc`, `c82_wrapped`, `c82_wrapped_tuple_fails`, `c82_wrapped_fails`, `c82_flatten_fails`, `c82_squeeze`, `c82_ufunc_bare`, `c82_methods_foreign`, `c82_no_arrays`, `c88_validate`, `c94_closed`, `c98_columns_len`, `c109_snapshot_fails`

