{
 "claims": [
  {
   "property": "C01",
   "status": "proved",
   "theorems": [
    "Verif.Props.c01_rows_of_ranges",
    "Verif.Props.c01_expand_roundtrip"
   ],
   "note": "any integer list"
  },
  {
   "property": "C02",
   "status": "proved",
   "theorems": [
    "Verif.Props.c02_ranges_separated",
    "Verif.Props.c02_ranges_minimal"
   ],
   "note": "separation for strictly increasing lists, minimality for any list"
  },
  {
   "property": "C03",
   "status": "proved",
   "theorems": [
    "Verif.Props.c03_chunked_read",
    "Verif.Props.c03_unchunked_read",
    "Verif.Props.c03_chunked_eq_unchunked",
    "Verif.Props.c03_no_uninitialised",
    "Verif.Props.c03_sorted_indices_ordered",
    "Verif.Props.c03_unordered_fails",
    "Verif.Props.c03_nested_fails"
   ],
   "note": "columns and dtype not modelled; order hypothesis shown necessary"
  },
  {
   "property": "C04",
   "status": "proved",
   "theorems": [
    "Verif.Props.c04_chunk_coverage",
    "Verif.Props.c04_chunk_ranges_wellformed",
    "Verif.Props.c04_requested_rows_read"
   ],
   "note": ""
  },
  {
   "property": "C05",
   "status": "proved",
   "theorems": [
    "Verif.Props.c05_remote_read",
    "Verif.Props.c05_slices_sent",
    "Verif.Props.c05_overlap_refused"
   ],
   "note": "non-empty range lists; a range array without rows is covered under C06"
  },
  {
   "property": "C06",
   "status": "partial",
   "theorems": [
    "Verif.Props.c06_layout_irrelevant_partial",
    "Verif.Props.c06_empty_local",
    "Verif.Props.c06_empty_fails_remote"
   ],
   "note": "holds for every non-empty ordered disjoint range list and every layout; for the empty range list the remote reader raises IndexError (proved), local readers return no rows"
  },
  {
   "property": "C07",
   "status": "partial",
   "theorems": [
    "Verif.Props.c07_masked_read",
    "Verif.Props.c07_masked_read_remote_partial"
   ],
   "note": "full for local files (contiguous and chunked); for the remote reader the selection must be non-empty (empty selections raise, see C06)"
  },
  {
   "property": "C08",
   "status": "proved",
   "theorems": [
    "Verif.Props.c08_conversions_preserve",
    "Verif.Props.c08_size_after_roundtrip",
    "Verif.Props.c08_size_of_form"
   ],
   "note": ""
  },
  {
   "property": "C09",
   "status": "partial",
   "theorems": [
    "Verif.Props.c09_history_partial",
    "Verif.Props.c09_history_as_built",
    "Verif.Props.c09_refused_call_harmless",
    "Verif.Props.c09_union_on_bool_fails",
    "Verif.Props.c09_union_after_refused_property_fails"
   ],
   "note": "holds for histories in which no union (intersect=False ... after a boolean mask) is taken on a boolean mask; there the code loses the new region, proved as c09_union_on_bool_fails; the as-built semantics is proved for all histories"
  },
  {
   "property": "C10",
   "status": "proved",
   "theorems": [
    "Verif.Props.c10_forbidden_order",
    "Verif.Props.c10_indices_need_homogeneous",
    "Verif.Props.c10_accepted_iff",
    "Verif.Props.c10_new_mask"
   ],
   "note": ""
  },
  {
   "property": "C11",
   "status": "proved",
   "theorems": [
    "Verif.Props.c11_exact",
    "Verif.Props.c11_commute"
   ],
   "note": ""
  },
  {
   "property": "C12",
   "status": "proved",
   "theorems": [
    "Verif.Props.c12_axis",
    "Verif.Props.c12_complete_cells",
    "Verif.Props.c12_complete_rows",
    "Verif.Props.c12_closed_region_fails"
   ],
   "note": "half-open region reading; the closed-boundary reading fails (proved)"
  },
  {
   "property": "C13",
   "status": "proved",
   "theorems": [
    "Verif.Props.c13_selected_iff",
    "Verif.Props.c13_selected_meets",
    "Verif.Props.c13_window_raises",
    "Verif.Props.c13_free_axis"
   ],
   "note": ""
  },
  {
   "property": "C14",
   "status": "proved",
   "theorems": [
    "Verif.Props.c14_contains_geometric",
    "Verif.Props.c14_contains_extents",
    "Verif.Props.c14_contains_drifted",
    "Verif.Props.c14_no_larger",
    "Verif.Props.c14_padding"
   ],
   "note": ""
  },
  {
   "property": "C15",
   "status": "proved",
   "theorems": [
    "Verif.Props.c15_indices_read",
    "Verif.Props.c15_index_read",
    "Verif.Props.c15_indices_bool",
    "Verif.Props.c15_repeated_fails_remote",
    "Verif.Props.c15_out_of_range_accepted"
   ],
   "note": "duplicate row indices are refused by the remote reader (proved); out of range indices are accepted at constraint time and fail at read time (proved)"
  },
  {
   "property": "C16",
   "status": "proved",
   "theorems": [
    "Verif.Props.c16_counts"
   ],
   "note": "at least one cell per key; either representation; rows given by what a load of the row numbers returns"
  },
  {
   "property": "C17",
   "status": "partial",
   "theorems": [
    "Verif.Props.c17_subset_partial",
    "Verif.Props.c17_empty_dataset_fails"
   ],
   "note": "full statement for datasets with at least one row; a dataset without rows makes the writer raise (c17_empty_dataset_fails). Multi-column shape and dtype not modelled"
  },
  {
   "property": "C18",
   "status": "partial",
   "theorems": [
    "Verif.Props.c18_subset_of_subset_partial",
    "Verif.Props.c18_order_kept",
    "Verif.Props.c18_emptied_type_fails"
   ],
   "note": "composition and partition proved for all histories; a first subset that keeps no row of a type cannot be subset again (c18_emptied_type_fails)"
  },
  {
   "property": "C19",
   "status": "partial",
   "theorems": [
    "Verif.Props.c19_datasets",
    "Verif.Props.c19_dangling_raises",
    "Verif.Props.c19_links_partial",
    "Verif.Props.c19_nested_links_fails"
   ],
   "note": "datasets: full; links: only direct members of the root are found (c19_links_partial), nested ones are lost (c19_nested_links_fails)"
  },
  {
   "property": "C20",
   "status": "proved",
   "theorems": [
    "Verif.Props.c20_guard"
   ],
   "note": "all files, all histories"
  },
  {
   "property": "C21",
   "status": "proved",
   "theorems": [
    "Verif.Props.c21_get",
    "Verif.Props.c21_independent",
    "Verif.Props.c21_read_once",
    "Verif.Props.c21_not_read_while_held"
   ],
   "note": "Values are not aliased in the model; the file is assumed not to change. Reads are counted for fields the file holds. A field whose name is 'handle' would share the attribute '_handle' with HandleProvider and is outside the model."
  },
  {
   "property": "C22",
   "status": "partial",
   "theorems": [
    "Verif.Props.c22_closed_by_owner",
    "Verif.Props.c22_given_never_closed",
    "Verif.Props.c22_close_releases",
    "Verif.Props.c22_one_open_handle",
    "Verif.Props.c22_temporaries_closed",
    "Verif.Props.c22_closed_external_raises_partial",
    "Verif.Props.c22_open_file_reopens_fails",
    "Verif.Props.c22_closed_at_construction_fails",
    "Verif.Props.c22_close_unopened_raises"
   ],
   "note": "Ownership, release, temporaries and the handle property are proved for all programs. The last clause fails for open_file and for handles closed before construction; both are proved as negations."
  },
  {
   "property": "C23",
   "status": "proved",
   "theorems": [
    "Verif.Props.c23_convert",
    "Verif.Props.c23_sequence",
    "Verif.Props.c23_idempotent",
    "Verif.Props.c23_values",
    "Verif.Props.c23_refused"
   ],
   "note": ""
  },
  {
   "property": "C24",
   "status": "proved",
   "theorems": [
    "Verif.Props.c24_matching",
    "Verif.Props.c24_multiply",
    "Verif.Props.c24_divide",
    "Verif.Props.c24_power",
    "Verif.Props.c24_unary"
   ],
   "note": ""
  },
  {
   "property": "C25",
   "status": "proved",
   "theorems": [
    "Verif.Props.c25_homogeneous",
    "Verif.Props.c25_add_subtract",
    "Verif.Props.c25_extrema",
    "Verif.Props.c25_unary",
    "Verif.Props.c25_scale_free",
    "Verif.Props.c25_compare"
   ],
   "note": ""
  },
  {
   "property": "C26",
   "status": "partial",
   "theorems": [
    "Verif.Props.c26_scale_factors",
    "Verif.Props.c26_factors",
    "Verif.Props.c26_comparisons",
    "Verif.Props.c26_exponent",
    "Verif.Props.c26_small_factors_fails",
    "Verif.Props.c26_power_fails",
    "Verif.Props.c26_concatenate_fails"
   ],
   "note": "proved for all wrapped ufuncs when scale factors differ (except power) and when the numerical factors differ by more than the tolerance of the code; exponents themselves are not compared (np.isclose on a^k), power and concatenate accept mixed scale factors: negations proved"
  },
  {
   "property": "C27",
   "status": "partial",
   "theorems": [
    "Verif.Props.c27_exponents",
    "Verif.Props.c27_assoc_comm",
    "Verif.Props.c27_identity_inverse",
    "Verif.Props.c27_redshift",
    "Verif.Props.c27_sum",
    "Verif.Props.c27_equality_partial",
    "Verif.Props.c27_exponents_not_compared_fails",
    "Verif.Props.c27_not_transitive_fails",
    "Verif.Props.c27_not_symmetric_fails"
   ],
   "note": "group laws proved in full; equality is np.isclose on a^k, hence not an equivalence on exponents (negations proved), what it guarantees is c27_equality_partial"
  },
  {
   "property": "C28",
   "status": "partial",
   "theorems": [
    "Verif.Props.c28_chain",
    "Verif.Props.c28_operand",
    "Verif.Props.c28_constructor_fails",
    "Verif.Props.c28_list_constructor_fails"
   ],
   "note": "every chain of ufuncs, conversions and concatenations over arrays that are not convertible; the constructor given such an array resets the flag (negations proved)"
  },
  {
   "property": "C29",
   "status": "partial",
   "theorems": [
    "Verif.Props.c29_constructor",
    "Verif.Props.c29_concatenate",
    "Verif.Props.c29_all_comoving_fails",
    "Verif.Props.c29_all_physical_fails",
    "Verif.Props.c29_mixed_physical_fails"
   ],
   "note": "proved for lists of any mix of frames without explicit comoving argument; an explicit comoving argument relabels without conversion (negations proved)"
  },
  {
   "property": "C30",
   "status": "partial",
   "theorems": [
    "Verif.Props.c30_generated",
    "Verif.Props.c30_given",
    "Verif.Props.c30_refused",
    "Verif.Props.c30_positive",
    "Verif.Props.c30_alias_fails"
   ],
   "note": "Proved for all histories in which nobody writes into an ID array after giving it to the writer; with such a write the IDs in the file need not be positive (c30_alias_fails)."
  },
  {
   "property": "C31",
   "status": "partial",
   "theorems": [
    "Verif.Props.c31_written",
    "Verif.Props.c31_complete",
    "Verif.Props.c31_refused",
    "Verif.Props.c31_no_particles_fails",
    "Verif.Props.c31_nothing_set_fails",
    "Verif.Props.c31_extra_header_fails",
    "Verif.Props.c31_generated_ids_stay_fails",
    "Verif.Props.c31_last",
    "Verif.Props.c31_last_written"
   ],
   "note": "Proved for writers without an extra header. Types with no particles pass the checks and leave a truncated file (c31_no_particles_fails); an extra header can replace the counts (c31_extra_header_fails)."
  },
  {
   "property": "C32",
   "status": "partial",
   "theorems": [
    "Verif.Props.c32_round_trip_partial",
    "Verif.Props.c32_exponent_zero_fails",
    "Verif.Props.c32_physical_fails",
    "Verif.Props.c32_not_convertible",
    "Verif.Props.c32_mismatch",
    "Verif.Props.c32_no_exponent"
   ],
   "note": "Proved for convertible fields with a scale-factor exponent other than zero. Exponent zero comes back as one (c32_exponent_zero_fails); physical fields come back as comoving (c32_physical_fails); fields that are not convertible are refused (c32_not_convertible)."
  },
  {
   "property": "C33",
   "status": "proved",
   "theorems": [
    "Verif.Props.c33_known",
    "Verif.Props.c33_unknown",
    "Verif.Props.c33_missing",
    "Verif.Props.c33_subset_reader",
    "Verif.Props.c33_subset_twice",
    "Verif.Props.c33_subset_total",
    "Verif.Props.c33_subset_readable"
   ],
   "note": ""
  },
  {
   "property": "C34",
   "status": "proved",
   "theorems": [
    "Verif.Props.c34_positions",
    "Verif.Props.c34_lower",
    "Verif.Props.c34_letters",
    "Verif.Props.c34_idempotent",
    "Verif.Props.c34_fields",
    "Verif.Props.c34_collision_fails",
    "Verif.Props.c34_attribute_fails"
   ],
   "note": "Proved for ASCII names. Names that agree up to case and underscores collide: c34_collision_fails, c34_attribute_fails (outside the statement)."
  },
  {
   "property": "C35",
   "status": "proved",
   "theorems": [
    "Verif.Props.c35_histogram",
    "Verif.Props.c35_total"
   ],
   "note": "c35_histogram gives every pixel, c35_total the sum. Exact arithmetic, positions wrapped into the box by the caller."
  },
  {
   "property": "C36",
   "status": "partial",
   "theorems": [
    "Verif.Props.c36_fast_copy",
    "Verif.Props.c36_fast",
    "Verif.Props.c36_gpu",
    "Verif.Props.c36_reference",
    "Verif.Props.c36_slice_partial",
    "Verif.Props.c36_slice_truncated_fails",
    "Verif.Props.c36_volume_partial",
    "Verif.Props.c36_volume_truncated_fails"
   ],
   "note": "Proved for histogram, fast, GPU and reference backends (c36_fast_copy, c36_fast, c36_gpu, c36_reference). The slice and the voxel render leave out the last column of the kernel support: c36_slice_partial and c36_volume_partial say exactly which pixels are drawn, c36_slice_truncated_fails and c36_volume_truncated_fails give pixels inside the kernel that get nothing."
  },
  {
   "property": "C37",
   "status": "partial",
   "theorems": [
    "Verif.Props.c37_once",
    "Verif.Props.c37_complete",
    "Verif.Props.c37_wide_kernel_fails",
    "Verif.Props.c37_limited_partial",
    "Verif.Props.c37_limited_fails"
   ],
   "note": "Proved for the common tiling (c37_once, c37_complete, and the whole images in c36_fast, c35_histogram, c36_slice_partial, c36_volume_partial). scatter_limited_z only tiles images no wider than the box (c37_limited_partial, c37_limited_fails). Kernels larger than the box are outside the claim and do lose copies (c37_wide_kernel_fails)."
  },
  {
   "property": "C38",
   "status": "partial",
   "theorems": [
    "Verif.Props.c38_blocks",
    "Verif.Props.c38_parallel",
    "Verif.Props.c38_backends",
    "Verif.Props.c38_layers_fails",
    "Verif.Props.c38_one_layer_fails"
   ],
   "note": "c38_backends for every thread count and completion order; fails for the voxel render with a reduced number of layers: it is refused (c38_layers_fails), or the only layer is repeated (c38_one_layer_fails)."
  },
  {
   "property": "C39",
   "status": "proved",
   "theorems": [
    "Verif.Props.c39_projection",
    "Verif.Props.c39_slice",
    "Verif.Props.c39_volume"
   ],
   "note": "No hypotheses on particles, kernel or grid."
  },
  {
   "property": "C40",
   "status": "partial",
   "theorems": [
    "Verif.Props.c40_image",
    "Verif.Props.c40_mass_partial",
    "Verif.Props.c40_exact",
    "Verif.Props.c40_at_least",
    "Verif.Props.c40_fails"
   ],
   "note": "c40_image gives every pixel of the renormalised backend exactly. Particles whose kernel and image square are far from the border keep their mass when fract(res*H) <= 1/2 (c40_mass_partial); c40_exact says exactly when; c40_at_least shows mass is never lost; c40_fails: the normalising loop leaves out the outermost row and column, so mass is gained."
  },
  {
   "property": "C41",
   "status": "partial",
   "theorems": [
    "Verif.Props.c41_depth_partial",
    "Verif.Props.c41_too_deep",
    "Verif.Props.c41_empty_range_fails",
    "Verif.Props.c41_reversed_fails"
   ],
   "note": "c41_depth_partial: for every range shorter than the box a particle is chosen iff some periodic copy lies in the range, with no double counting. c41_too_deep: longer ranges raise. c41_empty_range_fails and c41_reversed_fails: ranges of length zero or reversed choose wrong particles when periodic."
  },
  {
   "property": "C42",
   "status": "partial",
   "theorems": [
    "Verif.Props.c42_one_cell",
    "Verif.Props.c42_cells",
    "Verif.Props.c42_total",
    "Verif.Props.c42_parallel",
    "Verif.Props.c42_render",
    "Verif.Props.c42_refused",
    "Verif.Props.c42_physical_fails"
   ],
   "note": "Kernel of the deposition for all positions, resolutions and foldings (c42_one_cell, c42_cells, c42_total, c42_parallel); end to end for comoving coordinates (c42_render). c42_physical_fails: physical coordinates are folded with the comoving box. Incompatible frames and units are refused (c42_refused)."
  },
  {
   "property": "C43",
   "status": "proved",
   "theorems": [
    "Verif.Props.c43_folding",
    "Verif.Props.c43_cell",
    "Verif.Props.c43_periodic"
   ],
   "note": "For every whole folding factor; also periodic copies by pieces of the box."
  },
  {
   "property": "C44",
   "status": "partial",
   "theorems": [
    "Verif.Props.c44_rotation_partial",
    "Verif.Props.c44_nearly_along",
    "Verif.Props.c44_parallel_fails",
    "Verif.Props.c44_opposite_fails",
    "Verif.Props.c44_axis"
   ],
   "note": "c44_rotation_partial: all vectors that are not nearly along the axis. c44_nearly_along: the others give a mirror image (det -1); c44_parallel_fails, c44_opposite_fails."
  },
  {
   "property": "C45",
   "status": "partial",
   "theorems": [
    "Verif.Props.c45_assign",
    "Verif.Props.c45_blocks",
    "Verif.Props.c45_visits",
    "Verif.Props.c45_lengths",
    "Verif.Props.c45_empty_fails",
    "Verif.Props.c45_few_fails",
    "Verif.Props.c45_single_neighbour_fails"
   ],
   "note": "Visits and block results for every particle number and block size (c45_blocks, c45_visits); end to end with a k-d tree modelled by its documented result (c45_lengths). Failing: no particles raise (c45_empty_fails), fewer particles than neighbours give infinite lengths (c45_few_fails), a single neighbour raises (c45_single_neighbour_fails)."
  },
  {
   "property": "C46",
   "status": "partial",
   "theorems": [
    "Verif.Props.c46_length",
    "Verif.Props.c46_species",
    "Verif.Props.c46_fraction",
    "Verif.Props.c46_default",
    "Verif.Props.c46_missing_mass_fails",
    "Verif.Props.c46_negative_fails",
    "Verif.Props.c46_fraction_lost_fails"
   ],
   "note": "All lists with one whole degeneracy per mass: acceptance is characterised exactly and the result is the list of species. Fractional degeneracies are refused. Failing: fewer masses than degeneracies (c46_missing_mass_fails), negative degeneracies (c46_negative_fails), fractional massless species (c46_fraction_lost_fails)."
  },
  {
   "property": "C47",
   "status": "partial",
   "theorems": [
    "Verif.Props.c47_words",
    "Verif.Props.c47_entries",
    "Verif.Props.c47_columns",
    "Verif.Props.c47_unreadable",
    "Verif.Props.c47_file",
    "Verif.Props.c47_ragged_fails",
    "Verif.Props.c47_single_space_fails",
    "Verif.Props.c47_titles_fails",
    "Verif.Props.c47_whole_first_fails",
    "Verif.Props.c47_no_data_fails"
   ],
   "note": "c47_entries: all lines, also ragged ones; c47_columns: rectangular tables; c47_file: whole files from the comments to the attributes, for different titles and names and names two spaces apart; c47_unreadable. Reading a number or a unit from text is a parameter. Failing: ragged rows are filled with zeros (c47_ragged_fails), single spaces between names shift columns (c47_single_space_fails), titles equal up to the first full stop share a unit (c47_titles_fails), a fractional column that starts with a whole number (c47_whole_first_fails), files without data (c47_no_data_fails)."
  },
  {
   "property": "C48",
   "status": "partial",
   "theorems": [
    "Verif.Props.c48_node",
    "Verif.Props.c48_call",
    "Verif.Props.c48_call_list",
    "Verif.Props.c48_linear",
    "Verif.Props.c48_range",
    "Verif.Props.c48_anchor_partial",
    "Verif.Props.c48_transposed_fails",
    "Verif.Props.c48_mixed_fails",
    "Verif.Props.c48_far_fails",
    "Verif.Props.c48_list_fails",
    "Verif.Props.c48_list_whole_fails",
    "Verif.Props.c48_three_channels_fails"
   ],
   "note": "Lookup for all arrays and any grid (c48_node, c48_call), exact blend for linear segmented maps (c48_linear), channels in range (c48_range). c48_anchor_partial: anchors without others within distance one, up to the factor 1.0001. Failing: values and coordinates are exchanged (c48_transposed_fails), nearby anchors are mixed (c48_mixed_fails), no colour far from anchors (c48_far_fails), vertical values in lists (c48_list_fails, c48_list_whole_fails), images without transparency (c48_three_channels_fails). HSV conversion and image reading are not modelled."
  },
  {
   "property": "C49",
   "status": "proved",
   "theorems": [
    "Verif.Props.c49_projection",
    "Verif.Props.c49_volume",
    "Verif.Props.c49_continuous",
    "Verif.Props.c49_projection_integral",
    "Verif.Props.c49_volume_integral",
    "Verif.Props.c49_projection_width",
    "Verif.Props.c49_volume_width",
    "Verif.Props.c49_rooted"
   ],
   "note": "Kernels with the constants of the code: zero outside, positive inside, decreasing, continuous, normalised to 1e-6 (2D) and 1e-18 (3D), and with kernel_gamma * h as radius of standard deviation h/2 per direction to 1e-6, over the reals."
  },
  {
   "property": "C50",
   "status": "partial",
   "theorems": [
    "Verif.Props.c50_present",
    "Verif.Props.c50_declared",
    "Verif.Props.c50_distinct",
    "Verif.Props.c50_aligned",
    "Verif.Props.c50_names_distinct",
    "Verif.Props.c50_names_exist",
    "Verif.Props.c50_ninth_type_fails",
    "Verif.Props.c50_undeclared_fails",
    "Verif.Props.c50_soap_name",
    "Verif.Props.c50_soap_unknown",
    "Verif.Props.c50_soap_distinct",
    "Verif.Props.c50_soap_levels_fails"
   ],
   "note": "Proved for snapshot headers and for SOAP groups with one level. A type missing from CanHaveTypes but with particles is not listed (c50_undeclared_fails); SOAP groups with several levels can share a name (c50_soap_levels_fails)."
  },
  {
   "property": "C51",
   "status": "proved",
   "theorems": [
    "Verif.Props.c51_nearest",
    "Verif.Props.c51_total",
    "Verif.Props.c51_error",
    "Verif.Props.c51_exact",
    "Verif.Props.c51_digits",
    "Verif.Props.c51_attributes",
    "Verif.Props.c51_missing"
   ],
   "note": "Sizes are real numbers; decimal rounding to five digits is modelled, binary rounding is not."
  },
  {
   "property": "C52",
   "status": "partial",
   "theorems": [
    "Verif.Props.c52_propagated",
    "Verif.Props.c52_reductions",
    "Verif.Props.c52_keep",
    "Verif.Props.c52_prod",
    "Verif.Props.c52_products",
    "Verif.Props.c52_where",
    "Verif.Props.c52_clip",
    "Verif.Props.c52_histogram",
    "Verif.Props.c52_density",
    "Verif.Props.c52_var_fails",
    "Verif.Props.c52_einsum_fails",
    "Verif.Props.c52_fft_fails",
    "Verif.Props.c52_det_stack_fails",
    "Verif.Props.c52_average_fails",
    "Verif.Props.c52_clip_keywords_fails",
    "Verif.Props.c52_select_fails",
    "Verif.Props.c52_where_condition_fails",
    "Verif.Props.c52_bin_edges_fails",
    "Verif.Props.c52_interp_fails",
    "Verif.Props.c52_density_weights_fails",
    "Verif.Props.c52_histogram2d_edges_fails"
   ],
   "note": "proved for sum, mean, min, max, median, sort, cumsum, diff, prod, dot, outer, clip, where, histograms; var, einsum, fft, det of stacks, average, select, interp, weighted density histograms and histogram2d edges fail (negations proved). Standard deviation is not wrapped by the package (numpy's implementation runs) and not modelled"
  },
  {
   "property": "C53",
   "status": "partial",
   "theorems": [
    "Verif.Props.c53_projection_partial",
    "Verif.Props.c53_whole_box",
    "Verif.Props.c53_square",
    "Verif.Props.c53_norm_fails",
    "Verif.Props.c53_unframed_fails",
    "Verif.Props.c53_slice_partial",
    "Verif.Props.c53_render_partial",
    "Verif.Props.c53_render_refused",
    "Verif.Props.c53_render_tiny_fails"
   ],
   "note": "Projection and slice end to end for all regions, boxes, depths and masks; pixel values are the physical density times max_range^2/(xr*yr) for the projection (c53_norm_fails: wrong for regions that are not square; c53_square: right for square ones), exact for the slice up to the truncation found under C36. c53_unframed_fails: fields without frame are not normalised. c53_render_partial: voxel grids of exactly cubic regions; c53_render_refused: other regions are refused, except very small ones (c53_render_tiny_fails)."
  },
  {
   "property": "C54",
   "status": "partial",
   "theorems": [
    "Verif.Props.c54_values",
    "Verif.Props.c54_native",
    "Verif.Props.c54_idempotent",
    "Verif.Props.c54_flat_simple",
    "Verif.Props.c54_nested_fails"
   ],
   "note": "Flat and simple types are converted to native order with every value kept. A nested structure with mixed byte order is swapped as a whole: proved to fail by c54_nested_fails."
  },
  {
   "property": "C55",
   "status": "partial",
   "theorems": [
    "Verif.Props.c55_written_in_index_order",
    "Verif.Props.c55_written_in_any_order_partial",
    "Verif.Props.c55_empty_first_type_fails"
   ],
   "note": "holds when every cell has a particle of the first type, or cells are stored in index order; the general statement fails (witness proved)"
  },
  {
   "property": "C56",
   "status": "partial",
   "theorems": [
    "Verif.Props.c56_written_partial",
    "Verif.Props.c56_not_through_links",
    "Verif.Props.c56_substring_fails"
   ],
   "note": "holds for names that contain no link name or reserved word; witness of loss proved"
  },
  {
   "property": "C57",
   "status": "partial",
   "theorems": [
    "Verif.Props.c57_mixed_partial",
    "Verif.Props.c57_comoving_fails"
   ],
   "note": "holds when the convertible operand is physical; a comoving operand is used without conversion, because _prepare_array_func_args (949-956) converts the arguments that are not comoving to physical form (negation proved)"
  },
  {
   "property": "C58",
   "status": "partial",
   "theorems": [
    "Verif.Props.c58_format",
    "Verif.Props.c58_sound",
    "Verif.Props.c58_complete",
    "Verif.Props.c58_columns",
    "Verif.Props.c58_case_fails",
    "Verif.Props.c58_empty_fails"
   ],
   "note": "Names that differ in case only are merged (c58_case_fails); an empty list of columns raises (c58_empty_fails)."
  },
  {
   "property": "C59",
   "status": "partial",
   "theorems": [
    "Verif.Props.c59_inside",
    "Verif.Props.c59_not_periodic",
    "Verif.Props.c59_copies",
    "Verif.Props.c59_periodic_images",
    "Verif.Props.c59_images",
    "Verif.Props.c59_project",
    "Verif.Props.c59_slice",
    "Verif.Props.c59_render",
    "Verif.Props.c59_rotated",
    "Verif.Props.c59_data_fails",
    "Verif.Props.c59_image_fails"
   ],
   "note": "Data in the box are never changed (c59_inside), nor by images that are not periodic (c59_not_periodic); periodic images are always those of fresh data (c59_periodic_images). In general particles are replaced by periodic copies (c59_copies). Failing for particles outside the box: c59_data_fails, c59_image_fails. c59_project, c59_slice, c59_render and c59_rotated tie the sessions to the front ends of C53."
  },
  {
   "property": "C60",
   "status": "proved",
   "theorems": [
    "Verif.Props.c60_backend",
    "Verif.Props.c60_slice",
    "Verif.Props.c60_empty_fails",
    "Verif.Props.c60_tree_exists"
   ],
   "note": "c60_slice end to end, c60_backend for the backend, for every tree that returns a nearest particle (IsTree; c60_tree_exists). Without selected particles there is an IndexError (c60_empty_fails)."
  },
  {
   "property": "C61",
   "status": "partial",
   "theorems": [
    "Verif.Props.c61_image",
    "Verif.Props.c61_parallel",
    "Verif.Props.c61_within",
    "Verif.Props.c61_intended_partial",
    "Verif.Props.c61_mass",
    "Verif.Props.c61_evaluations",
    "Verif.Props.c61_upper_border_fails"
   ],
   "note": "The image is given exactly (c61_image), small kernels keep their mass (c61_mass), every larger kernel is sampled at least 2E times along each axis of its square (c61_evaluations), and linearity and threads are proved. The intended image is proved for small kernels that do not reach over an upper border of a pixel (c61_intended_partial); for the others it is refuted (c61_upper_border_fails): dx_right and dy_up are taken from 1 and not from the width of a pixel. Exact arithmetic; the kernel is any compact function."
  },
  {
   "property": "C62",
   "status": "partial",
   "theorems": [
    "Verif.Props.c62_spectrum_partial",
    "Verif.Props.c62_refused",
    "Verif.Props.c62_total",
    "Verif.Props.c62_range",
    "Verif.Props.c62_default",
    "Verif.Props.c62_auto",
    "Verif.Props.c62_invariant",
    "Verif.Props.c62_first_length",
    "Verif.Props.c62_not_cubic_fails",
    "Verif.Props.c62_folding"
   ],
   "note": "Exact real and complex arithmetic; the discrete Fourier transform is scipy's documented sum. Proved for cubic boxes: counts, mean wave numbers, powers (c62_spectrum_partial), total (c62_total), signs and bin limits (c62_range), default bins (c62_default), independence of units, origin and order (c62_invariant), folding (c62_folding), refusals. The code takes only the first length of the box (c62_first_length), so for other boxes the statement fails (c62_not_cubic_fails)."
  },
  {
   "property": "C63",
   "status": "partial",
   "theorems": [
    "Verif.Props.c63_best",
    "Verif.Props.c63_edges",
    "Verif.Props.c63_order",
    "Verif.Props.c63_refused",
    "Verif.Props.c63_succeeds",
    "Verif.Props.c63_unsampled_fails",
    "Verif.Props.c63_label_fails"
   ],
   "note": "Proved: choice of the folding in every bin (c63_best), edges, independence of order, refusals and success. Three parts fail: powers are labelled with the inverse of the cosmology factor of a volume (c63_label_fails); a lowest folding without waves makes the call fail if a cutoff fraction is given (c63_unsampled_fails); bins that no folding fills are marked with tracker 1, like those of an unfolded box (second case of c63_best). Floating-point rounding is left out."
  },
  {
   "property": "C64",
   "status": "partial",
   "theorems": [
    "Verif.Props.c64_groups",
    "Verif.Props.c64_time",
    "Verif.Props.c64_numbers",
    "Verif.Props.c64_scale_factor",
    "Verif.Props.c64_box",
    "Verif.Props.c64_plain",
    "Verif.Props.c64_texts",
    "Verif.Props.c64_date",
    "Verif.Props.c64_counts",
    "Verif.Props.c64_masses",
    "Verif.Props.c64_schemes",
    "Verif.Props.c64_nothing_else",
    "Verif.Props.c64_succeeds",
    "Verif.Props.c64_refused",
    "Verif.Props.c64_cosmology",
    "Verif.Props.c64_cosmology_text",
    "Verif.Props.c64_text_numbers_fails",
    "Verif.Props.c64_redshift_fails",
    "Verif.Props.c64_scalar_counts_fails",
    "Verif.Props.c64_refused_values",
    "Verif.Props.c64_exceptions"
   ],
   "note": "Proved for all headers: groups, times, numbers, scale factor, box, plain entries, texts, date, counts, masses, schemes, cosmology, nothing else set, success for well-formed headers. Two negations: a header with a redshift but no scale factor is read with scale factor one (nothing relates them), and counts stored as one number are read as no particles. Not modelled: the astropy object made from the cosmology group, sharing of memory with the header."
  },
  {
   "property": "C65",
   "status": "partial",
   "theorems": [
    "Verif.Props.c65_key",
    "Verif.Props.c65_key_fails",
    "Verif.Props.c65_table",
    "Verif.Props.c65_mappings",
    "Verif.Props.c65_refused",
    "Verif.Props.c65_ignored",
    "Verif.Props.c65_errors",
    "Verif.Props.c65_prefix_fails",
    "Verif.Props.c65_underscore_fails"
   ],
   "note": "Proved: keys whose second name has no To are split, tables under the snake case name of the key, entries, no other entries, exactly which tables are refused. Three negations: a second name that contains To is split at its last To, the first named column that starts with the name is taken whatever it is, names with underscores can collide. Not modelled: the DeprecationWarning."
  },
  {
   "property": "C66",
   "status": "proved",
   "theorems": [
    "Verif.Props.c66_parameters",
    "Verif.Props.c66_hubble",
    "Verif.Props.c66_temperature",
    "Verif.Props.c66_inverse",
    "Verif.Props.c66_neutrinos",
    "Verif.Props.c66_succeeds",
    "Verif.Props.c66_refused",
    "Verif.Props.c66_missing",
    "Verif.Props.c66_text_refused",
    "Verif.Props.c66_radiation_fails",
    "Verif.Props.c66_species_refused",
    "Verif.Props.c66_species_kind"
   ],
   "note": "Proved for all groups. One negation: without temperature the radiation of the cosmology astropy makes (photons and massless neutrinos) exceeds the radiation of the file. The formula for massless neutrinos is that of the astropy documentation. astropy itself is not modelled."
  },
  {
   "property": "C67",
   "status": "proved",
   "theorems": [
    "Verif.Props.c67_groups",
    "Verif.Props.c67_file_order",
    "Verif.Props.c67_order",
    "Verif.Props.c67_order_fails",
    "Verif.Props.c67_names",
    "Verif.Props.c67_names_fails",
    "Verif.Props.c67_values",
    "Verif.Props.c67_positions",
    "Verif.Props.c67_others",
    "Verif.Props.c67_refused",
    "Verif.Props.c67_collision_fails"
   ],
   "note": "Groups, order, names, values, positions, other attributes and refusals. c67_order_fails: above the number that the digits allow (10000 lines of sight) the order is not numeric. c67_names_fails: names that differ in case or in underscores only clash. c67_collision_fails: two attributes with the same Python name, the last one is read."
  },
  {
   "property": "C68",
   "status": "proved",
   "theorems": [
    "Verif.Props.c68_extra",
    "Verif.Props.c68_succeeds",
    "Verif.Props.c68_numbers",
    "Verif.Props.c68_box",
    "Verif.Props.c68_refused",
    "Verif.Props.c68_counts",
    "Verif.Props.c68_types",
    "Verif.Props.c68_masses",
    "Verif.Props.c68_box_fails",
    "Verif.Props.c68_units",
    "Verif.Props.c68_current_fails",
    "Verif.Props.c68_units_fails"
   ],
   "note": "Composes the models of the writer, of the header and of the units. Negative results: c68_box_fails (a physical box is read as comoving), c68_current_fails (the unit of current is always written as one ampere), c68_units_fails (units with more than five digits change). The fields themselves are C31 and C32."
  },
  {
   "property": "C69",
   "status": "proved",
   "theorems": [
    "Verif.Props.c69_spacing",
    "Verif.Props.c69_refused"
   ],
   "note": "Over the reals."
  },
  {
   "property": "C70",
   "status": "proved",
   "theorems": [
    "Verif.Props.c70_copies",
    "Verif.Props.c70_slice",
    "Verif.Props.c70_convert",
    "Verif.Props.c70_others",
    "Verif.Props.c70_history",
    "Verif.Props.c70_construct_fails",
    "Verif.Props.c70_refused_fails",
    "Verif.Props.c70_assign",
    "Verif.Props.c70_writer",
    "Verif.Props.c70_slice_fails",
    "Verif.Props.c70_writer_refused",
    "Verif.Props.c70_writer_fails",
    "Verif.Props.c70_assign_fails"
   ],
   "note": "Copies, slices, histories of programs and fields of a writer are proved. The unrestricted statement fails: converting a slice in place changes the array it was taken from (c70_slice_fails); cosmo_array(x, comoving=c) rescales the numbers of x itself (c70_construct_fails), even if it then raises (c70_refused_fails); two slices of one array given to a writer are converted twice (c70_writer_fails); item assignment ignores the frame (c70_assign_fails). Arrays hold floating-point numbers; unyt's unit conversion in place is an assumption of the model."
  },
  {
   "property": "C71",
   "status": "partial",
   "theorems": [
    "Verif.Props.c71_factor",
    "Verif.Props.c71_numbers",
    "Verif.Props.c71_consistent",
    "Verif.Props.c71_array",
    "Verif.Props.c71_without_factor_refused",
    "Verif.Props.c71_copied",
    "Verif.Props.c71_quantity",
    "Verif.Props.c71_quantity_factor",
    "Verif.Props.c71_quantity_fails",
    "Verif.Props.c71_bypass",
    "Verif.Props.c71_bypass_fails",
    "Verif.Props.c71_import_fails",
    "Verif.Props.c71_import_factor_fails",
    "Verif.Props.c71_ignored_fails"
   ],
   "note": "Acceptance and contents are proved for arrays of numbers, consistency for all validating constructors. It fails for cosmo_quantity(q, comoving=c), which relabels (c71_quantity_fails), for bypass_validation with scale_factor and scale_exponent (c71_bypass_fails), for from_astropy and from_pint (c71_import_fails) and for a cosmo_factor given with an array (c71_ignored_fails). Units, dtype, name and compression are not modelled."
  },
  {
   "property": "C72",
   "status": "partial",
   "theorems": [
    "Verif.Props.c72_frames",
    "Verif.Props.c72_unknown",
    "Verif.Props.c72_project",
    "Verif.Props.c72_slice",
    "Verif.Props.c72_render",
    "Verif.Props.c72_flat",
    "Verif.Props.c72_cubic_fails"
   ],
   "note": "c72_frames is for fields in a known frame, c72_project, c72_slice and c72_render for lengths. Fails for the test of a cubic region, which has an absolute tolerance (c72_cubic_fails). Fields in an unknown frame are not divided by the norm (c53_unframed_fails)."
  },
  {
   "property": "C73",
   "status": "partial",
   "theorems": [
    "Verif.Props.c73_write",
    "Verif.Props.c73_moves",
    "Verif.Props.c73_refused",
    "Verif.Props.c73_bare",
    "Verif.Props.c73_fill_diagonal_fails",
    "Verif.Props.c73_insert",
    "Verif.Props.c73_linspace",
    "Verif.Props.c73_trapezoid",
    "Verif.Props.c73_solve",
    "Verif.Props.c73_lstsq",
    "Verif.Props.c73_eig",
    "Verif.Props.c73_pad",
    "Verif.Props.c73_pad_fails",
    "Verif.Props.c73_meshgrid",
    "Verif.Props.c73_block_fails",
    "Verif.Props.c73_choose_fails",
    "Verif.Props.c73_logspace_fails",
    "Verif.Props.c73_histogramdd",
    "Verif.Props.c73_density_edges_fails",
    "Verif.Props.c73_bare_fails",
    "Verif.Props.c73_apply_over_axes_fails",
    "Verif.Props.c73_counts",
    "Verif.Props.c73_place_values",
    "Verif.Props.c73_putmask_values",
    "Verif.Props.c73_put_index",
    "Verif.Props.c73_put_values",
    "Verif.Props.c73_fill_diagonal_values",
    "Verif.Props.c73_insert_values",
    "Verif.Props.c73_trapezoid_line",
    "Verif.Props.c73_block_values",
    "Verif.Props.c73_put_along_values",
    "Verif.Props.c73_block_refused",
    "Verif.Props.c73_block_frames",
    "Verif.Props.c73_apply_over_axes"
   ],
   "note": "Proved for arrays that can be converted, in any mix of frames: c73_write (with c73_moves for the six writers and insert) gives both arrays after the call, also when numpy refuses; c73_refused; c73_insert, c73_linspace (with its step), c73_trapezoid, c73_solve, c73_lstsq and c73_eig (relative to a solver that is correct on numbers), c73_pad, c73_meshgrid, c73_histogramdd (any number of dimensions, weights given, explicit edges). It fails: fill_diagonal with a bare number is always an AttributeError (c73_fill_diagonal_fails); bare numbers take the meaning of the frame they are written into (c73_bare, c73_bare_fails); block returns a list as cosmo_factor (c73_block_fails); choose returns an array without a frame that claims to be convertible (c73_choose_fails); logspace keeps the factor of the base for any power (c73_logspace_fails); pad accepts a value that scales differently (c73_pad_fails); histogramdd with density=True labels all edges with the factor of the first sample (c73_density_edges_fails); apply_over_axes counts the second axis in the reduced array (c73_apply_over_axes_fails). Units and arrays of more than one dimension (beyond flat matrices) are not modelled; sources that share memory with other arrays are in C70."
  },
  {
   "property": "C74",
   "status": "partial",
   "theorems": [
    "Verif.Props.c74_out",
    "Verif.Props.c74_sums",
    "Verif.Props.c74_multiply",
    "Verif.Props.c74_divide",
    "Verif.Props.c74_frame",
    "Verif.Props.c74_view",
    "Verif.Props.c74_inplace_fails",
    "Verif.Props.c74_multiply_reduce",
    "Verif.Props.c74_divide_reduce",
    "Verif.Props.c74_keep_reduce",
    "Verif.Props.c74_lines",
    "Verif.Props.c74_default_axis_fails",
    "Verif.Props.c74_axes_fails"
   ],
   "note": "Proved: what an output array holds after a call and what other arrays hold (c74_out), the values and exponents of += and -= (c74_sums), *= (c74_multiply) and /= (c74_divide), the frame afterwards (c74_frame), what a view sees (c74_view), and the reductions along an axis or over all elements (c74_multiply_reduce, c74_divide_reduce, c74_keep_reduce). It fails for the frame: a physical array += a comoving one is comoving afterwards, and a view of the same memory, still labelled physical, then shows another length (c74_inplace_fails); for multiply.reduce without an axis of an array with more than one column, whose exponent is multiplied by the size instead of the number of rows (c74_default_axis_fails); and for a product over several axes, which raises a TypeError (c74_axes_fails). Units, the where argument and the methods accumulate, reduceat, outer and at are not modelled."
  },
  {
   "property": "C75",
   "status": "partial",
   "theorems": [
    "Verif.Props.c75_to",
    "Verif.Props.c75_values",
    "Verif.Props.c75_refused",
    "Verif.Props.c75_compatible",
    "Verif.Props.c75_compatible_fails",
    "Verif.Props.c75_pickle",
    "Verif.Props.c75_unyt_pickle",
    "Verif.Props.c75_times_unit",
    "Verif.Props.c75_order",
    "Verif.Props.c75_order_fails"
   ],
   "note": "Proved for convertible arrays: to (c75_to), the three functions that give bare values (c75_values), the compatibility properties (c75_compatible), products with units (c75_times_unit). Proved for all arrays: refusals (c75_refused), pickles (c75_pickle, c75_unyt_pickle). Comparisons of factors agree with each other and with the exponents (c75_order). It fails for arrays without a frame, which are said to be compatible with physical units though they have no physical value (c75_compatible_fails), and for comparisons, because == is approximate and < is not: a factor can be both smaller than and equal to another (c75_order_fails). Units are sizes; equivalences and the pickle format of unyt are not modelled."
  },
  {
   "property": "C76",
   "status": "partial",
   "theorems": [
    "Verif.Props.c76_once",
    "Verif.Props.c76_rows",
    "Verif.Props.c76_rows_shared",
    "Verif.Props.c76_links",
    "Verif.Props.c76_copies",
    "Verif.Props.c76_cells",
    "Verif.Props.c76_cells_shared",
    "Verif.Props.c76_extra_fails",
    "Verif.Props.c76_lost_fails",
    "Verif.Props.c76_succeeds"
   ],
   "note": "Proved for every file tree for which the write succeeds: no path is made twice (c76_once), the datasets and their masks (c76_rows, c76_rows_shared), the tables of cells (c76_cells), the links (c76_links), the copied groups (c76_copies). Proved to succeed for snapshots as SWIFT writes them (c76_succeeds). It fails for files with a dataset in a group that is copied, which cannot be written (c76_extra_fails), and for groups whose name contains Cells or the name of a group of data, which are lost (c76_lost_fails). Members of the group of cells other than tables, centres, information and boxes (such as Cells/Files) are not written, as c76_copies shows. The contents of the objects are in C16, C17 and C33."
  },
  {
   "property": "C77",
   "status": "proved",
   "theorems": [
    "Verif.Props.c77_sight",
    "Verif.Props.c77_all",
    "Verif.Props.c77_limits",
    "Verif.Props.c77_lighten",
    "Verif.Props.c77_add",
    "Verif.Props.c77_range",
    "Verif.Props.c77_scale",
    "Verif.Props.c77_depth",
    "Verif.Props.c77_nonsquare_fails",
    "Verif.Props.c77_transposed_fails",
    "Verif.Props.c77_short_fails",
    "Verif.Props.c77_shared_fails",
    "Verif.Props.c77_other_fails",
    "Verif.Props.c77_empty"
   ],
   "note": "Proved over the reals for grids of square cross section with at least one voxel across: the pictures of 'all' without normalisation (c77_all), with limits (c77_limits), 'lighten' (c77_lighten), 'add' (c77_add), the range of values (c77_range), scale and origin (c77_scale), order along the line of sight (c77_depth), and the array of one rendering function (c77_sight). It is false that: the array of render_voxels_to_array has the axes of the grid (c77_transposed_fails; visualise_render exchanges them back); a grid that is not square can be coloured (c77_nonsquare_fails; the compiled code writes out of bounds); too few widths are an error (c77_short_fails: rendering functions are left out); one Normalize object without limits keeps values in [0, 1] (c77_shared_fails: the limits are those of the first function); an unknown return_type is an error (c77_other_fails: None). plt.Normalize and plt.get_cmap are modelled from their documentation; rounding is not modelled."
  },
  {
   "property": "C78",
   "status": "proved",
   "theorems": [
    "Verif.Props.c78_mask",
    "Verif.Props.c78_attributes",
    "Verif.Props.c78_no_group",
    "Verif.Props.c78_missing",
    "Verif.Props.c78_unknown",
    "Verif.Props.c78_replaced",
    "Verif.Props.c78_own",
    "Verif.Props.c78_metadata_fails",
    "Verif.Props.c78_group_metadata_fails",
    "Verif.Props.c78_units_fails",
    "Verif.Props.c78_hidden_fails",
    "Verif.Props.c78_mask_fails"
   ],
   "note": "Proved as stated (c78_attributes, c78_mask), for names that are all different in their group, none of them a private name of another or one that the objects use themselves. For other names it is false, and outside the statement: a dataset Metadata makes its whole group unreadable (c78_metadata_fails), named columns of a dataset Units cannot be reached (c78_units_fails), a group attribute hides the dataset of the same name (c78_hidden_fails), and groups named like variables of the mask get a wrong mask or size (c78_mask_fails). Reads are symbols here; what they return is C03 to C08, C32, C58 and C67."
  },
  {
   "property": "C79",
   "status": "proved",
   "theorems": [
    "Verif.Props.c79_projections",
    "Verif.Props.c79_gpu",
    "Verif.Props.c79_volumes",
    "Verif.Props.c79_parallel",
    "Verif.Props.c79_deposit",
    "Verif.Props.c79_exact",
    "Verif.Props.c79_exact_threads"
   ],
   "note": "The operations on floating-point numbers are parameters of the model, so rounding, NaN, infinities, single precision and reordering by fastmath are all included; index arithmetic is exact (overflow of int32 indices is not modelled). c79_deposit shows that deposit has no such guarantee: it is in bounds exactly if the arithmetic happens to give indices inside the grid (C80)."
  },
  {
   "property": "C80",
   "status": "partial",
   "theorems": [
    "Verif.Props.c80_index",
    "Verif.Props.c80_outside",
    "Verif.Props.c80_deposit_partial",
    "Verif.Props.c80_inside_fails",
    "Verif.Props.c80_negative_fails",
    "Verif.Props.c80_lookup",
    "Verif.Props.c80_size",
    "Verif.Props.c80_size_fails"
   ],
   "note": "Rounding to 53 and 24 binary digits, ties to even, without limits of the exponent. Proved: indices between 0 and res and at most one cell away (c80_index), outside exactly if the scaled position rounds to one (c80_outside), deposit in bounds for folded boxes that are powers of two and positions that are not negative (c80_deposit_partial), colour maps (c80_lookup), image sizes within one pixel (c80_size). False: deposit writes one cell beyond the grid for the last position of a box of length 105 (c80_inside_fails) and for a position slightly below zero (c80_negative_fails); an image of 100 pixels of a region 7 wide and 100 high is 8 pixels wide (c80_size_fails). Overflow, underflow, NaN and reordering by fastmath are not modelled."
  },
  {
   "property": "C81",
   "status": "proved",
   "theorems": [
    "Verif.Props.c81_particles",
    "Verif.Props.c81_history",
    "Verif.Props.c81_projection",
    "Verif.Props.c81_slice",
    "Verif.Props.c81_render",
    "Verif.Props.c81_unpadded_fails"
   ],
   "note": "c81_history is the statement for projections and any sequence of calls; c81_projection, c81_slice and c81_render are the statement for a region. The arithmetic is exact. c81_unpadded_fails shows that the widening is needed and that the documented example does not do it."
  },
  {
   "property": "C82",
   "status": "partial",
   "theorems": [
    "Verif.Props.c82_package",
    "Verif.Props.c82_unsupported",
    "Verif.Props.c82_unsupported_fails",
    "Verif.Props.c82_unyt_bypass_fails",
    "Verif.Props.c82_foreign",
    "Verif.Props.c82_order",
    "Verif.Props.c82_registry",
    "Verif.Props.c82_registry_none",
    "Verif.Props.c82_kind",
    "Verif.Props.c82_kind_tuple",
    "Verif.Props.c82_bare",
    "Verif.Props.c82_nested_fails",
    "Verif.Props.c82_methods",
    "Verif.Props.c82_mul_unit",
    "Verif.Props.c82_ufunc",
    "Verif.Props.c82_ufunc_tuple",
    "Verif.Props.c82_wrapped",
    "Verif.Props.c82_wrapped_tuple_fails",
    "Verif.Props.c82_wrapped_fails",
    "Verif.Props.c82_flatten_fails",
    "Verif.Props.c82_squeeze",
    "Verif.Props.c82_ufunc_bare",
    "Verif.Props.c82_methods_foreign",
    "Verif.Props.c82_no_arrays"
   ],
   "note": "The choice of the implementation is characterised for all lists of arguments (c82_package, c82_unsupported, c82_foreign, c82_order). It is not always the package's: a unyt_array among the arguments hands the call to unyt, which knows no frames (c82_unyt_bypass_fails), and a plain array hands an unsupported function to numpy (c82_unsupported_fails). Classes of results are right for indexing, ufuncs and multiplication by units; not for flatten and ravel of a quantity (c82_flatten_fails), tuples returned by wrapped functions such as svd (c82_wrapped_tuple_fails), nested tuples (c82_nested_fails) and arrays without dimensions from wrapped functions (c82_wrapped_fails). unyt's and numpy's halves of the protocol are modelled from NEP 18."
  },
  {
   "property": "C83",
   "status": "partial",
   "theorems": [
    "Verif.Props.c83_solve",
    "Verif.Props.c83_inv",
    "Verif.Props.c83_det",
    "Verif.Props.c83_trace",
    "Verif.Props.c83_dot",
    "Verif.Props.c83_norm",
    "Verif.Props.c83_norm_max",
    "Verif.Props.c83_norm_zero_fails",
    "Verif.Props.c83_norm_zero_count",
    "Verif.Props.c83_eig",
    "Verif.Props.c83_lstsq"
   ],
   "note": "Proved for solve, inv, det, trace, dot, norm of every positive order and of order infinity, eig and lstsq (for whatever LAPACK returns). Fails for norm of order 0, whose count is labelled with the factor of the values (c83_norm_zero_fails); determinants of stacks are in C52."
  },
  {
   "property": "C84",
   "status": "partial",
   "theorems": [
    "Verif.Props.c84_union",
    "Verif.Props.c84_intersect",
    "Verif.Props.c84_setdiff",
    "Verif.Props.c84_isin",
    "Verif.Props.c84_equal",
    "Verif.Props.c84_searchsorted",
    "Verif.Props.c84_mixed_refused",
    "Verif.Props.c84_ptp",
    "Verif.Props.c84_quantile",
    "Verif.Props.c84_convolve",
    "Verif.Props.c84_correlate",
    "Verif.Props.c84_around_fails",
    "Verif.Props.c84_around_numbers",
    "Verif.Props.c84_isclose_relative",
    "Verif.Props.c84_isclose_fails",
    "Verif.Props.c84_sinc_fails",
    "Verif.Props.c84_unwrap",
    "Verif.Props.c84_unwrap_half",
    "Verif.Props.c84_unwrap_fails",
    "Verif.Props.c84_sinc_numbers_fails"
   ],
   "note": "Proved for union1d, intersect1d, setdiff1d, isin, array_equal, searchsorted, ptp, quantile, convolve, correlate and the refusal of mixed exponents. Fails for around, isclose with a bare absolute tolerance, sinc and unwrap with a bare period, whose results depend on the frame."
  },
  {
   "property": "C85",
   "status": "partial",
   "theorems": [
    "Verif.Props.c85_types",
    "Verif.Props.c85_numbers",
    "Verif.Props.c85_units",
    "Verif.Props.c85_field_partial",
    "Verif.Props.c85_exponent_zero_fails",
    "Verif.Props.c85_opens",
    "Verif.Props.c85_writes",
    "Verif.Props.c85_complete",
    "Verif.Props.c85_ids"
   ],
   "note": "Fields with a non-zero exponent of the scale factor, in unit systems whose base units are numbers of five digits times a unit of the reader. The full statement is refuted: fields with exponent zero (masses, IDs) are read with exponent one (c85_exponent_zero_fails, c85_ids), and other units are rounded (c85_units gives the bound; c68_units_fails)."
  },
  {
   "property": "C86",
   "status": "partial",
   "theorems": [
    "Verif.Props.c86_buffers",
    "Verif.Props.c86_constant",
    "Verif.Props.c86_ranges_array",
    "Verif.Props.c86_history",
    "Verif.Props.c86_errors",
    "Verif.Props.c86_keeps",
    "Verif.Props.c86_no_mask",
    "Verif.Props.c86_edit",
    "Verif.Props.c86_other_file",
    "Verif.Props.c86_rows",
    "Verif.Props.c86_open_selects",
    "Verif.Props.c86_open_changes_mask_fails",
    "Verif.Props.c86_edit_fails",
    "Verif.Props.c86_boolean_array_fails"
   ],
   "note": "Proved for all programs in which the user writes into no array of ranges: what a dataset reads never changes and is what its mask selected at opening, masks do not affect each other, a mask of another file is refused. Fails: opening a dataset converts the mask that was passed, which changes what a later union of regions selects (c86_open_changes_mask_fails); values written into an array of ranges of the mask change open datasets (c86_edit_fails); boolean arrays taken from a mask change with later calls (c86_boolean_array_fails)."
  },
  {
   "property": "C87",
   "status": "proved",
   "theorems": [
    "Verif.Props.c87_written",
    "Verif.Props.c87_same_arrays",
    "Verif.Props.c87_projection",
    "Verif.Props.c87_slice",
    "Verif.Props.c87_render",
    "Verif.Props.c87_unpadded_fails",
    "Verif.Props.c87_empty_fails"
   ],
   "note": ""
  },
  {
   "property": "C88",
   "status": "partial",
   "theorems": [
    "Verif.Props.c88_validate",
    "Verif.Props.c88_refused",
    "Verif.Props.c88_redshift",
    "Verif.Props.c88_scale_factor",
    "Verif.Props.c88_report_partial",
    "Verif.Props.c88_catalogues_fails",
    "Verif.Props.c88_unknown",
    "Verif.Props.c88_groups_fails",
    "Verif.Props.c88_writer_fails"
   ],
   "note": "Validation, the refusal and the two short forms hold for files of all kinds (c88_validate, c88_refused, c88_redshift, c88_scale_factor). The report is proved for any number of snapshots and files of lines of sight with the groups that SWIFT writes (c88_report_partial). For all other files it is refuted: with a FOF or SOAP catalogue among the files the command never returns (c88_catalogues_fails), nor with a file without one of the groups Policy, Code, GravityScheme, HydroScheme, SubgridScheme (c88_groups_fails). Files of Writer, which load opens, are refused (c88_writer_fails)."
  },
  {
   "property": "C89",
   "status": "partial",
   "theorems": [
    "Verif.Props.c89_rows",
    "Verif.Props.c89_column",
    "Verif.Props.c89_whole",
    "Verif.Props.c89_subset",
    "Verif.Props.c89_subset_column",
    "Verif.Props.c89_rank_fails",
    "Verif.Props.c89_single_column_fails"
   ],
   "note": "Proved for datasets of one and two dimensions, all layouts; without a mask for all shapes. Refuted by the code in two places: a dataset of three or more dimensions can not be read with a mask (field, column or subset) as soon as a range has two rows (c89_rank_fails), and a dataset with one column can be read with a mask but not written into a subset (c89_single_column_fails): h5py refuses to fit the rows into the buffer."
  },
  {
   "property": "C90",
   "status": "partial",
   "theorems": [
    "Verif.Props.c90_colour",
    "Verif.Props.c90_unique",
    "Verif.Props.c90_taken_apart",
    "Verif.Props.c90_refused",
    "Verif.Props.c90_map",
    "Verif.Props.c90_range",
    "Verif.Props.c90_grey",
    "Verif.Props.c90_anchor_partial",
    "Verif.Props.c90_image",
    "Verif.Props.c90_first",
    "Verif.Props.c90_kept",
    "Verif.Props.c90_stale_fails",
    "Verif.Props.c90_red_fails",
    "Verif.Props.c90_bright_fails",
    "Verif.Props.c90_far_fails"
   ],
   "note": "The code refutes parts of the full statement: hues are averaged along a line although they lie on a circle (c90_red_fails), places near no anchor show what was in memory (c90_far_fails), colours outside [0, 1] raise (c90_bright_fails), a map keeps the grid of its first use (c90_stale_fails), and everything is divided by 1.0001 (c90_anchor_partial). As in C48 the values and the coordinates are exchanged. matplotlib's rgb_to_hsv and hsv_to_rgb are modelled from their documented algorithm."
  },
  {
   "property": "C91",
   "status": "partial",
   "theorems": [
    "Verif.Props.c91_volumes",
    "Verif.Props.c91_densities",
    "Verif.Props.c91_fallback",
    "Verif.Props.c91_slice_volumes",
    "Verif.Props.c91_slice_densities",
    "Verif.Props.c91_field",
    "Verif.Props.c91_histogram_fails",
    "Verif.Props.c91_fallback_fails"
   ],
   "note": "The code refutes parts of the full statement: histogram projections raise AttributeError for groups without masses, whatever is projected (c91_histogram_fails), and without volumes and densities the smoothing lengths stand in for sizes (c91_fallback_fails). Masses and densities that are zero are left out, as numpy then has infinite or undefined sizes."
  },
  {
   "property": "C92",
   "status": "partial",
   "theorems": [
    "Verif.Props.c92_field",
    "Verif.Props.c92_none",
    "Verif.Props.c92_refused",
    "Verif.Props.c92_own_names",
    "Verif.Props.c92_foreign_fails",
    "Verif.Props.c92_foreign",
    "Verif.Props.c92_missing",
    "Verif.Props.c92_file",
    "Verif.Props.c92_steady_partial",
    "Verif.Props.c92_scale_fails",
    "Verif.Props.c92_system_fails",
    "Verif.Props.c92_hidden_fails",
    "Verif.Props.c92_same"
   ],
   "note": "c92_field, c92_none, c92_refused, c92_missing: attributes after any history; c92_same ties the object to the operations of C85; c92_foreign: names that mean nothing never change the file; c92_file says for every history what is read. c92_steady_partial needs the scale factor and unit system of the assignment, an exponent other than zero (c85_exponent_zero_fails) and five-digit units. c92_foreign_fails, c92_scale_fails, c92_system_fails and c92_hidden_fails refute the rest."
  },
  {
   "property": "C93",
   "status": "partial",
   "theorems": [
    "Verif.Props.c93_str",
    "Verif.Props.c93_array2string",
    "Verif.Props.c93_factor",
    "Verif.Props.c93_repr",
    "Verif.Props.c93_repr_words",
    "Verif.Props.c93_str_fails",
    "Verif.Props.c93_savetxt_fails",
    "Verif.Props.c93_lists",
    "Verif.Props.c93_kinds",
    "Verif.Props.c93_lists_fails",
    "Verif.Props.c93_number",
    "Verif.Props.c93_exact",
    "Verif.Props.c93_small_fails",
    "Verif.Props.c93_hydro",
    "Verif.Props.c93_viscosity",
    "Verif.Props.c93_diffusion",
    "Verif.Props.c93_shown",
    "Verif.Props.c93_library",
    "Verif.Props.c93_other",
    "Verif.Props.c93_text_fails",
    "Verif.Props.c93_missing",
    "Verif.Props.c93_no_group",
    "Verif.Props.c93_mapping"
   ],
   "note": "Proved for repr, descriptions, numbers and lists of plain names; str, array2string and savetxt do not determine the physical value (c93_str_fails, c93_savetxt_fails), see the other _fails theorems."
  },
  {
   "property": "C94",
   "status": "proved",
   "theorems": [
    "Verif.Props.c94_path",
    "Verif.Props.c94_handle",
    "Verif.Props.c94_closed",
    "Verif.Props.c94_loads",
    "Verif.Props.c94_masked",
    "Verif.Props.c94_objects",
    "Verif.Props.c94_reload_fails",
    "Verif.Props.c94_reload",
    "Verif.Props.c94_history",
    "Verif.Props.c94_user",
    "Verif.Props.c94_read",
    "Verif.Props.c94_direct",
    "Verif.Props.c94_direct_fails",
    "Verif.Props.c94_direct_reload_fails",
    "Verif.Props.c94_direct_mask_fails"
   ],
   "note": "All sequences of the calls named; the classes called directly with a path are outside the statement and do leave files open (c94_direct_fails, c94_direct_reload_fails)."
  },
  {
   "property": "C95",
   "status": "proved",
   "theorems": [
    "Verif.Props.c95_increasing",
    "Verif.Props.c95_repeats",
    "Verif.Props.c95_unordered",
    "Verif.Props.c95_remote",
    "Verif.Props.c95_unordered_fails",
    "Verif.Props.c95_no_rows",
    "Verif.Props.c95_columns_fails"
   ],
   "note": ""
  },
  {
   "property": "C96",
   "status": "proved",
   "theorems": [
    "Verif.Props.c96_factors",
    "Verif.Props.c96_reflected",
    "Verif.Props.c96_alien",
    "Verif.Props.c96_divided_fails",
    "Verif.Props.c96_order",
    "Verif.Props.c96_order_none",
    "Verif.Props.c96_unequal",
    "Verif.Props.c96_equal_not_addable_fails",
    "Verif.Props.c96_total_fails",
    "Verif.Props.c96_extremes",
    "Verif.Props.c96_extremes_few",
    "Verif.Props.c96_extremes_none",
    "Verif.Props.c96_contains",
    "Verif.Props.c96_contains_fails"
   ],
   "note": ""
  },
  {
   "property": "C97",
   "status": "proved",
   "theorems": [
    "Verif.Props.c97_number",
    "Verif.Props.c97_not_number",
    "Verif.Props.c97_no_number",
    "Verif.Props.c97_negative_fails",
    "Verif.Props.c97_no_type",
    "Verif.Props.c97_tables",
    "Verif.Props.c97_no_masses",
    "Verif.Props.c97_counts",
    "Verif.Props.c97_dimensions",
    "Verif.Props.c97_dimensionless_fails",
    "Verif.Props.c97_written",
    "Verif.Props.c97_angle_fails"
   ],
   "note": ""
  },
  {
   "property": "C98",
   "status": "proved",
   "theorems": [
    "Verif.Props.c98_field",
    "Verif.Props.c98_none",
    "Verif.Props.c98_none_only",
    "Verif.Props.c98_raised",
    "Verif.Props.c98_name_fails",
    "Verif.Props.c98_scalar_fails",
    "Verif.Props.c98_letters_fails",
    "Verif.Props.c98_columns",
    "Verif.Props.c98_columns_fails",
    "Verif.Props.c98_columns_text",
    "Verif.Props.c98_columns_shown",
    "Verif.Props.c98_columns_len",
    "Verif.Props.c98_columns_quotes"
   ],
   "note": "c98_field: unit, exponent, frame, description and compression of a field that is read; c98_none: None exactly if something is missing, otherwise nothing is raised; c98_raised; c98_columns, c98_columns_text, c98_columns_shown. Also shown: the name of a field depends on whether there is a mask (c98_name_fails); exponents stored as numbers instead of arrays raise IndexError (c98_scalar_fails); the name of a single mask stored as text is taken apart into letters (c98_letters_fails); named columns of different files can be equal, and comparing them with anything else raises AttributeError (c98_columns_fails)."
  },
  {
   "property": "C99",
   "status": "partial",
   "theorems": [
    "Verif.Props.c99_reads",
    "Verif.Props.c99_type",
    "Verif.Props.c99_unknown",
    "Verif.Props.c99_updated",
    "Verif.Props.c99_bare_fails",
    "Verif.Props.c99_copy_fails"
   ],
   "note": "c99_type, c99_unknown, c99_updated and c99_reads prove everything about attributes, for every history. The part about copies is refuted by the code: c99_bare_fails and c99_copy_fails show that __getattr__ of a mask without dictionary recurses at every depth, so copy.copy, copy.deepcopy and unpickling always end in a RecursionError. If one type is called like another one followed by _size, the size is found (c99_type)."
  },
  {
   "property": "C100",
   "status": "partial",
   "theorems": [
    "Verif.Props.c100_groups",
    "Verif.Props.c100_only",
    "Verif.Props.c100_opens",
    "Verif.Props.c100_missing",
    "Verif.Props.c100_classes",
    "Verif.Props.c100_fof",
    "Verif.Props.c100_clash",
    "Verif.Props.c100_nested_fails",
    "Verif.Props.c100_same_name_fails",
    "Verif.Props.c100_catalogue_fails"
   ],
   "note": "c100_groups, c100_only, c100_opens, c100_missing and c100_clash prove the statement for the groups as the code lists them. Refuted by the code: a group inside of a group that is not in the list is shown as a field (c100_nested_fails), of two SOAP groups whose names differ in case only the last is shown (c100_same_name_fails), and catalogues never have named columns (c100_catalogue_fails)."
  },
  {
   "property": "C101",
   "status": "partial",
   "theorems": [
    "Verif.Props.c101_image",
    "Verif.Props.c101_points",
    "Verif.Props.c101_no_points",
    "Verif.Props.c101_bad_colour",
    "Verif.Props.c101_no_coordinates",
    "Verif.Props.c101_incomplete",
    "Verif.Props.c101_uses",
    "Verif.Props.c101_refused",
    "Verif.Props.c101_stale_fails",
    "Verif.Props.c101_labels_fails",
    "Verif.Props.c101_functions",
    "Verif.Props.c101_one_width",
    "Verif.Props.c101_render",
    "Verif.Props.c101_peak_fails",
    "Verif.Props.c101_zero_fails"
   ],
   "note": "Proved: at every place the picture shows one colour, which is what the map gives to the values with horizontal and vertical exchanged, up to a pixel (c101_image); the points and labels (c101_points, c101_no_points); a map without grid draws nothing and is unchanged (c101_refused); each rendering function has its line and its curve of a hundred heights of the normal density in its colour (c101_functions), which are those of a render (c101_render), for one width or a list (c101_one_width). Not as stated: the labels of the axes are exchanged (c101_labels_fails), colours set after the first use are drawn on the old picture (c101_stale_fails), no curve reaches the peak of its function (c101_peak_fails), a width of zero is drawn as no numbers (c101_zero_fails)."
  },
  {
   "property": "C102",
   "status": "partial",
   "theorems": [
    "Verif.Props.c102_rows",
    "Verif.Props.c102_refines",
    "Verif.Props.c102_dataset_partial",
    "Verif.Props.c102_fixed_fails",
    "Verif.Props.c102_vectors",
    "Verif.Props.c102_refused"
   ],
   "note": "Proved for all masks, attributes, units, frames and bounds: the rows (c102_rows), the call as refinement of the constraint of C03 (c102_refines), refusals with the mask unchanged (c102_vectors, c102_refused), agreement with the comparison on the array of the dataset for convertible fields (c102_dataset_partial). The code refutes the full statement: a field that the file marks as not convertible is converted here, so a comoving bound selects other rows than on the dataset (c102_fixed_fails)."
  },
  {
   "property": "C103",
   "status": "partial",
   "theorems": [
    "Verif.Props.c103_wrapped",
    "Verif.Props.c103_honest",
    "Verif.Props.c103_kept_partial",
    "Verif.Props.c103_mixed",
    "Verif.Props.c103_block",
    "Verif.Props.c103_operation_fails",
    "Verif.Props.c103_three_fails",
    "Verif.Props.c103_list_fails"
   ],
   "note": "Proved for all expressions: what the attribute is after any number of operations (c103_wrapped), that texts in it are never wrong (c103_honest), that mixed operands give None (c103_mixed), np.block as an operation (c103_block), and that the text is kept exactly by values without operations (c103_kept_partial). The code refutes the full statement: the result of an operation has the pair (True, compression), nested deeper with each operation (c103_operation_fails), a sum of three arrays has None (c103_three_fails), and an array made from a list of numbers has (False, None) (c103_list_fails)."
  },
  {
   "property": "C104",
   "status": "partial",
   "theorems": [
    "Verif.Props.c104_scaling",
    "Verif.Props.c104_factor",
    "Verif.Props.c104_rootless_partial",
    "Verif.Props.c104_root_fails",
    "Verif.Props.c104_product_fails",
    "Verif.Props.c104_undone",
    "Verif.Props.c104_powers_fails",
    "Verif.Props.c104_product_powers_fails",
    "Verif.Props.c104_unit",
    "Verif.Props.c104_reread",
    "Verif.Props.c104_lengths_fails"
   ],
   "note": "Proved for all expressions: exponents and factors in memory (c104_scaling, c104_factor), the exponent that is written for factors made without roots (c104_rootless_partial), and by how much physical values are wrong otherwise (c104_reread). The code refutes the full statement: the symbol a has no assumptions, so sympy keeps (a**3)**(1/3), and its outermost exponent 1/3 is written (c104_root_fails for every such root, c104_lengths_fails for smoothing lengths computed from volumes)."
  },
  {
   "property": "C105",
   "status": "partial",
   "theorems": [
    "Verif.Props.c105_agree_partial",
    "Verif.Props.c105_values",
    "Verif.Props.c105_roundtrip",
    "Verif.Props.c105_identifiers",
    "Verif.Props.c105_refused",
    "Verif.Props.c105_integers_fails",
    "Verif.Props.c105_large_fails"
   ],
   "note": "Proved for arrays of floating point numbers with rounding to 24 or 53 binary digits (c105_agree_partial, c105_values, c105_roundtrip), and for which arrays are refused (c105_refused). The code refutes the rest for integers: convert_to_physical() and to(comoving=False) raise TypeError on comoving identifiers, whatever their factor, while to_physical() accepts them (c105_integers_fails), and to_physical() changes identifiers beyond 2**53 although the factor is one, so that two become equal (c105_large_fails); smaller ones are kept (c105_identifiers). That in_units makes floating point numbers of integers, and that numpy refuses to store them in place, are facts about unyt and numpy stated in the model."
  },
  {
   "property": "C106",
   "status": "partial",
   "theorems": [
    "Verif.Props.c106_warning",
    "Verif.Props.c106_refines",
    "Verif.Props.c106_silent",
    "Verif.Props.c106_lists_fails",
    "Verif.Props.c106_relations",
    "Verif.Props.c106_false"
   ],
   "note": "Proved: when there is a warning (c106_warning), that silent comparisons do not depend on the scale of the bare numbers (c106_silent, c106_relations), and agreement with the comparisons of C25, C26 and C84 between arrays and numbers (c106_refines). The code refutes the first sentence: lists, tuples and texts raise AttributeError in every comparison, np.isin(ids, [1, 2]) included, while lists can be added (c106_lists_fails). NaN is left out."
  },
  {
   "property": "C107",
   "status": "partial",
   "theorems": [
    "Verif.Props.c107_sequences_partial",
    "Verif.Props.c107_range",
    "Verif.Props.c107_range_reversed",
    "Verif.Props.c107_range_refused",
    "Verif.Props.c107_frames_fails",
    "Verif.Props.c107_factors_fails",
    "Verif.Props.c107_products_fails",
    "Verif.Props.c107_range_fails",
    "Verif.Props.c107_range_factor_fails",
    "Verif.Props.c107_range_point_fails"
   ],
   "note": "Proved: lists in the frame of the array with its factor act like the array made from them (c107_sequences_partial), and histograms with a range given as an array have the even bins and counts of physical values (c107_range; refusals: c107_range_reversed, c107_range_refused). The code refutes the rest: the frame of the elements is ignored (c107_frames_fails, c107_range_fails), different factors are accepted (c107_factors_fails, c107_range_factor_fails), factors in lists are not multiplied (c107_products_fails), and a range of no width is extended by half a unit of the frame at hand (c107_range_point_fails). unyt's treatment of lists and ranges is trusted to convert units only."
  },
  {
   "property": "C108",
   "status": "partial",
   "theorems": [
    "Verif.Props.c108_same_call_partial",
    "Verif.Props.c108_keywords_fails",
    "Verif.Props.c108_second_fails",
    "Verif.Props.c108_out",
    "Verif.Props.c108_out_fails",
    "Verif.Props.c108_join_out",
    "Verif.Props.c108_join_out_fails",
    "Verif.Props.c108_fixed_fails"
   ],
   "note": "Proved: calls that have the main arrays in front are the same in whatever way the others are passed (c108_same_call_partial), and out is the result if it is comoving or nothing else is (c108_out). The code refutes the rest: the main arrays by name raise IndexError (c108_keywords_fails, c108_second_fails), a physical out beside a comoving argument keeps its old numbers and is labelled comoving (c108_out_fails), out of concatenate keeps its old frame and factor (c108_join_out_fails), and arrays that cannot be converted are refused only by name (c108_fixed_fails). unyt's functions are trusted to bind arguments by name and to write to out."
  },
  {
   "property": "C109",
   "status": "partial",
   "theorems": [
    "Verif.Props.c109_conversion_partial",
    "Verif.Props.c109_meaning",
    "Verif.Props.c109_conversion_fails",
    "Verif.Props.c109_converted",
    "Verif.Props.c109_other_files",
    "Verif.Props.c109_mask",
    "Verif.Props.c109_subset_partial",
    "Verif.Props.c109_no_cells_fails",
    "Verif.Props.c109_subset_fails",
    "Verif.Props.c109_snapshot_partial",
    "Verif.Props.c109_snapshot_fails"
   ],
   "note": "Proved: without units (or with units of other dimensions) a refused conversion changes nothing, with units it never changes the meaning; write_subset and write leave other files, the file of the mask and the selection alone, and leave the file at the path alone when they raise, unless a dataset has no rows or a type no particles. The code refutes the full statement: c109_conversion_fails, c109_subset_fails, c109_snapshot_fails."
  },
  {
   "property": "C110",
   "status": "proved",
   "theorems": [
    "Verif.Props.c110_larger",
    "Verif.Props.c110_same_region",
    "Verif.Props.c110_unions",
    "Verif.Props.c110_parts",
    "Verif.Props.c110_values",
    "Verif.Props.c110_shared_range"
   ],
   "note": "Stated for what a mask selects after a history. The law of parts needs cells with lower below upper corner: a flat cell on the cut is in neither open part."
  },
  {
   "property": "C111",
   "status": "proved",
   "theorems": [
    "Verif.Props.c111_project",
    "Verif.Props.c111_slice",
    "Verif.Props.c111_slice_depth",
    "Verif.Props.c111_render",
    "Verif.Props.c111_turns",
    "Verif.Props.c111_transposed",
    "Verif.Props.c111_sum",
    "Verif.Props.c111_order",
    "Verif.Props.c111_masked"
   ],
   "note": "Exact arithmetic, no rotation. The periodic render is exact for cubes; regions that are only nearly cubic are accepted by the code but their copies are displaced (c72_cubic_fails)."
  },
  {
   "property": "C112",
   "status": "proved",
   "theorems": [
    "Verif.Props.c112_particles",
    "Verif.Props.c112_auto",
    "Verif.Props.c112_order",
    "Verif.Props.c112_moved",
    "Verif.Props.c112_axes",
    "Verif.Props.c112_mirrored",
    "Verif.Props.c112_lengths",
    "Verif.Props.c112_product",
    "Verif.Props.c112_at_most",
    "Verif.Props.c112_one_cell",
    "Verif.Props.c112_together"
   ],
   "note": "Exact arithmetic, cubic boxes, comoving coordinates. c112_particles is the formula from which the laws follow; c112_auto, c112_order, c112_moved, c112_axes, c112_mirrored, c112_lengths, c112_product, c112_at_most, c112_one_cell, c112_together are the laws. Mirror images are for particles that are not on faces between cells, because cells are closed below and open above."
  },
  {
   "property": "C113",
   "status": "proved",
   "theorems": [
    "Verif.Props.c113_copy",
    "Verif.Props.c113_program",
    "Verif.Props.c113_units",
    "Verif.Props.c113_reads",
    "Verif.Props.c113_generations",
    "Verif.Props.c113_field"
   ],
   "note": "Exact arithmetic (real numbers). The units of the copying writer are those of the open file; that these are the units of the first writer needs units of five digits (c113_units), as in C85. The IDs of the copy are those of the file, also where the first writer made them up."
  },
  {
   "property": "C114",
   "status": "proved",
   "theorems": [
    "Verif.Props.c114_value",
    "Verif.Props.c114_factor",
    "Verif.Props.c114_frames",
    "Verif.Props.c114_equivalent",
    "Verif.Props.c114_compare",
    "Verif.Props.c114_errors",
    "Verif.Props.c114_frame_of_result"
   ],
   "note": "Numbers are real numbers; shapes are one-dimensional with broadcasting of lengths 1; units are those of C27. The first operand of np.maximum and np.minimum may be bare only if the second is (the code raises otherwise). Functions of whole arrays must commute with multiplication by a positive number (c114_value) or have a length that depends on that of the argument (c114_errors)."
  },
  {
   "property": "C115",
   "status": "proved",
   "theorems": [
    "Verif.Props.c115_rows",
    "Verif.Props.c115_compare",
    "Verif.Props.c115_mask_rows",
    "Verif.Props.c115_masked"
   ],
   "note": "One-dimensional fields with exact arithmetic; local files (remote reads are those of C07). Functions of whole arrays are excluded, as they do not act row by row."
  },
  {
   "property": "C116",
   "status": "proved",
   "theorems": [
    "Verif.Props.c116_transport",
    "Verif.Props.c116_chain",
    "Verif.Props.c116_same_file",
    "Verif.Props.c116_order",
    "Verif.Props.c116_one_mask",
    "Verif.Props.c116_row_numbers_fails"
   ],
   "note": "c116_transport: a history of regions and bounds selects in a subset the rows it selects in the original. c116_chain: contents of the last file in terms of the first. c116_same_file, c116_order: equality of whole files. c116_one_mask: bounds on a subset equal bounds on the first mask. c116_row_numbers_fails shows why row numbers are excluded. Attributes and verbatim groups are not part of this model (see C109, C67)."
  },
  {
   "property": "C117",
   "status": "proved",
   "theorems": [
    "Verif.Props.c117_unique",
    "Verif.Props.c117_programs",
    "Verif.Props.c117_frames",
    "Verif.Props.c117_conversions",
    "Verif.Props.c117_no_side_effects",
    "Verif.Props.c117_converted"
   ],
   "note": "The model is a big-step semantics of programs on top of the ufuncs and conversions of Model/Cosmo.lean; the spec is the same language on physical numbers and exponents, with no frames and conversions as no-ops. Loops that do not end have no run and are outside of the statement. Variables that are bare arrays and views are not in the language."
  },
  {
   "property": "C118",
   "status": "proved",
   "theorems": [
    "Verif.Props.c118_rows",
    "Verif.Props.c118_masked",
    "Verif.Props.c118_branches_fails"
   ],
   "note": "c118_rows for any list of rows, c118_masked for the rows that a mask loads. c118_branches_fails shows that programs with branches on np.all are rightly excluded. Same language of programs as C117."
  },
  {
   "property": "C119",
   "status": "proved",
   "theorems": [
    "Verif.Props.c119_projection",
    "Verif.Props.c119_square",
    "Verif.Props.c119_slice",
    "Verif.Props.c119_render",
    "Verif.Props.c119_layer",
    "Verif.Props.c119_depths",
    "Verif.Props.c119_depths_fails",
    "Verif.Props.c119_layer_fails"
   ],
   "note": "Images of two regions on one grid of pixels agree on the shared pixels (projection, slice, render); a slice at the centre of a layer is that layer of the render under the stated condition on the kernels, and not without it; depth ranges add up except for particles on the common limit, which are counted twice."
  },
  {
   "property": "C120",
   "status": "proved",
   "theorems": [
    "Verif.Props.c120_ufuncs",
    "Verif.Props.c120_angles",
    "Verif.Props.c120_floor_divide",
    "Verif.Props.c120_bare_angle_fails",
    "Verif.Props.c120_bare_first_fails",
    "Verif.Props.c120_pair"
   ],
   "note": "Right in every mix of frames if and only if the ufunc is in an explicit list or a^k = 1, for all ufuncs of the registry except nextafter, spacing, frexp (storage of floats), isnat (dates), power (C24) and clip (C52); floor_divide with two exponents; angles. Negative: the angle with a bare number depends on the frame."
  },
  {
   "property": "C121",
   "status": "proved",
   "theorems": [
    "Verif.Props.c121_two",
    "Verif.Props.c121_tests",
    "Verif.Props.c121_one",
    "Verif.Props.c121_power",
    "Verif.Props.c121_all"
   ],
   "note": "c121_two and c121_tests for two arguments, c121_one for one, c121_power for powers; c121_all says that these are all ufuncs but clip."
  },
  {
   "property": "C122",
   "status": "proved",
   "theorems": [
    "Verif.Props.c122_histogram",
    "Verif.Props.c122_deposition",
    "Verif.Props.c122_sampled",
    "Verif.Props.c122_means_fails"
   ],
   "note": "Histogram and deposition: every cell is the mean of the finer cells, for all multiples. Fast backend: sampled at the centres for odd multiples; c122_means_fails shows that they are not means."
  },
  {
   "property": "C123",
   "status": "proved",
   "theorems": [
    "Verif.Props.c123_backends",
    "Verif.Props.c123_project",
    "Verif.Props.c123_slice",
    "Verif.Props.c123_render",
    "Verif.Props.c123_linear",
    "Verif.Props.c123_kernels",
    "Verif.Props.c123_signs_fails"
   ],
   "note": "Quotient of the images of w*T and w is within the bounds of T in all pixels that are not empty, for projections with all CPU backends, sph slices and renders; linearity of the front ends; c123_signs_fails shows that weights of both signs do not have it."
  },
  {
   "property": "C124",
   "status": "partial",
   "theorems": [
    "Verif.Props.c124_slice_sum",
    "Verif.Props.c124_render_sum",
    "Verif.Props.c124_order",
    "Verif.Props.c124_masked",
    "Verif.Props.c124_turns",
    "Verif.Props.c124_slice_transposed",
    "Verif.Props.c124_render_whole",
    "Verif.Props.c124_render_turned",
    "Verif.Props.c124_render_tipped",
    "Verif.Props.c124_cube_fails"
   ],
   "note": "Proved for sums, order, masks and exchanged axes with equal lengths. The statement without the condition on the lengths is refuted (c124_cube_fails): np.isclose is compared from x only and is not symmetric."
  },
  {
   "property": "C125",
   "status": "proved",
   "theorems": [
    "Verif.Props.c125_value",
    "Verif.Props.c125_result",
    "Verif.Props.c125_units",
    "Verif.Props.c125_equivalent",
    "Verif.Props.c125_compare",
    "Verif.Props.c125_refused",
    "Verif.Props.c125_zero",
    "Verif.Props.c125_zero_right",
    "Verif.Props.c125_convert_refused",
    "Verif.Props.c125_compare_refused",
    "Verif.Props.c125_factor_refused",
    "Verif.Props.c125_factor_compare_refused",
    "Verif.Props.c125_compare_dimensionless_fails"
   ],
   "note": "Units are a size and a vector of dimensions; what unyt does with numbers and units after swiftsimio has made the frames equal is assumed as documented (Model/UnitFormulas.lean). The proof shows that an operation on numbers with units is the operation of Model/Formulas.lean on the amounts and uses C114. c125_compare_dimensionless_fails: with no dimensions unyt compares the numbers as they are. Temperatures with offsets, logarithmic units and the names of units are not modelled."
  },
  {
   "property": "C126",
   "status": "proved",
   "theorems": [
    "Verif.Props.c126_unique",
    "Verif.Props.c126_programs",
    "Verif.Props.c126_units",
    "Verif.Props.c126_conversions",
    "Verif.Props.c126_no_side_effects",
    "Verif.Props.c126_converted",
    "Verif.Props.c126_convert_refused"
   ],
   "note": "Big-step semantics of programs over the formulas of C125 (Model/UnitPrograms.lean) against a semantics with amounts, exponents and dimensions only (Spec/UnitPrograms.lean). Proved by induction on executions: c126_programs (same end, same amounts), c126_unique, c126_units, c126_conversions, c126_no_side_effects, c126_converted, c126_convert_refused. Formulas may be refused in any step, because of shapes, dimensions or factors (Fails). The example program has an alias, a loop, a refused sum and a refused conversion."
  },
  {
   "property": "C127",
   "status": "proved",
   "theorems": [
    "Verif.Props.c127_preserved",
    "Verif.Props.c127_computes",
    "Verif.Props.c127_ends",
    "Verif.Props.c127_no_exceptions",
    "Verif.Props.c127_progress"
   ],
   "note": "Soundness of a static check (Spec/TypedPrograms.lean) for the programs of C126, by induction on executions: c127_preserved (types), c127_computes (every run computes the meaning; converse of c126_programs), c127_ends (ending does not depend on units and frames), c127_no_exceptions (lengths), c127_progress (programs without loops end)."
  },
  {
   "property": "C128",
   "status": "proved",
   "theorems": [
    "Verif.Props.c128_rows",
    "Verif.Props.c128_programs",
    "Verif.Props.c128_attempts",
    "Verif.Props.c128_masked",
    "Verif.Props.c128_refused_fails",
    "Verif.Props.c128_numbers_fails"
   ],
   "note": "c128_rows (formulas), c128_programs, c128_attempts (with try), c128_masked (fields read with any mask). Negations: c128_refused_fails (a sum of a length and a time is refused for all rows and accepted for a mask in which the lengths are zero), c128_numbers_fails (units and so bare numbers can differ)."
  },
  {
   "property": "C129",
   "status": "partial",
   "theorems": [
    "Verif.Props.c129_programs_partial",
    "Verif.Props.c129_exponent_zero_fails"
   ],
   "note": "c129_programs_partial: for fields whose exponent is not zero and units that five digits are enough for. The full statement is refuted by c129_exponent_zero_fails: for a field with exponent zero the amounts that are read are wrong by the scale factor and every sum, difference or extremum with the array that was assigned is refused."
  },
  {
   "property": "C130",
   "status": "proved",
   "theorems": [
    "Verif.Props.c130_value",
    "Verif.Props.c130_factor",
    "Verif.Props.c130_frames",
    "Verif.Props.c130_one_dimension",
    "Verif.Props.c130_radii",
    "Verif.Props.c130_rows_refused",
    "Verif.Props.c130_rows_weighted"
   ],
   "note": "Arrays are lists of values in the order of the memory with a shape; the specification has tuples of indices and no positions. Reductions are functions of lists through which a positive factor goes. Negative axes and indices are not modelled; slices and masks are lists of indices."
  },
  {
   "property": "C131",
   "status": "proved",
   "theorems": [
    "Verif.Props.c131_rows",
    "Verif.Props.c131_masked",
    "Verif.Props.c131_radii",
    "Verif.Props.c131_rank_fails"
   ],
   "note": "Joins C130 with the rows that a mask reads (C115). Rows are what an index at the first axis gives."
  },
  {
   "property": "C132",
   "status": "partial",
   "theorems": [
    "Verif.Props.c132_script",
    "Verif.Props.c132_frames",
    "Verif.Props.c132_condition",
    "Verif.Props.c132_parts",
    "Verif.Props.c132_unlike_refused",
    "Verif.Props.c132_bare_choice_fails"
   ],
   "note": "proved for scripts in which terms of sums, sides of comparisons and choices scale alike (zeros scale in any way); np.where with another bare number is accepted and depends on the frame, which is proved"
  },
  {
   "property": "C133",
   "status": "proved",
   "theorems": [
    "Verif.Props.c133_rows",
    "Verif.Props.c133_exact",
    "Verif.Props.c133_missing",
    "Verif.Props.c133_masked",
    "Verif.Props.c133_sphere"
   ],
   "note": "c133_rows: the cut of some rows has exactly those rows for which the condition holds; c133_exact and c133_missing: it is the cut of all rows if no such row is missing, and shorter otherwise; c133_masked: for fields loaded with any history of constraints that does not end with a list of indices; c133_sphere: constrain_spatial around a sphere. Distances are not wrapped around the box, as in the formula."
  },
  {
   "property": "C134",
   "status": "proved",
   "theorems": [
    "Verif.Props.c134_script",
    "Verif.Props.c134_masked",
    "Verif.Props.c134_sphere"
   ],
   "note": "c134_script: by induction over the lines, with the invariant that variables with rows hold the rows of the list and all others are equal; exceptions agree too. c134_masked: for fields read with a mask after any history of constraints that does not end with a list of indices. c134_sphere: any cuts of a sphere followed by any formulas of the cuts, for the mask of a region that contains the cube around the sphere. The example computes the total mass and the centre of mass of the particles in a sphere."
  },
  {
   "property": "C135",
   "status": "proved",
   "theorems": [
    "Verif.Props.c135_radii",
    "Verif.Props.c135_inside",
    "Verif.Props.c135_sphere"
   ],
   "note": "c135_radii: the distances, for any number of dimensions. c135_inside: which particles are inside of the sphere. c135_sphere: any number of cuts of the sphere and formulas of them, for the mask of a region. The example is a sphere around a corner of the box of the example file, with an inverted region."
  },
  {
   "property": "C136",
   "status": "proved",
   "theorems": [
    "Verif.Props.c136_script",
    "Verif.Props.c136_masked",
    "Verif.Props.c136_cube",
    "Verif.Props.c136_sphere"
   ],
   "note": "Lines of the script use fields of one type at a time and results without rows; formulas that add rows of different types are outside, as numpy refuses them or pairs unrelated particles."
  },
  {
   "property": "C137",
   "status": "proved",
   "theorems": [
    "Verif.Props.c137_written",
    "Verif.Props.c137_chain",
    "Verif.Props.c137_succeeds"
   ],
   "note": "c137_chain for the results, c137_written and c137_succeeds for when the files are written. A row of a dataset is one value of any shape here; shapes of rows in a subset are C89."
  },
  {
   "property": "C138",
   "status": "proved",
   "theorems": [
    "Verif.Props.c138_axis",
    "Verif.Props.c138_complete",
    "Verif.Props.c138_sound",
    "Verif.Props.c138_accepted",
    "Verif.Props.c138_inside",
    "Verif.Props.c138_extents",
    "Verif.Props.c138_geometric",
    "Verif.Props.c138_nearest",
    "Verif.Props.c138_double",
    "Verif.Props.c138_below",
    "Verif.Props.c138_toEven",
    "Verif.Props.c138_above_fails",
    "Verif.Props.c138_inverted_fails",
    "Verif.Props.c138_rows",
    "Verif.Props.c138_rows_sound",
    "Verif.Props.c138_read"
   ],
   "note": "cells (c138_complete, c138_sound) and rows after any number of joined regions (c138_rows, c138_rows_sound, c138_read); overflow and NaN are not modelled; c138_above_fails and c138_inverted_fails show that the margin is needed through the upper side of the box"
  },
  {
   "property": "C139",
   "status": "proved",
   "theorems": [
    "Verif.Props.c139_matrix",
    "Verif.Props.c139_vector",
    "Verif.Props.c139_refused",
    "Verif.Props.c139_physical",
    "Verif.Props.c139_physical_vector",
    "Verif.Props.c139_masked",
    "Verif.Props.c139_rotated"
   ],
   "note": "c139_matrix and c139_vector: equality with the formula of sums, including attributes and errors. c139_physical and c139_physical_vector: physical values are the product of matrices of physical values (Mathlib's Matrix), exponents are added. c139_rotated, c139_masked, c139_refused. Modelled for a matrix on the left and a matrix or vector on the right; stacks of matrices are not modelled."
  },
  {
   "property": "C140",
   "status": "proved",
   "theorems": [
    "Verif.Props.c140_cut",
    "Verif.Props.c140_inside",
    "Verif.Props.c140_sphere_extent",
    "Verif.Props.c140_sphere",
    "Verif.Props.c140_nearest",
    "Verif.Props.c140_box",
    "Verif.Props.c140_double",
    "Verif.Props.c140_periodic",
    "Verif.Props.c140_edge_fails"
   ],
   "note": "c140_cut is the general statement for two fields and any condition; c140_box, c140_double (spheres, distances rounded) and c140_periodic are its instances in double precision; c140_sphere_extent shows that the rounded distance never puts a particle into the sphere that differs by the radius along an axis. c140_edge_fails: the computed ends of the sphere as region lose a particle, which is why ReachesOver is asked for. Overflow and NaN are not modelled."
  },
  {
   "property": "C141",
   "status": "proved",
   "theorems": [
    "Verif.Props.c141_projections",
    "Verif.Props.c141_reference",
    "Verif.Props.c141_histogram",
    "Verif.Props.c141_slice",
    "Verif.Props.c141_volume",
    "Verif.Props.c141_limited",
    "Verif.Props.c141_rounded",
    "Verif.Props.c141_masked",
    "Verif.Props.c141_double",
    "Verif.Props.c141_double_reference",
    "Verif.Props.c141_double_slice",
    "Verif.Props.c141_double_volume",
    "Verif.Props.c141_doubles",
    "Verif.Props.c141_threads_fails"
   ],
   "note": "One thread for every backend; the arithmetic is any that keeps the order of numbers (OrderedArith), and c141_rounded and c141_doubles show that rounded sums and products meet this. For masks c141_masked covers anything that is drawn; c141_double, c141_double_reference, c141_double_slice and c141_double_volume name the conditions on the ends of the region for each backend. c141_threads_fails shows that the claim is false to the last digit with two threads."
  },
  {
   "property": "C142",
   "status": "proved",
   "theorems": [
    "Verif.Props.c142_histogram",
    "Verif.Props.c142_fast",
    "Verif.Props.c142_renormalised",
    "Verif.Props.c142_reference",
    "Verif.Props.c142_subsampled",
    "Verif.Props.c142_slice",
    "Verif.Props.c142_volume",
    "Verif.Props.c142_limited",
    "Verif.Props.c142_deposit",
    "Verif.Props.c142_format",
    "Verif.Props.c142_floats",
    "Verif.Props.c142_threads_fails"
   ],
   "note": "One thread for every backend. PositiveArith excludes NaN, so for the renormalised and subsampled backends it excludes a sum of kernel values that is zero. c142_format shows that the numbers of any format with rounded operations meet the assumption, c142_floats that double precision does. c142_threads_fails shows that the claim is false to the last digit with two threads."
  },
  {
   "property": "C143",
   "status": "proved",
   "theorems": [
    "Verif.Props.c143_masked",
    "Verif.Props.c143_projections",
    "Verif.Props.c143_reference",
    "Verif.Props.c143_slice",
    "Verif.Props.c143_volume"
   ],
   "note": "c143_masked is stated for any number of regions and for anything that is drawn; the theorems for the backends name the conditions on the ends of one region. Along the line of sight of projections and slices all particles have to be in the region by more than the box length divided by 2^49."
  },
  {
   "property": "C144",
   "status": "proved",
   "theorems": [
    "Verif.Props.c144_stored",
    "Verif.Props.c144_refines",
    "Verif.Props.c144_history",
    "Verif.Props.c144_order",
    "Verif.Props.c144_bins",
    "Verif.Props.c144_wider",
    "Verif.Props.c144_between",
    "Verif.Props.c144_near",
    "Verif.Props.c144_double",
    "Verif.Props.c144_own_fails",
    "Verif.Props.c144_frames_fails"
   ],
   "note": "Model of constrain_property with one rounding for each conversion (two rounding functions: precision of the field and of the bounds). c144_refines: with bounds as stored it is the exact model. Refusals are C102. c144_own_fails and c144_frames_fails show what cannot be claimed."
  },
  {
   "property": "C145",
   "status": "proved",
   "theorems": [
    "Verif.Props.c145_masks",
    "Verif.Props.c145_further",
    "Verif.Props.c145_wider",
    "Verif.Props.c145_order",
    "Verif.Props.c145_count",
    "Verif.Props.c145_sum_fails"
   ],
   "note": "For every function that draws growing images (C142: histogram, fast, renormalised, reference, subsampled, slice, volume, limited volume, deposition). Parallel versions are excluded, c142_threads_fails. c145_sum_fails refutes additivity of the bins in double precision; with exact numbers it is C39."
  },
  {
   "property": "C146",
   "status": "proved",
   "theorems": [
    "Verif.Props.c146_order",
    "Verif.Props.c146_wider",
    "Verif.Props.c146_parts",
    "Verif.Props.c146_read",
    "Verif.Props.c146_images"
   ],
   "note": "c146_order, c146_wider, c146_parts for the rows selected, c146_read for what is read, c146_images for the drawing functions of C142. Regions through a side given with ends in reverse order are not in (2) and (3): which end is shifted depends on the region, and the shift is rounded (c138_inverted_fails)."
  },
  {
   "property": "C147",
   "status": "proved",
   "theorems": [
    "Verif.Props.c147_call",
    "Verif.Props.c147_kind",
    "Verif.Props.c147_rows",
    "Verif.Props.c147_read",
    "Verif.Props.c147_order",
    "Verif.Props.c147_further",
    "Verif.Props.c147_bins",
    "Verif.Props.c147_joined",
    "Verif.Props.c147_after"
   ],
   "note": "c147_rows characterises the selected rows, c147_read what the reader returns, c147_order order and repetition of cuts, c147_further further cuts and cuts on other groups, c147_bins and c147_joined consecutive bins, c147_after that cuts in the mask equal cuts after reading. Calls that raise are caught and leave the mask as the code leaves it. Regions come before cuts; other orders raise (C10). c147_call and c147_kind say which calls raise and what the mask remembers."
  },
  {
   "property": "C148",
   "status": "proved",
   "theorems": [
    "Verif.Props.c148_wider",
    "Verif.Props.c148_read",
    "Verif.Props.c148_images"
   ],
   "note": "c148_wider for selected rows, c148_read for what is read, c148_images for images. Bounds that are compared are in the same frame and unit; regions have ordered ends; the image loops are those with Growing in C142. If no region is accepted the mask holds all rows, so at least one region of the smaller mask must be accepted."
  },
  {
   "property": "C149",
   "status": "proved",
   "theorems": [
    "Verif.Props.c149_subset",
    "Verif.Props.c149_again",
    "Verif.Props.c149_regions"
   ],
   "note": "c149_subset for what is written (header counts, cells, datasets, well-formed again), c149_again for cuts in the subset against one mask in the file, c149_regions for regions in the subset. Datasets without rows are excluded by Writable (c17_empty_dataset_fails), as in C17. Columns of the subset keep their frame and unit (ColumnsOfSubset)."
  },
  {
   "property": "C150",
   "status": "proved",
   "theorems": [
    "Verif.Props.c150_copy",
    "Verif.Props.c150_again",
    "Verif.Props.c150_order",
    "Verif.Props.c150_sign",
    "Verif.Props.c150_error",
    "Verif.Props.c150_accepted",
    "Verif.Props.c150_in_place",
    "Verif.Props.c150_back",
    "Verif.Props.c150_units",
    "Verif.Props.c150_exact",
    "Verif.Props.c150_compare",
    "Verif.Props.c150_comparable",
    "Verif.Props.c150_own_copy_fails",
    "Verif.Props.c150_back_fails",
    "Verif.Props.c150_strict_fails"
   ],
   "note": "c150_copy, c150_again, c150_order, c150_sign, c150_error, c150_units, c150_accepted, c150_back, c150_exact and c150_compare are for all arrays; c150_back_fails, c150_strict_fails and c150_own_copy_fails show that equality and strict order cannot be had in double precision (scale factor 0.7). The factor is the number a_factor returns; equivalences are left out. c150_in_place is for the calls that convert the array itself."
  }
 ]
}