{"id": "C01", "title": "Index list to ranges is lossless", "statement": "Turning a list of row indices into ranges and expanding the ranges again returns exactly the same rows, in the same order and with the same multiplicity; the empty list becomes a range set that selects nothing.", "quantifier": "every list of integer indices (any length, sorted or not, with or without repeats)", "why_tests_cant": "Tests try a handful of index lists; runs may break at any position, so only an induction covers all break patterns.", "anchors": ["swiftsimio/accelerated.py:ranges_from_array", "swiftsimio/accelerated.py:expand_ranges"]}
{"id": "C02", "title": "Ranges are as few as possible", "statement": "For a strictly increasing index list the ranges produced are non-empty, strictly increasing and separated by at least one unselected row, so no two could be merged (one read per contiguous run).", "quantifier": "every strictly increasing list of indices", "why_tests_cant": "A unit test cannot show that no input ever yields two mergeable ranges.", "anchors": ["swiftsimio/accelerated.py:ranges_from_array"]}
{"id": "C03", "title": "Chunk-aligned read equals direct read", "statement": "Reading row ranges of a chunked dataset through whole chunks returns element for element the rows of the ranges, the same as reading each range directly, for any chunk size and dataset length, including ranges that straddle, share or touch chunks and a short last chunk.", "quantifier": "every dataset, chunk size >= 1 and list of in-bounds ranges whose starts and ends are both non-decreasing", "why_tests_cant": "The alignment of ranges to chunk boundaries has unboundedly many cases; tests use a few chunk sizes.", "anchors": ["swiftsimio/accelerated.py:get_chunk_ranges", "swiftsimio/accelerated.py:extract_ranges_from_chunks", "swiftsimio/accelerated.py:read_ranges_from_file_chunked", "swiftsimio/accelerated.py:read_ranges_from_file_unchunked"]}
{"id": "C04", "title": "Chunk-aligned read only touches needed chunks", "statement": "The chunk ranges read for a request are chunk aligned (or end at the end of the dataset), in bounds, disjoint and increasing, cover every requested row, and every chunk read is within the hull of the chunks overlapped by requested ranges that were merged into it.", "quantifier": "every chunk size >= 1, dataset length and ordered in-bounds range list", "why_tests_cant": "Coverage and disjointness are universally quantified over range lists.", "anchors": ["swiftsimio/accelerated.py:get_chunk_ranges"]}
{"id": "C05", "title": "Remote (streamed) read equals local read", "statement": "Requesting ranges from a remote server returns the rows in the order the ranges were given, identical to a local read, whatever the order in which disjoint ranges are given; the server is only ever sent non-empty, increasing, non-adjacent slices; overlapping ranges are refused with an error rather than mis-assembled.", "quantifier": "every dataset and every list of in-bounds ranges (any order, any overlap)", "why_tests_cant": "The permutation/inverse permutation bookkeeping must be right for all permutations.", "anchors": ["swiftsimio/_ordered_slices.py:OrderedSlices", "swiftsimio/accelerated.py:read_ranges_from_hdfstream"]}
{"id": "C06", "title": "Result of a masked read does not depend on storage layout", "statement": "The reader picks a chunked, contiguous or remote strategy from the layout and mean range size; for any range list produced by a mask the selected strategy never changes the returned values.", "quantifier": "every dataset, layout, cross-over decision and ordered disjoint in-bounds range list, including the empty one", "why_tests_cant": "Threshold behaviour (mean range 5e5) cannot be exercised exhaustively in tests.", "anchors": ["swiftsimio/accelerated.py:read_ranges_from_file"]}
{"id": "C07", "title": "Masked read equals full read then selection", "statement": "Loading a field through a mask returns exactly the rows of the full field whose index is selected, in file order, with length equal to the advertised mask size.", "quantifier": "every field, every mask reachable by API calls", "why_tests_cant": "Ranges over all call histories and field contents.", "anchors": ["swiftsimio/reader.py:_generate_getter", "swiftsimio/masks.py:SWIFTMask", "swiftsimio/accelerated.py:read_ranges_from_file"]}
{"id": "C08", "title": "Switching mask representation preserves the selection", "statement": "Converting a mask to boolean form and back to range form (any number of times) never changes which rows are selected, and the advertised size afterwards is the number of selected rows.", "quantifier": "every mask state reachable by API calls", "why_tests_cant": "Conversion interleaves with every constraint history.", "anchors": ["swiftsimio/masks.py:convert_masks_to_bool", "swiftsimio/masks.py:convert_masks_to_ranges"]}
{"id": "C09", "title": "Mask constraint history semantics", "statement": "After any sequence of mask calls the selected rows are exactly: all rows, intersected with the union of the spatial regions (each coarse-grained to whole cells) or the given index list, intersected with every property constraint applied afterwards; calls that raise leave the selection as it was.", "quantifier": "every finite sequence of constrain_spatial (with or without union), constrain_property, constrain_index(es) and conversions", "why_tests_cant": "Histories are unbounded; tests try two or three calls.", "anchors": ["swiftsimio/masks.py:SWIFTMask", "swiftsimio/masks.py:_constraint"]}
{"id": "C10", "title": "Illegal constraint orders are refused", "statement": "A row-index constraint is accepted only on a fresh mask of a file with homogeneous arrays; a spatial constraint is accepted only on a fresh mask or, with union, directly after other spatial constraints; every other order raises and the recorded last constraint does not change.", "quantifier": "every call history", "why_tests_cant": "State machine over unbounded histories.", "anchors": ["swiftsimio/masks.py:_constraint", "swiftsimio/masks.py:constrain_spatial", "swiftsimio/masks.py:constrain_indices", "swiftsimio/masks.py:constrain_index"]}
{"id": "C11", "title": "Property constraint is exact and composes", "statement": "constrain_property(lower, upper) keeps exactly the currently selected rows with lower < value <= upper; repeated constraints intersect, their order does not matter, and other particle types are untouched.", "quantifier": "all field values, bounds and current selections", "why_tests_cant": "Value/selection combinations are unbounded.", "anchors": ["swiftsimio/masks.py:constrain_property"]}
{"id": "C12", "title": "Spatial mask is complete under periodic wrapping", "statement": "Every particle whose periodic position lies strictly inside the requested box (given with lower/upper anywhere in [-L/2, 3L/2], possibly inverted to wrap around the boundary) belongs to a selected cell, provided it lies within its cell's bounding box.", "quantifier": "all box sizes, regions in the accepted window, cells and particle positions", "why_tests_cant": "Continuous domain with wrap-around cases; tests sample a few regions.", "anchors": ["swiftsimio/masks.py:_generate_cell_mask", "swiftsimio/masks.py:_unpack_cell_metadata"]}
{"id": "C13", "title": "Spatial mask is tight to whole cells", "statement": "A cell is selected only if, along every axis, its bounding box overlaps the region or a periodic copy of it; regions outside the accepted window raise instead of silently selecting too little; an axis given as None or longer than the box selects everything along that axis.", "quantifier": "all box sizes, regions and cells", "why_tests_cant": "Continuous domain.", "anchors": ["swiftsimio/masks.py:_generate_cell_mask", "swiftsimio/masks.py:_sanitize_region"]}
{"id": "C14", "title": "Cell bounding boxes always contain the cell and its particles", "statement": "The bounding box used for a cell is at least the geometric cell, contains recorded particle extents when the file has them, and otherwise contains every particle that drifted at most the padding fraction of a cell.", "quantifier": "all cell centres, sizes, recorded extents and paddings >= 0", "why_tests_cant": "Continuous domain.", "anchors": ["swiftsimio/masks.py:_unpack_cell_metadata"]}
{"id": "C15", "title": "Row-index mask returns the requested rows sorted", "statement": "After constrain_indices(l) on a fresh mask, loading a field returns the rows sorted(l) with repeats kept, and the advertised size is len(l); constrain_index(i) returns exactly row i.", "quantifier": "every list of in-bounds row indices", "why_tests_cant": "All lists, including unsorted and repeated.", "anchors": ["swiftsimio/masks.py:constrain_indices", "swiftsimio/masks.py:constrain_index"]}
{"id": "C16", "title": "Cell counts of a subset are the true counts", "statement": "The per-cell counts written for a subset equal the number of selected rows that lie in that cell, they sum to the mask size, and the per-cell offsets are the prefix sums, so that in the subset file cell i's rows are exactly [offset_i, offset_i+count_i).", "quantifier": "every partition of the rows into cells (empty cells allowed) and every reachable mask in range or boolean form", "why_tests_cant": "Boundary coincidences of ranges and cells (including empty cells) are unbounded.", "anchors": ["swiftsimio/masks.py:_get_masked_counts_offsets", "swiftsimio/subset_writer.py:_update_metadata_counts"]}
{"id": "C17", "title": "Written subset reads back as the masked data", "statement": "Every particle dataset in a written subset holds exactly the rows a masked load of the original returns, so loading the subset without a mask equals loading the original with the mask; header particle numbers equal the dataset lengths.", "quantifier": "every snapshot content and reachable mask", "why_tests_cant": "Content and masks are unbounded.", "anchors": ["swiftsimio/subset_writer.py:write_subset", "swiftsimio/subset_writer.py:_write_datasubset", "swiftsimio/subset_writer.py:_write_metadata"]}
{"id": "C18", "title": "Masking a subset again composes", "statement": "Taking a subset of a subset selects the same rows as selecting from the original with the composed selection, and the subset's cell metadata is again a valid partition of its rows.", "quantifier": "every pair of selections", "why_tests_cant": "Composition law over all selections.", "anchors": ["swiftsimio/masks.py:_get_masked_counts_offsets", "swiftsimio/subset_writer.py:write_subset"]}
{"id": "C19", "title": "Dataset discovery finds each dataset exactly once", "statement": "The list of datasets of a file contains the path of every dataset in the group tree exactly once and nothing else; soft links at every depth are found.", "quantifier": "every finite group tree", "why_tests_cant": "Trees of any depth.", "anchors": ["swiftsimio/subset_writer.py:_find_datasets", "swiftsimio/subset_writer.py:_find_links"]}
{"id": "C20", "title": "Unconstrained subset writes are refused", "statement": "write_subset refuses a mask that has no constraint unless explicitly allowed, for every history of calls (failed constraint calls do not count as constraints).", "quantifier": "every call history", "why_tests_cant": "Histories are unbounded.", "anchors": ["swiftsimio/subset_writer.py:write_subset", "swiftsimio/masks.py:_constraint"]}
{"id": "C21", "title": "Lazy fields are read once and behave like stored values", "statement": "For any interleaving of get, set and delete on fields, get returns the last value set since the last delete or otherwise the file's value, the file is read at most once between deletes, and operations on one field never change another.", "quantifier": "every sequence of get/set/delete over any set of fields", "why_tests_cant": "Interleavings are unbounded.", "anchors": ["swiftsimio/reader.py:_generate_getter", "swiftsimio/reader.py:_generate_setter", "swiftsimio/reader.py:_generate_deleter"]}
{"id": "C22", "title": "File handles are closed exactly by their owner", "statement": "An object never closes a handle it was given; handles it opened are closed by it; temporary opens are closed on exit also on exceptions; using a closed external handle raises instead of silently reopening.", "quantifier": "every sequence of handle operations by objects sharing a handle", "why_tests_cant": "Histories of operations are unbounded.", "anchors": ["swiftsimio/_handle_provider.py:HandleProvider", "swiftsimio/_file_utils.py:open_path_or_handle"]}
{"id": "C23", "title": "Comoving/physical conversion is invertible and value preserving", "statement": "Converting an array to physical and back to comoving (in place or as a copy, any number of times) returns the original values; the physical value a^k*x is unchanged by any conversion; converting twice equals converting once; arrays marked as not convertible refuse.", "quantifier": "all values, scale factors a > 0, exponents k and conversion sequences", "why_tests_cant": "Continuous domain and unbounded sequences.", "anchors": ["swiftsimio/objects.py:convert_to_comoving", "swiftsimio/objects.py:convert_to_physical", "swiftsimio/objects.py:to_physical", "swiftsimio/objects.py:to_comoving"]}
{"id": "C24", "title": "Products, quotients and powers are covariant", "statement": "For convertible operands in any mix of comoving and physical form, the physical value of x*y, x/y, 1/x, x**p, sqrt, cbrt and square is the same operation on the physical values; the result carries the matching scale-factor exponent.", "quantifier": "all values, scale factors, exponents and comoving flags", "why_tests_cant": "All combinations of continuous inputs and flags.", "anchors": ["swiftsimio/_array_functions.py:_multiply_cosmo_factor", "swiftsimio/_array_functions.py:_divide_cosmo_factor", "swiftsimio/_array_functions.py:_power_cosmo_factor", "swiftsimio/objects.py:__array_ufunc__", "swiftsimio/_array_functions.py:_prepare_array_func_args"]}
{"id": "C25", "title": "Sums, differences and comparisons are covariant", "statement": "For convertible operands with equal exponents in any mix of comoving and physical form, the physical value of x+y and x-y is that of the physical operands and x<y, x==y etc. give the comparison of physical values (a>0).", "quantifier": "all values, scale factors, exponents and comoving flags", "why_tests_cant": "All combinations of continuous inputs and flags.", "anchors": ["swiftsimio/_array_functions.py:_preserve_cosmo_factor", "swiftsimio/_array_functions.py:_comparison_cosmo_factor", "swiftsimio/objects.py:__array_ufunc__"]}
{"id": "C26", "title": "Incompatible cosmology is refused", "statement": "Adding or comparing operands whose scale factors differ, or whose factors a^k differ, raises rather than returning a number, and an operation never silently combines values from two different scale factors.", "quantifier": "all operands", "why_tests_cant": "Must hold for all pairs; tests check examples.", "anchors": ["swiftsimio/objects.py:cosmo_factor", "swiftsimio/_array_functions.py:_preserve_cosmo_factor", "swiftsimio/_array_functions.py:_multiply_cosmo_factor"]}
{"id": "C27", "title": "Scale-factor exponents form a group under multiplication", "statement": "At a fixed scale factor, the factors multiply/divide/power by adding/subtracting/scaling exponents, with the usual laws (associative, commutative, identity, inverse, (f*g)^p = f^p g^p), and equality of factors is an equivalence on exponents.", "quantifier": "all factors and exponents at one scale factor", "why_tests_cant": "Algebraic laws over all exponents.", "anchors": ["swiftsimio/objects.py:cosmo_factor"]}
{"id": "C28", "title": "Non-convertible arrays never change frame", "statement": "Any chain of operations on an array flagged as not convertible yields results flagged as not convertible and never rescales it by the scale factor.", "quantifier": "every operation chain", "why_tests_cant": "Unbounded chains.", "anchors": ["swiftsimio/objects.py:_verify_valid_transform_validity", "swiftsimio/_array_functions.py:_prepare_array_func_args"]}
{"id": "C29", "title": "Stacking arrays in different frames is covariant", "statement": "Building an array from a list of arrays/quantities (constructor or concatenate/stack) that mix comoving and physical frames gives an array whose physical values are the physical values of the elements, in order.", "quantifier": "every list of convertible elements with equal exponents", "why_tests_cant": "List length and frame pattern unbounded.", "anchors": ["swiftsimio/objects.py:cosmo_array.__new__", "swiftsimio/_array_functions.py:_prepare_array_func_args", "swiftsimio/_array_functions.py:_default_oplist_wrapper"]}
{"id": "C30", "title": "Generated particle IDs are unique and contiguous", "statement": "If any populated particle type lacks IDs, the written IDs are exactly 1..N over all types with no repeats, whatever types are populated; if all have IDs, they are unique across types and positive or the write is refused.", "quantifier": "every assignment of particle numbers and ID lists to types", "why_tests_cant": "All combinations of populated types and IDs.", "anchors": ["swiftsimio/snapshot_writer.py:_generate_ids", "swiftsimio/snapshot_writer.py:write"]}
{"id": "C31", "title": "A written particle group is internally consistent", "statement": "A group is written only when every required field is set and all its arrays have the same number of particles; an empty group is skipped; the header counts equal the written lengths for each type and 0 otherwise.", "quantifier": "every assignment of field arrays", "why_tests_cant": "All field subsets and lengths.", "anchors": ["swiftsimio/snapshot_writer.py:check_empty", "swiftsimio/snapshot_writer.py:check_consistent", "swiftsimio/snapshot_writer.py:_write_metadata"]}
{"id": "C32", "title": "Field cosmology and units round-trip through a file", "statement": "Writing a field and reading it back recovers the same physical dimensions exponents, scale-factor exponent, comoving/physical flag and convertible flag.", "quantifier": "every unit exponent vector and scale-factor exponent", "why_tests_cant": "Exponent space is unbounded.", "anchors": ["swiftsimio/snapshot_writer.py:get_attributes", "swiftsimio/snapshot_writer.py:get_dimensions", "swiftsimio/metadata/field/attr_reader.py"]}
{"id": "C33", "title": "File type discrimination is total and subset-stable", "statement": "Each output type string maps to one metadata reader, unknown strings raise, a missing string means a full snapshot, and the type written for a subset maps to the same reader as its source; subsetting twice is the same as once.", "quantifier": "every output type string", "why_tests_cant": "All strings.", "anchors": ["swiftsimio/metadata/objects.py:_metadata_discriminator", "swiftsimio/subset_writer.py:_write_metadata"]}
{"id": "C34", "title": "Field names become lower snake case stably", "statement": "The Python name of a file field has no upper-case letters, removing underscores gives the lower-cased original without underscores, an underscore is inserted exactly where an upper-case letter follows a lower-case letter or digit, and converting an already converted name changes nothing.", "quantifier": "every string", "why_tests_cant": "All strings.", "anchors": ["swiftsimio/metadata/objects.py:_convert_snake_to_camel"]}
{"id": "C35", "title": "Histogram projection conserves mass", "statement": "The histogram image sums to the total mass of the particles (and their periodic images) that fall inside the image, each in the pixel that contains it, and nothing is written outside the image.", "quantifier": "every particle list, resolution and box", "why_tests_cant": "All positions including edges.", "anchors": ["swiftsimio/visualisation/projection_backends/histogram.py"]}
{"id": "C36", "title": "SPH deposition reaches every pixel in the kernel support", "statement": "For the 2D projection backends, every pixel of the image whose centre lies within a particle's kernel radius receives its contribution, i.e. the loop bounds never truncate the kernel and never leave the image.", "quantifier": "all positions, smoothing lengths and resolutions", "why_tests_cant": "Continuous positions; truncation only shows for special fractions of a pixel.", "anchors": ["swiftsimio/visualisation/projection_backends/fast.py", "swiftsimio/visualisation/projection_backends/renormalised.py", "swiftsimio/visualisation/slice_backends/sph.py", "swiftsimio/visualisation/volume_render_backends/scatter.py"]}
{"id": "C37", "title": "Periodic tiling is complete and not doubled", "statement": "Each periodic image of a particle that can touch the unit image is considered exactly once when the kernel is no larger than the box, and without periodicity only the particle itself is considered.", "quantifier": "all box sizes, positions in the box and kernel sizes", "why_tests_cant": "Continuous domain.", "anchors": ["swiftsimio/visualisation/projection_backends/fast.py", "swiftsimio/visualisation/projection_backends/histogram.py", "swiftsimio/visualisation/volume_render_backends/scatter.py"]}
{"id": "C38", "title": "Parallel deposition equals serial deposition", "statement": "Splitting the particles among any number of threads deposits each particle exactly once, so the parallel image equals the serial image for any thread count and any order in which thread results are added.", "quantifier": "every particle number, thread count >= 1 and completion order", "why_tests_cant": "Schedules and sizes are unbounded.", "anchors": ["swiftsimio/visualisation/projection_backends/fast.py:scatter_parallel", "swiftsimio/visualisation/power_spectrum.py:deposit_parallel", "swiftsimio/visualisation/volume_render_backends/scatter.py:scatter_parallel"]}
{"id": "C39", "title": "Deposition is linear in the projected field", "statement": "Images are additive: depositing the concatenation of two particle lists is the sum of the images, and scaling all weights scales the image.", "quantifier": "every pair of particle lists and scale", "why_tests_cant": "Universally quantified over lists.", "anchors": ["swiftsimio/visualisation/projection_backends/fast.py", "swiftsimio/visualisation/projection_backends/histogram.py", "swiftsimio/visualisation/projection_backends/renormalised.py"]}
{"id": "C40", "title": "Renormalised projection conserves each particle's mass", "statement": "With the renormalised backend a particle whose kernel is inside the image contributes exactly its mass to the image sum.", "quantifier": "all positions, masses and smoothing lengths", "why_tests_cant": "Continuous domain; edge cells matter only for special sub-pixel positions.", "anchors": ["swiftsimio/visualisation/projection_backends/renormalised.py"]}
{"id": "C41", "title": "Depth selection of a projection respects periodicity", "statement": "With a depth range [z_min, z_max] shorter than the box, a particle is included iff some periodic copy of it lies in [z_min, z_max]; deeper ranges raise.", "quantifier": "all boxes, depth ranges and positions", "why_tests_cant": "Wrap cases over a continuous domain.", "anchors": ["swiftsimio/visualisation/projection.py:project_pixel_grid"]}
{"id": "C42", "title": "Power-spectrum deposition conserves mass and stays in bounds", "statement": "Every particle is deposited in exactly one cell of the grid for any (also negative or out of box) position and folding, so the grid total is the total mass times the cell density factor.", "quantifier": "all positions, resolutions and foldings", "why_tests_cant": "All positions including exact cell edges.", "anchors": ["swiftsimio/visualisation/power_spectrum.py:deposit", "swiftsimio/visualisation/power_spectrum.py:render_to_deposit"]}
{"id": "C43", "title": "Folding is grid reduction modulo the resolution", "statement": "Depositing with folding f on an n-cell grid puts each particle in the cell obtained by depositing without folding on an f*n grid and reducing the cell index modulo n; folding does not depend on which periodic image of a particle is given.", "quantifier": "all positions, n and f", "why_tests_cant": "Continuous domain.", "anchors": ["swiftsimio/visualisation/power_spectrum.py:deposit"]}
{"id": "C44", "title": "Rotation matrix is a proper rotation taking the vector to the axis", "statement": "The matrix returned for a non-zero vector is orthogonal with determinant +1 and maps the vector direction onto the chosen axis.", "quantifier": "every vector and axis", "why_tests_cant": "Continuous domain.", "anchors": ["swiftsimio/visualisation/rotation.py:rotation_matrix_from_vector"]}
{"id": "C45", "title": "Block-wise smoothing-length generation covers every particle once", "statement": "Processing particles in blocks visits every particle exactly once, in order, for every particle number.", "quantifier": "every particle number and block size >= 1", "why_tests_cant": "Block boundaries for all N.", "anchors": ["swiftsimio/visualisation/smoothing_length/generate.py:generate_smoothing_lengths"]}
{"id": "C46", "title": "Neutrino species expansion is faithful", "statement": "The list of neutrino masses handed to the cosmology has one entry per effective species, each massive species repeated by its degeneracy followed by the massless ones, and inconsistent input is refused.", "quantifier": "all mass/degeneracy lists and N_ur", "why_tests_cant": "All lists.", "anchors": ["swiftsimio/conversions.py:swift_neutrinos_to_astropy"]}
{"id": "C47", "title": "Statistics file columns are transposed faithfully", "statement": "Parsing a statistics file gives for each column the values of that column in line order; names and columns stay aligned; ragged rows are not silently mixed between columns.", "quantifier": "every rectangular table of numbers", "why_tests_cant": "All tables.", "anchors": ["swiftsimio/accelerated.py:list_of_strings_to_arrays", "swiftsimio/statistics.py:SWIFTStatisticsFile"]}
{"id": "C48", "title": "Two-dimensional colour maps look up in-range, anchored colours", "statement": "Looking up normalised values never leaves the colour grid, values outside [0,1] are clamped, and the colour returned at an anchor coordinate is the anchor's colour.", "quantifier": "all value arrays and anchors", "why_tests_cant": "All values, including out of range.", "anchors": ["swiftsimio/visualisation/tools/cmaps.py:LinearSegmentedCmap2D"]}
{"id": "C49", "title": "SPH kernel is non-negative, monotone and compactly supported", "statement": "The projection/volume kernel is zero at and beyond the kernel radius, non-negative inside, continuous at its piece boundary and non-increasing with distance.", "quantifier": "all radii and kernel widths > 0", "why_tests_cant": "Continuous domain.", "anchors": ["swiftsimio/visualisation/projection_backends/kernels.py", "swiftsimio/visualisation/slice_backends/sph.py:kernel"]}
{"id": "C50", "title": "Number of particles per type and present groups agree", "statement": "A particle type is listed as present exactly when the file says it has particles, name lists stay aligned with the group list, and each present group maps to one distinct Python name.", "quantifier": "every header count vector", "why_tests_cant": "All count vectors.", "anchors": ["swiftsimio/metadata/objects.py:SWIFTSnapshotMetadata", "swiftsimio/metadata/particle/particle_types.py"]}
{"id": "C51", "title": "Nearest named unit minimises the log distance", "statement": "The named base unit chosen for a file unit minimises |log10(ratio)| among the candidates and is the first on ties; a missing unit raises or is skipped as documented.", "quantifier": "every unit value and candidate table", "why_tests_cant": "All unit values.", "anchors": ["swiftsimio/metadata/unit/unit_types.py:find_nearest_base_unit"]}
{"id": "C52", "title": "Reductions and array functions are covariant", "statement": "Numpy reductions on convertible arrays (sum, mean, min, max, median, cumulative sums, dot/products, variance, standard deviation, einsum) give a result whose physical value is the reduction of the physical values.", "quantifier": "all arrays, scale factors and exponents", "why_tests_cant": "All arrays and functions.", "anchors": ["swiftsimio/_array_functions.py"]}
{"id": "C53", "title": "Image frame: region normalisation maps the region to the image", "statement": "A particle inside the requested region is placed, after normalisation and periodic wrapping, at its relative position in the image, for any region (also outside the box when periodic), and non-square regions trim to the pixels that can be covered.", "quantifier": "all regions, positions and box sizes", "why_tests_cant": "Continuous domain.", "anchors": ["swiftsimio/visualisation/_vistools.py:_get_region_info", "swiftsimio/visualisation/projection.py:project_pixel_grid"]}
{"id": "C54", "title": "Byte order normalisation preserves values", "statement": "Converting an array to native byte order in place yields the same numeric values for every byte pattern and is idempotent, for plain and structured arrays.", "quantifier": "every byte pattern and word size", "why_tests_cant": "All byte patterns.", "anchors": ["swiftsimio/accelerated.py:to_native_byteorder_inplace"]}
{"id": "C55", "title": "Cell order used by masks is a partition for every particle type", "statement": "After the mask re-orders the cells of a snapshot, the cells of every particle type follow each other in the file: cell n+1 starts at the row where cell n ends, so range masks are increasing and disjoint for every type.", "quantifier": "every snapshot whose cells were written one after the other in some order, any number of particle types and cells, empty cells included", "why_tests_cant": "Needs snapshots whose cells were written out of order with cells empty of one particle type only.", "anchors": ["swiftsimio/masks.py:_unpack_cell_metadata"]}
{"id": "C56", "title": "Which datasets a subset contains", "statement": "A subset contains every particle dataset of the original exactly once, datasets reached through a soft link are not written twice, and no dataset is lost because of its name.", "quantifier": "every finite group tree with any dataset, group and link names", "why_tests_cant": "The skip list matches substrings of full paths; a test file needs a field whose name contains a link name.", "anchors": ["swiftsimio/subset_writer.py:_write_datasubset", "swiftsimio/subset_writer.py:_find_datasets"]}
{"id": "C57", "title": "Mixing convertible and non-convertible operands is physical", "statement": "An operation that combines a convertible array with one that may not be converted to comoving form never converts the latter, and its result is the operation on the physical values of the two.", "quantifier": "all pairs of a convertible array (comoving or physical) and a non-convertible one, all universal functions", "why_tests_cant": "The outcome depends on the frame and convertibility of every operand; tests check a few pairs for the warning that is raised, not for the numbers.", "anchors": ["swiftsimio/_array_functions.py:_prepare_array_func_args", "swiftsimio/objects.py:cosmo_array.__array_ufunc__"]}
{"id": "C58", "title": "Named columns read their own column", "statement": "The Python names of the columns of a field keep their order and number, are all lower-cased or all kept, and reading a column by name returns a column with that name; when the names are distinct, each name reads its own column.", "quantifier": "every list of column names", "why_tests_cant": "The rule depends on an average over all names, and clashes after lower-casing only show with unusual names.", "anchors": ["swiftsimio/metadata/objects.py:692-744", "swiftsimio/reader.py:618-662"]}
{"id": "C59", "title": "Making an image does not disturb the data", "statement": "Making any sequence of images from a dataset leaves the particles of the dataset as they were read, and every image is the one that would be made from freshly read data.", "quantifier": "all data, boxes, regions, masks and rotations, and all sequences of projections, slices and renders, including ones that raise", "why_tests_cant": "The disturbance is an in-place operation on a cached array; a test would have to use particles outside the box and compare with a second copy of the data.", "anchors": ["swiftsimio/visualisation/_vistools.py:_get_rotated_and_wrapped_coordinates", "swiftsimio/visualisation/projection.py:project_pixel_grid", "swiftsimio/visualisation/slice.py:slice_pixel_grid", "swiftsimio/visualisation/volume_render.py:render_voxel_grid"]}
{"id": "C60", "title": "Nearest-neighbour slices show a nearest particle", "statement": "Each pixel of a nearest-neighbour slice has the value (field over volume) of a selected particle that is nearest to the centre of the pixel among all periodic copies of all selected particles.", "quantifier": "all regions, boxes (periodic or not), heights, resolutions, masks and particle lists with at least one selected particle, and every tree that returns some nearest particle", "why_tests_cant": "Distances through the border and the two wrappings of the height only matter for special positions.", "anchors": ["swiftsimio/visualisation/slice_backends/nearest_neighbours.py:slice_scatter", "swiftsimio/visualisation/slice_backends/nearest_neighbours.py:build_tree", "swiftsimio/visualisation/slice.py:slice_pixel_grid"]}
{"id": "C61", "title": "Subsampled images", "statement": "In the subsampled backends every pixel gets the mean of the kernel over its samples, and kernels of at most a quarter of a pixel are divided among the pixels that they cover; no copy, pixel or mass is lost, nothing is written outside the image, and threads do not matter.", "quantifier": "all particle lists, kernels, boxes (periodic or not), resolutions, numbers of samples and threads", "why_tests_cant": "Small kernels across a border between pixels are rare, and the two sides of a pixel take different branches.", "anchors": ["swiftsimio/visualisation/projection_backends/subsampled.py:scatter", "swiftsimio/visualisation/projection_backends/subsampled.py:scatter_parallel", "swiftsimio/visualisation/projection_backends/subsampled_extreme.py:scatter", "swiftsimio/visualisation/projection_backends/subsampled_extreme.py:scatter_parallel"]}
{"id": "C62", "title": "Power spectrum of a deposition", "statement": "deposition_to_power_spectrum returns for each bin the number of Fourier waves of the grid in it, their mean wave number, and the volume of the box times the mean product of the amplitudes of the two density contrasts, less the shot noise. Together the powers give the mean square of the contrast; they do not depend on units or on the origin of the grid; and folded particles give the powers of the finer grid of the whole box.", "quantifier": "all grids of every size, boxes, foldings, bins, shot noises and pairs of depositions; for folding all particle lists", "why_tests_cant": "A test sees one grid; factors of the grid size, folding and volume cancel for special values, and axes can be exchanged unnoticed in isotropic data.", "anchors": ["swiftsimio/visualisation/power_spectrum.py:deposition_to_power_spectrum", "swiftsimio/visualisation/power_spectrum.py:deposit"]}
{"id": "C63", "title": "Spectra of several foldings", "statement": "folded_depositions_to_power_spectrum takes each bin from one folding: among those that may be used there (enough waves, below the highest trusted wave number) the one with the most waves; power, wave number and tracker belong together, other bins are marked as empty, the order of the dictionaries does not matter, and the powers convert between frames like volumes.", "quantifier": "all dictionaries of depositions and second depositions, boxes, ranges, numbers of bins and options", "why_tests_cant": "Tests use one pair of foldings and do not convert the result; ties, gaps and thresholds depend on the data.", "anchors": ["swiftsimio/visualisation/power_spectrum.py:folded_depositions_to_power_spectrum"]}
{"id": "C64", "title": "The metadata of a file is its header", "statement": "Every documented attribute of the metadata (time, t, dimension, redshift, z, scale_factor, a, boxsize, counts, mass tables, texts, date, radiation quantities, gas_gamma, cosmology) is the entry of the header or group it is documented to come from, in the units of the file, under every one of its names; entries that are missing give the documented default; no other attribute is set; every well-formed header is read, and the box is a comoving length at the scale factor of the file.", "quantifier": "every header, group and Python library behaviour for utf-8 and dates", "why_tests_cant": "Headers differ between versions of SWIFT and any entry may be missing or stored as string, bytes, number or array.", "anchors": ["swiftsimio/metadata/objects.py:SWIFTMetadata.postprocess_header", "swiftsimio/metadata/objects.py:SWIFTMetadata.get_metadata", "swiftsimio/metadata/objects.py:MassTable", "swiftsimio/metadata/metadata/metadata_fields.py"]}
{"id": "C65", "title": "Mapping tables", "statement": "A dataset XToYMapping of SubgridScheme gives an attribute of the metadata under its snake case name, whose entry x_to_y is the number in the row of x and the column of y, for the names of the columns of X and of Y; there are no other entries; a table with too few rows or columns is refused.", "quantifier": "every key, table, list of named columns and names", "why_tests_cant": "All combinations of names and shapes; the names come from the file.", "anchors": ["swiftsimio/metadata/objects.py:MappingTable", "swiftsimio/metadata/objects.py:SWIFTSnapshotMetadata.get_mapping_metadata"]}
{"id": "C66", "title": "The cosmology of a file", "statement": "The cosmology handed to astropy has the densities, equation of state, Hubble constant (in the unit of time of the file) and neutrinos of the file; without a temperature, or with zero, the temperature is the one whose photons have the density of radiation of the file; required entries that are missing are refused.", "quantifier": "every Cosmology group, unit of time and values of the constants", "why_tests_cant": "All parameter values and all combinations of missing entries.", "anchors": ["swiftsimio/conversions.py:swift_cosmology_to_astropy"]}
{"id": "C67", "title": "Groups and group attributes of line-of-sight files", "statement": "A line-of-sight file exposes exactly the members whose name begins with LOS_, each once, whatever the order of the file, under its name in lower case; lines of sight numbered with leading zeros come in the order of their numbers. The attributes of a group keep the stored numbers on every read: Xpos, Ypos and Zpos are comoving lengths whose physical value is a times the stored one, all others are dimensionless and the same in both frames. A name that no attribute has is refused.", "quantifier": "all sets of members, all numbers of digits and of lines of sight that fit, all attributes, values, scale factors and sequences of earlier reads", "why_tests_cant": "a test file has a handful of lines of sight, read once each", "anchors": ["swiftsimio/metadata/objects.py:1375-1481", "swiftsimio/metadata/objects.py:746-758", "swiftsimio/reader.py:227-288"]}
{"id": "C68", "title": "Header and units of a written file, read back", "statement": "A file written without extra header entries can be read; the reader finds the particle types, numbers of particles, first masses, scale factor and number of dimensions of the writer, a comoving box has the same physical size, and the units of mass, length, time and temperature agree to five parts in 100000 (exactly if they have at most five digits). Extra header entries are written as they are and change nothing else. A box whose length is not the number of dimensions is refused.", "quantifier": "all states of a writer, boxes, units, scale factors, numbers of dimensions, extra headers and unit systems", "why_tests_cant": "tests write one snapshot in one unit system and compare a few arrays", "anchors": ["swiftsimio/snapshot_writer.py:660-698", "swiftsimio/snapshot_writer.py:743-853", "swiftsimio/metadata/objects.py:151-367", "swiftsimio/metadata/objects.py:802-824"]}
{"id": "C69", "title": "Smoothing lengths made by the snapshot writer", "statement": "generate_smoothing_lengths gives every particle the same length, twice the mean distance of the particles: N cubes of half that side have the volume of the box, in any number of dimensions. Types that need no smoothing lengths, boxes with different sides and types without coordinates are refused.", "quantifier": "all cubic boxes, numbers of dimensions and of particles", "why_tests_cant": "a test compares with the same formula for one box", "anchors": ["swiftsimio/snapshot_writer.py:150-178"]}
{"id": "C70", "title": "Arrays that share memory", "statement": "Copies (copy, to_physical, to_comoving, to) change no other array and have the physical values of the original; slices and views have the physical values of the original at their places. Whatever a program does, the physical values of an array stay as they are as long as no other array that shares memory with it is converted in place, rebuilt with cosmo_array(x, comoving=...), given to a snapshot writer or assigned to; arrays without common memory that are given to a snapshot writer are written with their physical values.", "quantifier": "all programs of array commands of any length, all arrays, all overlaps of memory, all scale factors and exponents, all units", "why_tests_cant": "a test would have to compare every array that is alive after every command, for all overlaps of memory; tests look at the result of one call", "anchors": ["swiftsimio/objects.py:1161-1209", "swiftsimio/objects.py:1284-1299", "swiftsimio/objects.py:1410-1676", "swiftsimio/snapshot_writer.py:396-410"]}
{"id": "C71", "title": "Making arrays", "statement": "cosmo_array and cosmo_quantity accept exactly the arguments that describe one cosmology factor without contradiction and a frame that agrees with valid_transform; the array holds the numbers, frame and factor that were given. No constructor makes an array with an unknown frame that is convertible or a comoving array that is not. An array given to a constructor keeps its physical values.", "quantifier": "all values, all combinations of comoving, cosmo_factor, scale_factor, scale_exponent and valid_transform, all arrays", "why_tests_cant": "the number of combinations of optional arguments and inputs is large and the values are arbitrary; wrong combinations give plausible arrays", "anchors": ["swiftsimio/objects.py:842-905", "swiftsimio/objects.py:1073-1282", "swiftsimio/objects.py:1860-1979", "swiftsimio/objects.py:2402-2545"]}
{"id": "C72", "title": "Images do not depend on frames and units", "statement": "The physical values of an image depend only on the physical values of the field, of the positions and of the norm, whatever frames the arrays are in; the image is in the frame of the field and scales with the exponent of the field minus that of the norm. Giving the box, the region, the particles and the height of the slice in another unit of length gives the same image, in the other unit: sizes are the same and every pixel is divided by the square (projection) or the cube (slice, render) of the ratio of the units.", "quantifier": "all backends that are linear in the field (projections that ignore the depth), all frames and exponents, all boxes, regions, masks, particles, resolutions, all positive ratios of units, periodic and not", "why_tests_cant": "a test compares two frames or two units for one set of particles; a conversion that is forgotten shows only for some combination of frames of the five arguments", "anchors": ["swiftsimio/visualisation/_vistools.py:66-121", "swiftsimio/visualisation/_vistools.py:176-266", "swiftsimio/visualisation/projection.py:103-162", "swiftsimio/visualisation/slice.py:104-154", "swiftsimio/visualisation/volume_render.py:103-135"]}
{"id": "C73", "title": "Functions that write into arrays, build arrays and solve equations act on physical values", "statement": "Writing one cosmo_array into another (copyto, place, put, put_along_axis, putmask, fill_diagonal) gives the destination the physical values the same writing of physical values would give, in the destination's own frame and with its own factor, and leaves the physical values of the source alone; arrays that scale differently are refused and nothing changes. insert, linspace, trapezoid, solve, lstsq, eig, pad, meshgrid, block, choose, logspace, histogramdd and apply_over_axes of cosmo_arrays have the physical values of the function of the physical values, and scale accordingly.", "quantifier": "for all arrays in either frame, all scale factors and exponents, all masks, indices, modes, sizes and (for solve, lstsq, eig) every solver that is correct on numbers", "why_tests_cant": "The tests call each function on one small array per frame and compare attributes; they do not check values in mixed frames or arguments that scale differently.", "anchors": ["swiftsimio/_array_functions.py: copyto, place, put, put_along_axis, putmask, fill_diagonal, insert, linspace, logspace, trapezoid, linalg_solve, linalg_tensorsolve, linalg_lstsq, linalg_eig, linalg_eigh, pad, meshgrid, block, choose, histogramdd, apply_over_axes"]}
{"id": "C74", "title": "In-place operators, output arrays and reductions of ufuncs act on physical values", "statement": "x += y, x -= y, x *= y and x /= y give x the physical values of the operation on the physical values, and the exponent of the result; other arrays in other memory do not change and nothing changes if the call raises. The frame of x stays what it was. multiply.reduce, divide.reduce, add.reduce, maximum.reduce and minimum.reduce over any axis, or without one, have the physical values of the reduction of the physical values, and scale accordingly.", "quantifier": "for all heaps of arrays, all frames of the operands, all scale factors and exponents, all shapes of matrices and all axes", "why_tests_cant": "The tests call in-place operators and reductions on one-dimensional arrays, mostly in one frame, where the size is the length of the axis; they keep no second view of the memory.", "anchors": ["swiftsimio/objects.py: cosmo_array.__array_ufunc__, cosmo_array.__unyt_ufunc_finalize__, _prepare_array_func_args"]}
{"id": "C75", "title": "Bare values, pickles, products with units and comparisons of factors keep what an array means", "statement": "to gives a copy with the unit and the frame asked for and the same physical values; to_value, to_physical_value and to_comoving_value give the numbers of that copy, and are refused when the frame is not known or cannot be changed. compatible_with_physical and compatible_with_comoving are true exactly if the numbers are those of the frame. An array read back from a pickle is the array. Multiplication by a unit multiplies the physical values. <, >, <= and >= of cosmo_factors agree with each other, with == and with the exponents.", "quantifier": "for all arrays in either frame, with or without a frame, all units, all scale factors and exponents", "why_tests_cant": "The tests use one array and one unit, and compare factors that are far apart; they do not compare < with ==.", "anchors": ["swiftsimio/objects.py: cosmo_array.to, to_value, to_physical_value, to_comoving_value, compatible_with_comoving, compatible_with_physical, __reduce__, __setstate__, __mul__, cosmo_factor.__lt__, __gt__, __le__, __ge__, __eq__"]}
{"id": "C76", "title": "A written subset has the objects of its file", "statement": "write_subset makes each object of the new file once. Every dataset of a group of particles gets the rows of the mask of its own particle type, under its own path; the tables of cells of a particle type get the counts and offsets of its own mask; the soft links of the root are made again with the same path; Header and Parameters are made from their attributes; and every other group of the root that holds no data is copied as it is. A snapshot as SWIFT writes it can be written.", "quantifier": "for all file trees whose links resolve, all sets of particle types, one mask per type or one shared mask", "why_tests_cant": "The tests write one snapshot and compare the particle data; groups with other names, extra groups with datasets and the tables of absent types do not occur.", "anchors": ["swiftsimio/subset_writer.py: write_subset, _write_metadata, _update_metadata_counts, _write_datasubset, _connect_links, _get_dataset_mask, _get_swift_name"]}
{"id": "C77", "title": "The colouring of a volume render shows the lines of sight of the render", "statement": "For every voxel grid of square cross section, picture m of visualise_render(..., return_type=\"all\") has at pixel [i, j] colour m of the colour map times the sum of the normal densities of rendering function m over the voxels [i, j, :], stretched to [0, 1] over the picture when no normalisation is given and by the given limits when one with limits is given. 'lighten' gives the greatest and 'add' the sum of these pictures, pixel by pixel and channel by channel, with the same normalisations. Without a given normalisation the pictures do not change when the quantity, the centres and the widths are scaled and shifted together, and never when the voxels of a line of sight change places.", "quantifier": "for all voxel grids, all lists of centres, a common width or all lists of widths, all colour maps", "why_tests_cant": "The test calls the function once and only looks at the shape; it uses one grid and equal numbers of centres and widths.", "anchors": ["swiftsimio/visualisation/volume_render.py: render_voxels_to_array, visualise_render"]}
{"id": "C78", "title": "Every attribute of an open dataset shows its own field", "statement": "A dataset with groups, fields, named columns and group attributes can be opened, and every sequence of reads, assignments and deletions of its attributes shows what a memory with one place per attribute would show: the value last put there, and otherwise the dataset, column or attribute of the file that has this name, read with the mask of its own group (or the shared one) and the size that goes with it. Using one attribute never changes what another one shows.", "quantifier": "for all groups and fields whose names do not clash with each other or with names the objects use themselves, all masks, all sequences of reads, assignments and deletions", "why_tests_cant": "The tests read some fields of some files; sequences of reads, assignments and deletions over several groups, and names that clash, are not tried.", "anchors": ["swiftsimio/reader.py: _generate_getter, _generate_setter, _generate_deleter, _generate_group_attr_getter, __SWIFTGroupDataset, __SWIFTNamedColumnDataset, _generate_datasets, SWIFTDataset.create_datasets; swiftsimio/masks.py: group_mapping, group_size_mapping, __getattr__; swiftsimio/_handle_provider.py: HandleProvider"]}
{"id": "C79", "title": "Images are written inside their arrays whatever the rounding", "statement": "Every projection backend (histogram, fast, renormalised, reference, the two subsampled ones and the kernel of the GPU), the slice backend and the two volume backends add only to elements of the array they allocated, and return an image, whatever the operations on floating-point numbers return: rounded, infinite, or not a number. The same holds with any number of threads. With exact arithmetic the images are those of C36 to C42 and C61.", "quantifier": "all arithmetics (the operations, comparisons, conversions to integers and the kernel are arbitrary functions), particle lists, boxes, resolutions, numbers of samples and threads, and all orders of the additions of the GPU", "why_tests_cant": "The compiled loops do not check indices; an index outside the array for special values of the input writes to other memory without an error.", "anchors": ["swiftsimio/visualisation/projection_backends/fast.py:scatter", "swiftsimio/visualisation/projection_backends/histogram.py:scatter", "swiftsimio/visualisation/projection_backends/renormalised.py:scatter", "swiftsimio/visualisation/projection_backends/reference.py:scatter", "swiftsimio/visualisation/projection_backends/subsampled.py:scatter", "swiftsimio/visualisation/projection_backends/gpu.py:scatter", "swiftsimio/visualisation/slice_backends/sph.py:slice_scatter", "swiftsimio/visualisation/volume_render_backends/scatter.py:scatter"]}
{"id": "C80", "title": "Depositions, colour maps and image sizes in double precision", "statement": "With numbers that are rounded after every operation, as the hardware does, deposit writes every particle inside the grid and at most one cell from the cell that contains it; looking up a colour stays inside the colour map; and the size of an image that is not square is the number of pixels that cover the region, rounded up.", "quantifier": "all positions, boxes, foldings, resolutions up to 2^24, colour maps with at most 2^24 + 1 columns, values of single and double precision", "why_tests_cant": "Rounding up to the border needs special positions and boxes: of the integer boxes about one in seventeen has one; the compiled loop then writes outside the array or into the next row without an error.", "anchors": ["swiftsimio/visualisation/power_spectrum.py:deposit", "swiftsimio/visualisation/tools/cmaps.py:78-86", "swiftsimio/visualisation/projection.py:153-159"]}
{"id": "C81", "title": "The image of a region made from masked data is the image made from all data", "statement": "If constrain_spatial is called with a region that contains, up to whole boxes, the region of an image widened by the radius of every kernel and, at the upper ends, by one pixel, and the data are loaded with that mask, then project_gas, slice_gas and render_gas succeed and give pixel for pixel the image they give for the whole file, whatever the layouts of the datasets. For a projection the same holds after any sequence of calls that leaves every particle selected that gives something to a pixel.", "quantifier": "for all well formed files with particles inside the boxes of their cells, all regions, with or without periodic boundaries, with or without a depth, all resolutions, all kernels of compact support, all masks of the particles of the image, all layouts of the datasets; for projections all sequences of mask calls that do not end with row indices", "why_tests_cant": "The tests make images of masked data or of whole files, never compare the two, and the example files hold a few particles only; whether the cells that are left out matter depends on the periodic copies and the smoothing lengths of all particles.", "anchors": ["swiftsimio/masks.py: SWIFTMask.constrain_spatial", "swiftsimio/reader.py: 137-156", "swiftsimio/visualisation/projection.py: project_pixel_grid", "swiftsimio/visualisation/slice.py: slice_pixel_grid", "swiftsimio/visualisation/volume_render.py: render_voxel_grid"]}
{"id": "C82", "title": "Calls with cosmology arrays reach the package and results have the right class", "statement": "A numpy function called with at least one cosmo_array or cosmo_quantity among its arguments runs the implementation the package registered for it, whatever the order and the number of the arguments; a function that is declared unsupported raises TypeError. The results of indexing, of ufuncs and of wrapped functions are cosmo_quantity if they are scalars and cosmo_array otherwise, with the attributes of the array they come from.", "quantifier": "all functions, all lists of arguments of any classes, all results", "why_tests_cant": "The choice depends on the set of classes among the arguments and on the order in which numpy asks them; tests call functions with a few combinations.", "anchors": ["swiftsimio/objects.py:cosmo_array.__array_function__", "swiftsimio/objects.py:cosmo_array.__mul__", "swiftsimio/_array_functions.py:implements", "swiftsimio/_array_functions.py:_ensure_result_is_cosmo_array_or_quantity", "swiftsimio/_array_functions.py:_return_helper"]}
{"id": "C83", "title": "Linear algebra on cosmology arrays", "statement": "np.linalg.solve, inv, det, eig, eigh, lstsq, norm and np.trace, np.dot of convertible arrays in any mix of frames give results whose physical values solve the problem for the physical matrices: the solution satisfies the physical equations, the inverse times the physical matrix is the identity, eigenvalues and eigenvectors, least squares solutions, residuals and singular values are those of the physical matrices, norms are norms of the physical vector.", "quantifier": "all matrices of any size, scale factors, exponents, frames and orders of the norm", "why_tests_cant": "All matrices and frames; the label of the result must match the degree of the function.", "anchors": ["swiftsimio/_array_functions.py:linalg_solve", "swiftsimio/_array_functions.py:linalg_lstsq", "swiftsimio/_array_functions.py:linalg_det", "swiftsimio/_array_functions.py:linalg_eig"]}
{"id": "C84", "title": "Set operations, comparisons and signals of cosmology arrays", "statement": "np.union1d, intersect1d, setdiff1d, isin, array_equal, searchsorted, isclose, ptp, quantile, percentile, around, convolve, correlate, unwrap and sinc of convertible arrays give the result for the physical values, in whichever frames the arguments are, and the comparisons refuse arrays of different exponents.", "quantifier": "all arrays, scale factors, exponents and frames", "why_tests_cant": "All arrays and mixtures of frames.", "anchors": ["swiftsimio/_array_functions.py:_default_comparison_wrapper", "swiftsimio/_array_functions.py:_default_binary_wrapper", "swiftsimio/_array_functions.py:unwrap", "swiftsimio/_array_functions.py:sinc"]}
{"id": "C85", "title": "A snapshot that was written is read back as it was given", "statement": "After any assignments to and deletions from a SWIFTSnapshotWriter, if write succeeds then load opens the file, lists exactly the particle types for which something was assigned, and reads under each name that was assigned the array last assigned, with its shape, its dimensions and its physical values in cgs, and the IDs that were assigned or 1, 2, ... over all types if some were missing.", "quantifier": "all sequences of assignments and deletions, scale factors, exponents, frames, units and unit systems, numbers of particles", "why_tests_cant": "The parts are tested one at a time, at a scale factor of one or with a few fields; whether names, units, frames and header fit together is a property of the whole path for all unit systems and scale factors.", "anchors": ["swiftsimio/snapshot_writer.py:SWIFTSnapshotWriter.write", "swiftsimio/snapshot_writer.py:generate_setter", "swiftsimio/metadata/writer/required_fields.py:1-36", "swiftsimio/metadata/objects.py:SWIFTUnits.get_unit_dictionary", "swiftsimio/reader.py:_generate_getter"]}
{"id": "C86", "title": "A dataset keeps the selection it was opened with", "statement": "A dataset opened with a mask shows, at any later time, the rows that the mask selected when the dataset was opened, whatever is done afterwards with that mask, with other masks and with other datasets, and opening a dataset has no effect on the mask. A mask of another file is refused.", "quantifier": "all programs that make masks of any files, call their methods, open datasets with and without masks and write into the arrays of masks, in any order", "why_tests_cant": "Tests use one mask and one dataset; which arrays are shared between masks and open datasets, and which methods write in place, shows only in sequences of calls.", "anchors": ["swiftsimio/masks.py:SWIFTMask", "swiftsimio/masks.py:SWIFTMask._update_range_masks", "swiftsimio/masks.py:SWIFTMask.convert_masks_to_ranges", "swiftsimio/reader.py:_generate_datasets", "swiftsimio/reader.py:SWIFTDataset.__init__"]}
{"id": "C87", "title": "An image of a written subset is the image of the original", "statement": "A subset file loads to the arrays that a masked load of the original gives. If subsets of subsets are written for regions that contain the region of an image, up to whole boxes, widened by the radius of every kernel and one pixel, then the projection, slice or volume render made from the last file, read whole or through one more mask of such a region, has the pixels of the image made from the original file. A subset is written unless the mask has no constraint, which the override allows, or the particle type has no rows.", "quantifier": "all files, histories of mask calls, storage layouts, kernels, resolutions, regions, and chains of subsets of any length", "why_tests_cant": "A test compares one image of one subset; whether every chain of subsets keeps every contribution to every pixel depends on cells, periodic copies and kernels together.", "anchors": ["swiftsimio/subset_writer.py:write_subset", "swiftsimio/subset_writer.py:_write_datasubset", "swiftsimio/visualisation/projection.py:project_gas", "swiftsimio/visualisation/slice.py:slice_gas", "swiftsimio/visualisation/volume_render.py:render_gas"]}
{"id": "C88", "title": "The command swiftsnap reports the files it is given", "statement": "`validate_file(f)` returns True for the files whose group Code has the attribute Code equal to the bytes SWIFT, and raises OSError for all other files, whether they exist or not. `swiftsnap f1 ... fn` prints, for every file in the order of the command line and for nothing else: the name of the run, the date, the active policies (in the order of the file, without those that are zero), the type of output and the selection, the number of particles of each of the eight types (0 for types not listed), the compiler and the code, redshift, scale factor and time, the cosmology, and the schemes, and returns. With -r it prints the redshifts of all files, one on a line, with -a the scale factors (1 if the file has none), and ends with status 0; -r wins over -a. If one of the files is not from SWIFT, it prints only the name of the first such file and ends with status 1, with any options.", "quantifier": "All lists of files, all contents of headers and groups, all orders of attributes, any formatting of numbers and dates and any wrapping of lines, all options.", "why_tests_cant": "The tests run the command on one snapshot and look at nothing but that it ends.", "anchors": ["swiftsimio/swiftsnap.py:13-178", "swiftsimio/__init__.py:66-93", "swiftsimio/metadata/objects.py:827-868", "swiftsimio/metadata/objects.py:1019-1097"]}
{"id": "C89", "title": "Rows and columns of arrays are those of the file with a mask, without one, and in a subset", "statement": "For a dataset of shape (N, c, ...): with a mask, a field gives an array whose rows are the selected rows, in order, with all their columns and of the shape of a row of the file; a named column gives the values of that column of the selected rows; without a mask the field is the whole dataset and a named column is that part of every row. The dataset that is written into a subset is the masked field, so a column of the subset is the masked column of the first file. Contiguous, chunked and remote datasets give the same.", "quantifier": "All numbers of rows, all shapes, all columns, all lists of increasing ranges inside of the dataset, all layouts and sizes of chunks, all values.", "why_tests_cant": "The tests read masses and coordinates of one file and named columns of one file without a mask; datasets with one column or of three dimensions are in none of the files.", "anchors": ["swiftsimio/accelerated.py:104-170", "swiftsimio/accelerated.py:344-539", "swiftsimio/reader.py:116-182", "swiftsimio/subset_writer.py:338-375"]}
{"id": "C90", "title": "Maps that mix hues show the mean hue of their anchors, images their pixels, and maps keep to their colours", "statement": "`LinearSegmentedCmap2DHSV(colors, coordinates)` gives every pair of values the colour whose hue, saturation, value and opacity are the means of those of the anchors, weighted by how near they are: channels are in [0, 1], the anchor alone has its own colour, greys are mixed as by `LinearSegmentedCmap2D`, the colour lies between those of its anchors, and colours that the other kind of map takes are taken. Taking a colour apart into hue, saturation and value and putting these together gives the colour back, and the three numbers are unique. `ImageCmap2D` gives every pair of values the pixel of its cell, bytes over 255. All uses of a map show the colours it has at the time.", "quantifier": "All anchors and coordinates, all arrays of values of all shapes, all sizes of grids, all images, all histories of setting colours and using the map, any content of memory.", "why_tests_cant": "The tests call two built-in maps with random numbers and look at nothing but that nothing is raised; none is of the kind that mixes hues.", "anchors": ["swiftsimio/visualisation/tools/cmaps.py:94-208", "swiftsimio/visualisation/tools/cmaps.py:289-426"]}
{"id": "C91", "title": "Images take the field they are asked for, and slices of nearest neighbours show densities", "statement": "The sizes that nearest-neighbour slices use are cube roots of volumes: of `volumes` if the group has them, else of masses over densities, with the frames of the two in any mix, and the exponent of the scale factor of a length. So a slice of any field shows the field of the nearest particle over its volume, and a slice of the masses shows its density, in physical values. Groups with neither use their smoothing lengths, under the new or the old name, and raise AttributeError without them. `project=\"a.b\"` is the attribute b of the attribute a of the dataset, and `project=None` counts every particle once. A projection needs no attributes but those it uses.", "quantifier": "All arrays of volumes, masses and densities in all frames, all scale factors, all particles, boxes, regions and resolutions, all names.", "why_tests_cant": "The tests compare slices with each other or with stored images; none has masses and densities in different frames, and none compares a pixel with the density of a particle.", "anchors": ["swiftsimio/visualisation/smoothing_length/nearest_neighbours.py:9-34", "swiftsimio/visualisation/smoothing_length/sph.py:7-30", "swiftsimio/visualisation/smoothing_length/__init__.py:13-17", "swiftsimio/visualisation/_vistools.py:12-34", "swiftsimio/visualisation/slice.py:103-148"]}
{"id": "C92", "title": "A writer keeps what it is told and its file says so", "statement": "After any sequence of assignments, deletions and changes of scale_factor and unit_system, a field of a dataset of SWIFTSnapshotWriter is the array last assigned to it (with the same meaning, comoving, in the units of the writer), or None if it was deleted or never assigned; arrays of another scale factor or other dimensions are refused and change nothing; the file that is written afterwards reads back with the meaning that was assigned. Refuted in part: a name that is not a required field is accepted without complaint and left out of the file; a scale factor or unit system changed after an assignment changes the meaning of fields that were assigned before (unit systems: also after); an array stored under the name with an underscore is neither checked nor converted.", "quantifier": "For all writers, particle types, names, arrays, scale factors, unit systems and command sequences.", "why_tests_cant": "Tests assign every field once and write at once; they never change a writer between, misspell a field or go through long histories.", "anchors": ["swiftsimio/snapshot_writer.py:58-101", "swiftsimio/snapshot_writer.py:317-528", "swiftsimio/snapshot_writer.py:660-708", "swiftsimio/snapshot_writer.py:855-898"]}
{"id": "C93", "title": "Printed text says what the object holds", "statement": "repr of an array and of a factor determines comoving, exponent, scale factor and valid_transform; str and np.array2string say whether an array is comoving, physical or unknown; the text of a dataset, group or statistics file lists the names it has; hydro_info, viscosity_info, diffusion_info and library_info contain the entries of the file, numbers rounded to the nearest two decimals with halves to even, and there is no description if an entry is missing; a mapping table says its numbers of rows and columns. Refuted in part: str, np.array2string and np.savetxt print arrays of different physical values alike (the factor is not printed); names with commas make lists ambiguous; positive numbers below 0.005 are printed as 0.00; schemes stored as strings rather than bytes have no description; an empty mapping table cannot be printed.", "quantifier": "For all arrays, factors, lists of names, tables, files and numbers.", "why_tests_cant": "Tests compare a few fixed strings; they do not show that text determines what was printed, nor cover numbers at ties, missing entries or odd names.", "anchors": ["swiftsimio/objects.py:318-327", "swiftsimio/objects.py:1301-1328", "swiftsimio/_array_functions.py:1284-1293", "swiftsimio/_array_functions.py:2209-2230", "swiftsimio/reader.py:393-403", "swiftsimio/metadata/objects.py:1099-1319"]}
{"id": "C94", "title": "Only the user leaves files open", "statement": "load, mask and validate_file given a path open the file once and close it again whatever they return or raise; given a handle of the user they open and close nothing, and a closed handle is a ValueError. A path and an open handle of a file return in the same cases; with a mask exactly if the file is the one of the mask. After any sequence of calls and exceptions the only open handles are the user's, they stay open until the user closes them, and every dataset and mask can still be read: its file is opened and closed for the read.", "quantifier": "For all files, whatever stage of reading any of them raises; all worlds; all sequences of opening, closing, loading, masking, validating, reading, reloading and attribute access, with exceptions caught in between.", "why_tests_cant": "A test opens a few files and looks at the result; that nothing stays open after an exception at any stage of reading, or after any interleaving of calls, is about all executions.", "anchors": ["swiftsimio/__init__.py:67-165", "swiftsimio/_file_utils.py:64-102", "swiftsimio/_handle_provider.py:28-82", "swiftsimio/reader.py:719-808", "swiftsimio/metadata/objects.py:786-868", "swiftsimio/masks.py:95-141"]}
{"id": "C95", "title": "Indexing a dataset gives the values at the indices", "statement": "index_dataset(handle, indices) on a one-dimensional dataset with rows gives the values at the indices, in their order. For increasing indices this holds however the dataset is stored; from a file, sorted indices may be repeated; from a file that is not chunked, any order and repetitions are allowed; from a server any order without repetitions, and a repeated index is a RuntimeError.", "quantifier": "For all datasets, all layouts and chunk sizes, all lists of indices inside of the dataset.", "why_tests_cant": "The tests index one contiguous dataset with one random sorted list; chunked and remote datasets, repeated and unsorted indices and several columns are not tried.", "anchors": ["swiftsimio/accelerated.py:173-197", "swiftsimio/accelerated.py:52-101", "swiftsimio/accelerated.py:484-539"]}
{"id": "C96", "title": "Operators of factors with any object on either side", "statement": "An operator between two cosmo_factors gives a factor at their scale factor whose number is that of the operator; the reflected methods are the operators with exchanged operands, including exceptions; any other object on the right, or on the left of anything but a division, is a ValueError. != is the opposite of ==, and factors that can be added are equal. max and min give the factors with the largest and smallest number, or a TypeError if one has none; `in` finds a factor in a list of factors exactly if one is equal to it.", "quantifier": "For all factors, operators, operands on either side, and lists.", "why_tests_cant": "Tests try a few pairs; that no operand on either side slips through, and the behaviour of max, min, sum and in, is about all objects and lists.", "anchors": ["swiftsimio/objects.py:362-532", "swiftsimio/objects.py:534-634", "swiftsimio/objects.py:654-825"]}
{"id": "C97", "title": "Tables of types and exponents in a written file", "statement": "The number of the type PartType<n> is n for every n. Whatever types there are, NumPart_Total, NumPart_ThisFile and MassTable have one place for every number up to the largest; at the number of a written type is its number of particles and its first mass, elsewhere zero; without a first mass there is no table. With the eight types of the code the counts are those of C31. For a product of powers of base dimensions in any order, get_dimensions gives the exponent of every base dimension and zero for the others, and the five exponents that are written are equal for two products exactly if they agree in current, length, mass, temperature and time.", "quantifier": "For all type numbers, tables of types, sets of types to write, numbers of particles and masses; all products of base dimensions.", "why_tests_cant": "Tests write one or two types with fixed dimensions; types with several digits, gaps in the numbering and arbitrary products are not tried.", "anchors": ["swiftsimio/snapshot_writer.py:17-31", "swiftsimio/snapshot_writer.py:757-774", "swiftsimio/snapshot_writer.py:260-314"]}
{"id": "C98", "title": "What is attached to a field is what its attributes say", "statement": "Reading a field of an open dataset gives its numbers with the unit whose power of each base unit is the stored exponent, with the stored exponent of the scale factor (0 if there is none), comoving unless 'Value stored as physical' is 1, convertible unless 'Property can be converted to comoving' is given and not 1, with the stored description followed by what the file says about its mask (and by the number and the name of the column if there is no mask on the dataset), and with the stored text about compression. If all attributes that are there have the kinds of values that SWIFT and SOAP write, reading raises nothing, and the result is None exactly if one of the five exponents is missing or the field is masked and the names or the threshold of its mask are missing. Objects for named columns are equal exactly if their columns and their name are equal, and their text determines both.", "quantifier": "all dictionaries of attributes, with and without mask, for whole fields and for columns", "why_tests_cant": "Files in tests have all attributes and no masks; which combinations of missing attributes are passed over silently is not looked at, and None is then handed on.", "anchors": ["swiftsimio/metadata/field/attr_reader.py:13-164", "swiftsimio/reader.py:110-189", "swiftsimio/reader.py:491-541"]}
{"id": "C99", "title": "Attributes of a mask are the masks of the types, and a mask can be copied", "statement": "For a particle type (or kind of halo) of the file, mask.<name> is the mask that is stored for it now and mask.<name>_size its size, shared between all kinds if their cells are; update_list names exactly these masks; any other name that the class does not know raises AttributeError, and hasattr is False. This holds whatever was read or stored before, and reading an attribute changes nothing but the three tables the class keeps. copy.copy, copy.deepcopy and pickle give a mask with the same attributes.", "quantifier": "all sets of types with shared cells or not, all histories of reading any names and storing any attributes, all recursion limits from 4", "why_tests_cant": "Tests read two or three attributes of new masks; arbitrary names, arbitrary histories, and copies are not tried.", "anchors": ["swiftsimio/masks.py:95-141", "swiftsimio/masks.py:143-255"]}
{"id": "C100", "title": "A dataset shows the groups of its file, whatever the kind of file", "statement": "For snapshots, lines of sight, SOAP and FOF catalogues: a dataset has one attribute per group that is present, under the name of that group and for no other name; it shows exactly the datasets in the group as fields, under the converted names, with the names of columns that the file gives for them in lower case or as they are, and its class is named after the group. No group hides another attribute of the dataset. A file can be opened exactly if the names of columns are text, the groups have known names and are there, and no field has an empty list of columns.", "quantifier": "all files of the four kinds: all headers, lists of halo types, members, attributes and tables of columns", "why_tests_cant": "Tests open a handful of files with known groups; nested groups, names that differ in case, missing groups and strange tables of columns are not tried.", "anchors": ["swiftsimio/metadata/objects.py:107-139", "swiftsimio/metadata/objects.py:617-758", "swiftsimio/metadata/objects.py:891-926", "swiftsimio/metadata/objects.py:992-1017", "swiftsimio/metadata/objects.py:1503-1649", "swiftsimio/reader.py:544-678", "swiftsimio/reader.py:718-808"]}
{"id": "C101", "title": "The figures of colour maps and of rendering functions show what the tools compute", "statement": "The picture that plot draws of a two-dimensional colour map has at every place (x, y) of the unit square the colour that the map gives to horizontal value x and vertical value y, up to the size of a pixel, as the labels of the axes say, and with include_points the anchors of the map are drawn at their coordinates in their colours; whatever was assigned or used before, picture and points belong together. The figure of visualise_render_options has for each rendering function, in the colour in which visualise_render shows it, a line at its centre and a curve of the values that a render gives.", "quantifier": "all grids, colours, coordinates, histories of a map, centres, widths and colour maps", "why_tests_cant": "tests do not look at figures; that the picture is transposed and goes stale is seen only by comparing with what the map returns", "anchors": ["swiftsimio/visualisation/tools/cmaps.py:110-171", "swiftsimio/visualisation/tools/cmaps.py:173-208", "swiftsimio/visualisation/volume_render.py:342-390"]}
{"id": "C102", "title": "constrain_property compares physical values, whatever the units and frames of file and bounds", "statement": "After constrain_property(group, field, lower, upper) with bounds that are quantities of the dimensions and scaling of the field, a row is selected exactly if it was before and the physical value of the field there is above the lower bound and at most the upper one, whether file and bounds are comoving or physical and in whatever units they are. These are the rows for which (field > lower) & (field <= upper) holds on the array that a dataset gives. Bounds at another scale factor or with another scaling, and fields with several numbers for each row, are refused, and the mask then keeps the rows it had.", "quantifier": "all datasets, attributes, units, scale factors, bounds in either frame and masks", "why_tests_cant": "tests use bounds in the unit and frame of the file; the attribute that says that a field cannot be converted is not in their files", "anchors": ["swiftsimio/masks.py:475-556", "swiftsimio/metadata/field/attr_reader.py:13-164", "swiftsimio/objects.py:2152-2244"]}
{"id": "C103", "title": "The compression of an array describes all the data that it was computed from", "statement": "The attribute compression of a value is a text s if all arrays that it was computed from have compression s, and None otherwise: copies, slices, conversions, pickles and constructors keep it, a keyword argument replaces it, and operations on arrays with different compressions, or on arrays and other objects, remove it. A text that is found in the attribute is never wrong.", "quantifier": "all expressions of arrays, numbers, copies, constructors and operations of any depth", "why_tests_cant": "tests look at one operation on attributes that are None or set by hand; the wrapping grows with the number of operations", "anchors": ["swiftsimio/_array_functions.py:863-978", "swiftsimio/_array_functions.py:1012-1060", "swiftsimio/_array_functions.py:1604-1675", "swiftsimio/objects.py:1155-1300", "swiftsimio/objects.py:2152-2244"]}
{"id": "C104", "title": "The exponent of the scale factor that is written is that of the factor, also if the factor was computed", "statement": "The attribute 'a-scale exponent' that the snapshot writer gives a field is the exponent of a in its cosmo_factor, however this factor was computed: by create, products, quotients, powers or roots. A file that is read back gives the physical values that the array had.", "quantifier": "all expressions of factors, exponents, powers and scale factors", "why_tests_cant": "tests write arrays whose factors were made by create; that sympy keeps roots of powers shows only in arrays that were computed", "anchors": ["swiftsimio/snapshot_writer.py:233-280", "swiftsimio/objects.py:136", "swiftsimio/objects.py:289-343", "swiftsimio/objects.py:443-488", "swiftsimio/objects.py:636-652", "swiftsimio/_array_functions.py:478-620"]}
{"id": "C105", "title": "Frames of stored numbers", "statement": "Whether an array holds integers or floating point numbers, to_physical(), to(comoving=False) and convert_to_physical() have the same result or raise the same exception, and so have their comoving counterparts. The numbers of the result are the stored ones times (or divided by) the factor up to three units of rounding, converting there and back changes no number by more than that, and a factor of one changes no number at all.", "quantifier": "all arrays of integers and of single or double precision numbers, factors, frames and flags", "why_tests_cant": "Tests convert arrays of a few floating point numbers; identifiers beyond 2**53 and in-place conversion of integers are not tried.", "anchors": ["swiftsimio/objects.py:cosmo_array.convert_to_comoving", "swiftsimio/objects.py:cosmo_array.convert_to_physical", "swiftsimio/objects.py:cosmo_array.to_physical", "swiftsimio/objects.py:cosmo_array.to_comoving", "swiftsimio/objects.py:cosmo_array.to"]}
{"id": "C106", "title": "Comparisons with bare objects", "statement": "Whatever can be added to an array can be compared with it, by the six comparisons, the logical functions and functions like np.isin and np.array_equal. A comparison between an array with a cosmology factor and numbers without one warns, except where one side is zero everywhere; a comparison that is made without a warning does not depend on the frame or scale that the bare numbers are meant in.", "quantifier": "all arrays, numbers, lists, tuples and texts, scales and relations that depend on signs only next to zero", "why_tests_cant": "Tests compare arrays with arrays and with zero; np.isin of identifiers with a list is not tried.", "anchors": ["swiftsimio/_array_functions.py:_comparison_cosmo_factor", "swiftsimio/_array_functions.py:_return_without_cosmo_factor", "swiftsimio/_array_functions.py:_default_comparison_wrapper"]}
{"id": "C107", "title": "Lists of quantities as arguments", "statement": "An array combined with a list or tuple of quantities by a ufunc gives what it gives with the array made from this list: elements in the other frame are converted, elements with different factors are refused, and factors of products multiply. With a range of two quantities np.histogram has even bins from the one to the other, in any frame of the values and of the range, and counts the physical values in each bin.", "quantifier": "all arrays, lists of quantities in any frames and with any factors, numbers of bins, ranges and scale factors", "why_tests_cant": "Tests give ranges in the frame of the values, and lists of quantities with one frame and factor only.", "anchors": ["swiftsimio/_array_functions.py:_prepare_array_func_args", "swiftsimio/_array_functions.py:histogram", "swiftsimio/objects.py:cosmo_array.__array_ufunc__"]}
{"id": "C108", "title": "The way arguments are passed to array functions does not matter", "statement": "A numpy function of one or two arrays (var, around, take, percentile, dot, cross, isclose and the other functions wrapped in _array_functions.py) gives the same result and out however the arguments are passed, by position or by name. After a call with out=o the array o has the values, frame and factor of the result, whatever its frame was; np.concatenate and its relatives do the same.", "quantifier": "all calls: positional and keyword arguments in any frames, convertible or not, parameter names, functions on the numbers, out arrays", "why_tests_cant": "Tests pass the arrays by position, and out in the frame of the arguments.", "anchors": ["swiftsimio/_array_functions.py:_default_unary_wrapper", "swiftsimio/_array_functions.py:_default_binary_wrapper", "swiftsimio/_array_functions.py:_default_oplist_wrapper", "swiftsimio/_array_functions.py:_return_helper", "swiftsimio/_array_functions.py:_prepare_array_func_args"]}
{"id": "C109", "title": "Calls that raise leave arrays, masks and files as they were", "statement": "convert_to_comoving(units) and convert_to_physical(units) either raise and leave the array as it was, or convert it to the units and the frame with the same physical values; a convertible array is only refused for units of other dimensions. write_subset(path, mask) and writer.write(path) either raise and leave every file on the disk as it was, or finish the file at the path; files at other paths and the file of the mask are never touched, and the mask selects the same rows afterwards. The full statement fails: an array that cannot be converted to the other frame has changed units after the exception (its meaning is kept), and a dataset without rows or a particle type without particles makes the writers raise after the file that was at the path has been emptied.", "quantifier": "All arrays (convertible or not, with or without frame and factor), units, frames, disks, paths, files, histories of constraints, names of datasets and states of writers.", "why_tests_cant": "A test checks that an exception is raised, not what is left afterwards, for every array, disk and history.", "anchors": ["swiftsimio/objects.py:1410-1505", "swiftsimio/subset_writer.py:398-436", "swiftsimio/snapshot_writer.py:855-898"]}
{"id": "C110", "title": "Laws that relate the selections of masks", "statement": "A region that contains another one selects every row that the other selects. A region shifted by whole boxes along any axes, or with an interval written through the boundary of the box (upper below lower), selects the same rows as before. The union of two regions does not depend on their order, selects what one or the other selects, and a region added twice is there once. A region cut in two along an axis selects what the union of its parts selects, if no cell is flat. A range of values cut in two splits the rows of the range into two disjoint parts, and two ranges of one quantity after each other are the range that they share.", "quantifier": "All files with positive box lengths and cells within half a box of the box, regions the code accepts, histories of constraints before the ranges, ranges, particle types and rows.", "why_tests_cant": "Tests compare a selection with expected cells for a few regions; the laws relate all regions and histories.", "anchors": ["swiftsimio/masks.py:476-556", "swiftsimio/masks.py:558-740", "swiftsimio/masks.py:742-847"]}
{"id": "C111", "title": "Laws that relate images", "statement": "An image of particles and a region that are moved together is the same image, periodic or not, for projections (with or without a depth range), slices and renders and whatever the backend; in a periodic box every particle may besides be moved by whole boxes of its own. A slice and its particles moved together in depth give the same slice. Exchanging the two axes of box, region and particles gives the transposed image. A projection does not depend on the order of the particles, ignores those that the mask leaves out, and the projection of two sets of particles is the sum of their projections.", "quantifier": "All boxes, regions, displacements, sets of particles, masks, resolutions and backends (those that add up for the laws about sets; the SPH slice for the move in depth). A periodic render needs an exact cube.", "why_tests_cant": "Tests compare a few images with stored ones; no finite set of images shows that two different calls always agree.", "anchors": ["swiftsimio/visualisation/_vistools.py:37-172", "swiftsimio/visualisation/projection.py:103-162", "swiftsimio/visualisation/slice.py:104-154", "swiftsimio/visualisation/volume_render.py:103-135"]}
{"id": "C112", "title": "Laws that relate power spectra of particles", "statement": "Let a spectrum be what deposition_to_power_spectrum returns for the depositions that render_to_deposit makes from one or two lists of particles in a cubic box. (a) The power of a bin is the mean, over its waves, of the product of the two mean phases of the particles (taken at their cells and weighted with their masses), times the volume and less the shot noise. (b) The order of the particles, the unit of the masses and which list is the first do not matter. (c) Moving all particles by the same whole numbers of cells, or each by whole numbers of periods, changes nothing; nor does exchanging axes, nor mirroring particles that are not on faces of cells. (d) In another unit of length wave numbers and powers scale as they should. (e) The square of a cross spectrum is at most the product of the two spectra, powers are at most the volume of the box, and this is reached if all mass is in one cell. (f) The spectrum of two lists put together with a third is the mean of theirs, weighted with the masses.", "quantifier": "for all numbers of cells, foldings, box sizes, lists of particles with any places (inside the box or not) whose masses do not add up to zero, bins in increasing order or the default ones, and shot noise normalisations", "why_tests_cant": "Tests compare a few spectra with stored or analytic ones; these relations hold between runs with different particles, boxes and foldings, of which there are infinitely many.", "anchors": ["swiftsimio/visualisation/power_spectrum.py:13-100", "swiftsimio/visualisation/power_spectrum.py:187-275", "swiftsimio/visualisation/power_spectrum.py:506-643"]}
{"id": "C113", "title": "Copies of snapshots are the same", "statement": "If a snapshot that SWIFTSnapshotWriter wrote is loaded and every field and all IDs that are found in it are assigned to a new writer with the same scale factor and the units of the loaded file, then that writer writes the same particle data: the same groups with the same datasets, shapes, attributes and numbers. With the same units, nothing that is read from the copy differs from what is read from the original, whatever names are asked for. This holds for copies of copies, however many are made; what a field loses when it is written (an exponent of zero, the physical frame) it loses only the first time.", "quantifier": "all histories of assignments and deletions of the first writer, all values, units, scale factors and headers without replaced entries; all orders in which the fields are copied; any number of generations", "why_tests_cant": "tests write one file and compare some arrays after one round trip; they cannot cover all histories, units and orders, nor any number of generations", "anchors": ["swiftsimio/snapshot_writer.py:395-470", "swiftsimio/snapshot_writer.py:180-280", "swiftsimio/snapshot_writer.py:855-898", "swiftsimio/metadata/field/attr_reader.py:13-164", "swiftsimio/reader.py:110-182"]}
{"id": "C114", "title": "Formulas of arrays in any frames give the physical values of the formula", "statement": "Let a formula be built from cosmo_arrays and bare numbers with +, -, *, /, %, np.hypot, np.fmax, np.fmin, np.maximum, np.minimum, negation, abs, np.sqrt, np.square, np.cbrt, np.reciprocal, ** with a number, functions of whole arrays that pass on the attributes (sum, mean, sort, cumsum, indexing, ...), and to_physical and to_comoving. If the terms of sums scale alike, the physical values of the result are the formula of the physical values of the arrays, whatever frame each array is in, with the exponent that dimensional analysis gives; if the shapes do not fit, numpy's error is raised. So formulas that are equal for numbers are equal for arrays, and comparisons of formulas are those of the physical values. For every formula, also one whose terms do not scale alike, success, the error, and the factor and length of the result do not depend on frames and numbers. The result of a formula without conversions is physical if all arrays in it are and otherwise comoving.", "quantifier": "all formulas of any depth, all environments of convertible arrays at one scale factor, all real values", "why_tests_cant": "Tests evaluate single operations or a few fixed formulas; formulas have unbounded depth and each of their arrays can be in either frame.", "anchors": ["swiftsimio/objects.py:982-1071", "swiftsimio/objects.py:2152-2244", "swiftsimio/objects.py:1507-1589", "swiftsimio/_array_functions.py:355-662"]}
{"id": "C115", "title": "Formulas of masked fields are the masked formulas", "statement": "Let a formula be built from fields of one group and numbers with operations that act row by row (arithmetic, extrema, roots, powers with a number, conversions of frames). Evaluated on the fields read with a mask, after any history of constraints and whatever the layouts of the fields in the file, it gives what the mask would load from a field that holds the formula of all rows, with the same frame, factor and valid_transform; it raises if and only if the formula of all rows does, and the same exception. The same holds for any list of row numbers, also repeated or unordered, and for comparisons of formulas.", "quantifier": "all formulas of any depth, all masks and histories, all layouts of local files, all values; arrays need not be convertible", "why_tests_cant": "Tests compare a few formulas on a few masks; that selecting rows commutes with arithmetic in all frames, including when exceptions are raised, needs an induction over formulas.", "anchors": ["swiftsimio/objects.py:2152-2244", "swiftsimio/_array_functions.py:846-977", "swiftsimio/accelerated.py:484-539", "swiftsimio/reader.py:136-155"]}
{"id": "C116", "title": "Chains of subsets: order and repetition do not matter", "statement": "Write a subset of a snapshot with a mask, open it, write a subset of that with a new mask, and so on any number of times, where each mask has any history of regions and of bounds on the datasets that are written. The last file holds, in the original order and each once, exactly the rows that every one of the masks selects in the first file, and its cells are the original cells with the rows that came from them. So chains that use the same masks in another order or repeatedly end in the same file (rows, cells, datasets), and bounds put on a subset give the file that one mask with the bounds added to the first calls gives. Row numbers are excluded because they count the rows of the file at hand; a chain with them does not have this property.", "quantifier": "all well-formed files, all numbers of subsets, all histories of regions, bounds and conversions, all local layouts, as long as each written dataset has rows when it is read", "why_tests_cant": "Tests write one or two subsets of one file; that masks commute across files needs an induction over chains and over the histories of every mask in them.", "anchors": ["swiftsimio/subset_writer.py:398-436", "swiftsimio/masks.py:475-556", "swiftsimio/masks.py:741-847", "swiftsimio/masks.py:957-1013"]}
{"id": "C117", "title": "Programs with arrays in any frames do what they do with physical numbers", "statement": "Take a program made of assignments of formulas to variables, second names for arrays, in-place operations and output arrays, conversions in place, sequences, branches and loops on comparisons, and try/except, in which all formulas scale (terms of sums and sides of comparisons have the same exponent). Run with cosmology arrays, each in whatever frame, it ends exactly as the same program on physical numbers does: with the same exception or none, after the same turns of each loop, and every variable then has the physical numbers and the scale-factor exponent the program computes. So the frames of the arrays at the start do not matter, conversions in place anywhere in the program change nothing but frames, also for other names of the array, and a program without in-place statements leaves every array as it was, even if its formulas do not scale.", "quantifier": "all programs, all states, all aliasing of variables, all frames, exponents and scale factors, all numbers of turns of loops", "why_tests_cant": "The tests check single operations; that frames never steer a branch, a loop or a handler is a statement about all programs and needs an induction on executions.", "anchors": ["swiftsimio/objects.py:982-1071", "swiftsimio/objects.py:1437-1506", "swiftsimio/objects.py:2152-2244"]}
{"id": "C118", "title": "Programs with masked fields compute the masked results", "statement": "Take a program of assignments, second names, in-place operations, conversions in place and try/except whose formulas act row by row. Run with fields that were read with a mask, it ends as it does with the whole fields (with the same exception or none), and every array it leaves holds, in order and with the same frame and factor, the rows of the mask of the array that it leaves when it is run with the whole fields. It is the same for any list of rows, also repeated and in any order. Programs that decide with comparisons of whole arrays are excluded: with them it fails.", "quantifier": "all such programs, all states and aliasings, all well-formed files, all histories of masks, all local layouts", "why_tests_cant": "Tests compare masked and whole reads of single fields; that analysis commutes with masking is about all programs with aliasing and in-place updates.", "anchors": ["swiftsimio/objects.py:1437-1506", "swiftsimio/objects.py:2152-2244", "swiftsimio/masks.py:957-1013", "swiftsimio/accelerated.py:104-541"]}
{"id": "C119", "title": "Images of overlapping regions agree", "statement": "Two projections, slices or renders whose pixels have the same size and lie on one grid hold the same values in the pixels that they share, whatever the two regions are, also across the borders of a periodic box: an image of a part is the part of the image (projections of regions that are not squares differ by the ratios of the squared longer side to the area). A slice at the height of the centres of a layer of voxels is that layer of the render, if no kernel is narrower than half a voxel and none has more than half a voxel behind the point in its radius; else it fails. Projections of two ranges of depth that follow each other add up to that of both, unless a particle is exactly between them.", "quantifier": "all kernels, particles, boxes, regions, resolutions and depth ranges; periodic or not", "why_tests_cant": "Tests compare few images of few regions; agreement is about all pairs of regions, and the exceptions are on sets that random inputs do not hit.", "anchors": ["swiftsimio/visualisation/projection.py:30-254", "swiftsimio/visualisation/slice.py:20-219", "swiftsimio/visualisation/volume_render.py:21-216", "swiftsimio/visualisation/_vistools.py:_get_region_info"]}
{"id": "C120", "title": "Which ufuncs compute physical values", "statement": "For arrays that scale as a^k, in every mix of frames, a ufunc of the registry computes what numpy computes on the physical values if and only if it is one of a list (arithmetic, remainders, extrema, roots, signs, angles, comparisons, logical tests, inner products) or a^k = 1. The others (logarithms, exponentials, trigonometric functions, rint, floor, ceil, trunc, modf, divmod, heaviside, conversions of angles, ones_like) silently give numbers that depend on the frame. Whole quotients are right exactly for operands with the same factor. The angle of a length and a bare number depends on the frame of the length although it is labelled a^0.", "quantifier": "all arrays, all frames, all scale factors and exponents, all ufuncs of the registry that are functions of numbers", "why_tests_cant": "Tests compare the results of ufuncs in the comoving frame with unyt; that numbers do not depend on the frames of the operands is a statement about all arrays and all pairs of frames.", "anchors": ["swiftsimio/objects.py:982-1071", "swiftsimio/objects.py:2152-2244", "swiftsimio/_array_functions.py:743-790", "swiftsimio/_array_functions.py:623-662"]}
{"id": "C121", "title": "How the result of a ufunc scales", "statement": "Every ufunc of the registry with two arguments, except power, follows one of six rules (sum, larger, product, quotient, angle, bare), and every ufunc with one argument raises the scaling to a fixed power or drops it. The rule alone decides, from the exponents of the arguments, which calls raise ValueError and which exponent the result has: values and frames play no part. Sums, extrema, angles and tests are refused exactly when both arguments scale and their factors differ by more than the tolerance; a bare number before a quantity is refused by maximum, minimum, copysign and divmod and accepted by fmax, fmin and the sums. The result is comoving when some argument is.", "quantifier": "all ufuncs of the registry but clip, all arrays and bare numbers, all frames, scale factors and exponents", "why_tests_cant": "Tests try a few ufuncs on arrays with the same factor; the whole table of ufuncs against kinds of arguments, including the refusals, is a statement about all exponents.", "anchors": ["swiftsimio/objects.py:982-1071", "swiftsimio/objects.py:2152-2244", "swiftsimio/_array_functions.py:355-843"]}
{"id": "C122", "title": "Images of the same particles with different resolutions", "statement": "For any k > 0, project_pixel_grid with backend=\"histogram\" at resolution n and at resolution k*n succeed or fail together in the sense that if the first returns an image so does the second; a pixel is on the coarse image exactly if the first fine pixel in its place is on the fine image; and each coarse pixel is the mean of the k*k fine pixels in its place, for every region, with or without periodicity, masks and depths. The same holds for render_to_deposit with the k^3 fine cells. For the fast backend, when no kernel is narrower than a pixel, an image with an odd multiple of the resolution contains every pixel of the coarse image as the middle one of the fine pixels in its place; the coarse pixels are not the means of the fine ones.", "quantifier": "all particles, regions, boxes, resolutions and multiples of the resolution, foldings, kernels with compact support and no scale of their own", "why_tests_cant": "tests compare an image with the particles at one resolution; agreement of two grids for every multiple, region and position of the particles needs the floor of every coordinate", "anchors": ["swiftsimio/visualisation/projection.py:103-162", "swiftsimio/visualisation/projection_backends/histogram.py:12-115", "swiftsimio/visualisation/projection_backends/fast.py:18-177", "swiftsimio/visualisation/power_spectrum.py:13-100"]}
{"id": "C123", "title": "Images of weighted fields are means", "statement": "The image of a field weighted by another one, divided by the image of the weights (the usual way to make a mass-weighted temperature map), lies between any two bounds of the field among the particles that are not masked, in every pixel that is not empty, if the weights and smoothing lengths are not negative. This holds for project_pixel_grid with every CPU backend (fast, histogram, reference, renormalised, subsampled), slice_pixel_grid with the sph backend and render_voxel_grid, for every region and periodicity; both calls are refused or neither is. Images of sums and multiples of fields are the sums and multiples of the images. No image of a non-negative field is negative. With weights of both signs the quotient leaves the range.", "quantifier": "all particles, weights, fields, regions with limits in order, resolutions, kernels that are not negative (the kernels of the code are shown not to be)", "why_tests_cant": "tests look at single images; that a quotient of two images is a mean in every pixel relates two calls for every field", "anchors": ["swiftsimio/visualisation/projection.py:103-162", "swiftsimio/visualisation/slice.py:104-154", "swiftsimio/visualisation/volume_render.py:103-135", "swiftsimio/visualisation/projection_backends/kernels.py:1-100"]}
{"id": "C124", "title": "Laws that relate slices and renders", "statement": "slice_pixel_grid and render_voxel_grid of two sets of particles together are the sums of the two results; the order of the particles and particles that a mask leaves out do not matter. A slice of data whose first two axes are exchanged (positions, box and region) is the transposed slice. A render of data with two axes exchanged is the render with those axes exchanged, if the region is as long along one as along the other; for the last two axes of a render that is not periodic any region that is accepted will do. A render without a region is the render of the whole box. In general the order of the axes does matter for a render: the test for a cube compares the length along x with the two others, so that there are regions that are accepted and are refused with their axes in another order.", "quantifier": "all particles, regions, boxes, resolutions, kernels; any backend that is additive or exchanges axes, which the backends of the code are shown to be", "why_tests_cant": "tests render one set of particles in one order of the axes; the laws relate two calls for every input", "anchors": ["swiftsimio/visualisation/slice.py:104-154", "swiftsimio/visualisation/volume_render.py:103-135", "swiftsimio/visualisation/_vistools.py:35-121", "swiftsimio/visualisation/slice_backends/sph.py:12-227", "swiftsimio/visualisation/volume_render_backends/scatter.py:13-445"]}
{"id": "C125", "title": "Formulas of arrays with units give the formula of the amounts", "statement": "A formula built from cosmo_arrays with units (operators, ufuncs, powers, methods of whole arrays, conversions of frames, `x.to(unit)`, `x * unit`) whose terms have matching dimensions and matching powers of the scale factor gives the same physical amounts, in base units, as the formula of the amounts of its variables, whatever units and frames the variables are in and wherever units are converted in between. The unit of the result has the dimensions that the formula says. Comparisons of two formulas with dimensions are those of the amounts. Sums of different dimensions are refused, except that an operand that is zero everywhere may have any.", "quantifier": "For all formulas, all arrays in all frames, all positive scale factors, all units of positive size, all spaces of dimensions.", "why_tests_cant": "Tests compare single operations in one or two units; formulas, units and frames can be combined without end.", "anchors": ["swiftsimio/objects.py:1652-1676", "swiftsimio/objects.py:2152-2244", "swiftsimio/objects.py:2311-2366", "swiftsimio/_array_functions.py:846-977"]}
{"id": "C126", "title": "Programs with arrays in any frames and units do what they do with physical amounts", "statement": "A program of assignments, other names for an array, in-place operations, output arrays, conversions in place of units and frames (`convert_to_units`, `convert_to_physical(unit)`, `convert_to_comoving(unit)`), branches, loops and try/except has at most one way to end. If its formulas scale and have dimensions, or are refused because of their dimensions, then with cosmo_arrays in any frames and units it ends as it does with the physical amounts in base units: with the same exception or none, and every array then holds the amounts, the factor and the dimensions that the program computes. The units and frames at the start do not matter, and conversions in place that are not refused can be left out. A conversion in place to a unit with other dimensions raises and changes neither unit nor frame; any other leaves the array in the unit and frame asked for, under all its names, and leaves the other arrays alone.", "quantifier": "For all programs, all executions (loops of any length), all states, all positive scale factors, all units of positive size, all spaces of dimensions.", "why_tests_cant": "Tests run straight-line code on a few arrays in one or two units; programs, loops and aliases are unbounded.", "anchors": ["swiftsimio/objects.py:1410-1506", "swiftsimio/objects.py:2152-2244", "swiftsimio/objects.py:2311-2366"]}
{"id": "C127", "title": "Programs that pass a check of exponents, dimensions and lengths do not raise", "statement": "If every variable of a program is given one exponent of the scale factor and one dimension, and everything that is assigned to it, written into its array or converted in place agrees with them, then in every run all variables keep exponents and dimensions, also those that name the same array, and the run computes what the program means for physical amounts. Whether and how the program ends does not depend on the units and frames at the start. If every variable is given a length as well and the lengths agree, no run raises an exception, and a program without loops always ends.", "quantifier": "For all programs, assignments of exponents, dimensions and lengths, all states that agree with them, all executions, all positive scale factors.", "why_tests_cant": "A check that is sound for all programs and all aliases is a theorem; tests only run programs one by one.", "anchors": ["swiftsimio/objects.py:1410-1506", "swiftsimio/objects.py:2152-2244", "swiftsimio/objects.py:2311-2366", "swiftsimio/_array_functions.py:846-977"]}
{"id": "C128", "title": "Programs with units on the rows of a mask", "statement": "Take a program that works row by row (arithmetic, in-place operations, conversions of frames and units, names for the same array) on arrays with units, and run it once with the whole fields and once with the rows that a mask selects. If it runs without exceptions on the whole fields, it runs without exceptions on the rows, and the physical amounts of every variable at the end are the rows of the amounts that it has with the whole fields: what the mask would load from a file that holds them. The exponents of the scale factor and the dimensions are the same. The rows may be given in other frames and units than the whole fields. With try/except the same holds, and the exceptions are the same, if all refused formulas are refused for both. It does not hold for bare numbers without their units, nor for formulas with operands of different dimensions: these are accepted for rows in which an operand is zero.", "quantifier": "Every file and mask, every layout, every program with assignments, in-place operations, conversions in place, sequences and try/except, every state with arrays in any frames and units, all rows in any order and with repetitions.", "why_tests_cant": "The unit of a result depends on whether an operand is zero everywhere, so that a selection can change the unit and the numbers although the amounts agree; tests with one mask do not meet this, and it takes an induction over programs to show that amounts never differ.", "anchors": ["swiftsimio/objects.py:2152-2244", "swiftsimio/objects.py:1446-1505", "swiftsimio/reader.py:118-171"]}
{"id": "C129", "title": "Programs with units on a snapshot that was written and read again", "statement": "Arrays are assigned to a snapshot writer, the snapshot is written and opened again, and a program with units (formulas, in-place operations, conversions, branches, loops, try/except) is run with the fields that are read. It ends in the same way as with the arrays that were assigned, with the same exception if any, and all variables have the same physical amounts, dimensions and exponents of the scale factor. The full statement is false: fields whose exponent is zero, as masses and velocities have, are read with the exponent one, so that even the difference of what was assigned and what is read is refused.", "quantifier": "Every sequence of assignments and deletions, every header, all units of the writer and all tables of units of the reader (such that five digits are enough), all scale factors, frames and units of the arrays, all programs and executions.", "why_tests_cant": "Writing, reading and computing are tested separately with a few arrays in the units of the file; here everything between assignment and result is quantified over.", "anchors": ["swiftsimio/snapshot_writer.py:180-280", "swiftsimio/snapshot_writer.py:395-432", "swiftsimio/reader.py:110-173", "swiftsimio/objects.py:2152-2244"]}
{"id": "C130", "title": "Formulas of arrays with several dimensions have the shape and the physical values of the formula of the physical values", "statement": "For every formula built from cosmo_arrays and bare arrays of any shapes with operators and functions of two arrays, functions of one array, powers, reductions of the whole array or along an axis, indices and lists of indices at an axis, new axes, reshape, transposition and conversions, in which terms of sums scale alike, the shape and the physical values of the result are those of the same formula of the physical values with numpy's broadcasting from the last axis, whatever the frames of the arrays, and it raises exactly if that one does. The result has the factor of the formula. In particular distances of rows of coordinates from a centre are physical distances, and one number for each row has to get another axis before it is multiplied with the rows.", "quantifier": "all formulas, all shapes and numbers of dimensions, all values, scale factors and frames", "why_tests_cant": "Tests use a few shapes; positions in memory depend on all lengths and axes.", "anchors": ["swiftsimio/objects.py:2152-2244", "swiftsimio/objects.py:1377-1406", "swiftsimio/_array_functions.py:2293-2307"]}
{"id": "C131", "title": "Formulas of arrays with several dimensions that are read with a mask give the rows of the formulas of all data", "statement": "For every formula of arrays of any shapes that works row by row (arrays with rows meet arrays with as many dimensions and rows or with less dimensions and none, and the first axis is not reduced, indexed or moved), evaluating it on the rows that a mask selects gives exactly the selected rows of its value on all data: same further dimensions, same physical values, same exceptions. For example the distances of masked coordinates from a centre are the masked distances. Formulas that pair an array (n, d) with an array (n,) without another axis are not of this kind: they can work on all data and raise on some rows.", "quantifier": "all files, masks, layouts, formulas, shapes, scale factors and frames", "why_tests_cant": "Tests compare a few columns for a few masks.", "anchors": ["swiftsimio/objects.py:2152-2244", "swiftsimio/accelerated.py:106-164", "swiftsimio/masks.py:1043-1110", "swiftsimio/reader.py:355-460"]}
{"id": "C132", "title": "Scripts with conditions, selections and choices compute with physical values", "statement": "Take a script whose lines give names to formulas of arrays of any shapes, to selections e[c] with a boolean condition c (comparisons of formulas, combined with &, | and ~), and to np.where(c, e, e'), such that terms of sums, sides of comparisons and both choices scale alike (a bare zero scales in any way). Whatever the frames of the arrays, all variables have at the end the shapes and physical values that the same script gives for the physical values, and it raises exactly if that one does, with the same exception. The same elements are selected in every frame; e[c] and e[~c] together have each physical value of e once. Comparisons of arrays with different factors are refused. It does not hold for np.where with a bare number other than zero, which is accepted and is taken in the frame of the array.", "quantifier": "all scripts, shapes, numbers of dimensions, values, scale factors and frames", "why_tests_cant": "Tests compare a few arrays of one shape with numbers; which elements a mask selects depends on all values, shapes and frames at once.", "anchors": ["swiftsimio/objects.py:2152-2244", "swiftsimio/objects.py:1006-1011", "swiftsimio/objects.py:1284-1299", "swiftsimio/_array_functions.py:665-740", "swiftsimio/_array_functions.py:2123-2134", "swiftsimio/_array_functions.py:846-977"]}
{"id": "C133", "title": "A cut with a condition after reading with a mask is exact", "statement": "Reading fields with a mask and then cutting a quantity with a condition, both computed row by row, gives the same array as the cut of the fully loaded fields - the same shape, the same physical values in the same order, or the same exception - exactly if the mask selected every row for which the condition holds. In particular, after constrain_spatial with a region that contains the cube around a sphere, `q[np.sqrt(((x - centre)**2).sum(axis=1)) < radius]` is what it would be without a mask, whatever the frames of the arrays.", "quantifier": "All files with valid cell metadata, all histories of mask constraints that do not end with a list of indices, all layouts of datasets, all row-by-row formulas and conditions, all shapes, frames and scale factors.", "why_tests_cant": "The mask keeps whole cells, so each test sees one arrangement of particles and cells; the claim is about every region, every arrangement of cells and every condition.", "anchors": ["swiftsimio/masks.py:558-848", "swiftsimio/reader.py:109-190", "swiftsimio/accelerated.py:106-164", "swiftsimio/objects.py:1284-1299", "swiftsimio/objects.py:2152-2244"]}
{"id": "C134", "title": "Scripts that cut and then compute give the same results after reading with a mask", "statement": "Consider an analysis script: lines that compute formulas row by row, make cuts of arrays with conditions, choose between arrays with np.where, and compute any formulas (totals, means, centres of mass) of what was cut. If all cuts hold only for rows that a mask selects, then the script run on the fields read with the mask raises the same exception as the script run on all fields, or ends with the same values of all cuts and all that was computed from them, and with the selected rows of the other variables. In particular quantities of the particles in a sphere are the same for the mask of a region that contains the cube around the sphere.", "quantifier": "all scripts, numbers of lines, formulas, conditions, frames, files, layouts, histories of constraints and scale factors", "why_tests_cant": "Tests compare single fields read with a mask with slices of the full field; that a whole analysis gives the same numbers depends on masks, readers, operations and selections together, for scripts of any length.", "anchors": ["swiftsimio/masks.py:742-848", "swiftsimio/reader.py:109-190", "swiftsimio/objects.py:2152-2244", "swiftsimio/objects.py:1284-1299", "swiftsimio/_array_functions.py:2123-2134"]}
{"id": "C135", "title": "Quantities in spheres that reach over the sides of a periodic box do not depend on the mask", "statement": "np.remainder(coordinates - centre + box / 2, box) - box / 2 gives, for arrays in any frames, along each axis the distance from the nearest periodic copy of the centre; the particles for which the distance is below a radius are exactly those closer than this to the nearest copy. A script that cuts quantities of these particles and computes totals, means or any other formulas of them gives the same after reading with the mask of a region that contains the cube around the sphere or around a periodic copy of it, also if the region begins below zero, ends above the box or is inverted.", "quantifier": "all boxes (sides of any positive lengths), positions (also outside of the box), centres, radii, frames, files, regions, layouts, scripts and scale factors", "why_tests_cant": "Regions over the boundary are tested for single examples only; the wrapping of regions in masks, the copies of cells and the remainder of arrays with scale factors have to fit together for all positions.", "anchors": ["swiftsimio/masks.py:742-848", "swiftsimio/masks.py:558-662", "swiftsimio/reader.py:109-190", "swiftsimio/objects.py:2152-2244", "swiftsimio/objects.py:1284-1299"]}
{"id": "C136", "title": "Scripts with fields of several particle types give the same results after reading with one mask", "statement": "A script computes with fields of several particle types - cuts of the fields of each type with conditions on fields of that type, sums, means, and formulas that combine the results of different types - once with all particles and once with the rows that one mask selects for each type. If the mask selects, for each type, every row that a cut of that type keeps, both runs end alike: both raise the same exception, or both give every result that has no row per particle the same physical value, and fields with rows keep exactly the selected rows. For a mask of a region that contains the cube around a sphere this holds for cuts of any number of types at the radius of the sphere, so that for instance the total mass of gas and stars within a radius is that of the whole snapshot.", "quantifier": "for all files, masks, selections of rows of each type, scripts of any length, formulas, conditions, shapes, frames and values of the scale factor", "why_tests_cant": "tests compare one total of one particle type; the claim combines the masks of all types, arbitrary scripts and the rule that a mask is shared by all types", "anchors": ["swiftsimio/masks.py:742-848", "swiftsimio/reader.py:109-190", "swiftsimio/objects.py:2152-2244", "swiftsimio/objects.py:1284-1299"]}
{"id": "C137", "title": "Quantities in a sphere are the same in a subset of a subset of the file", "statement": "Datasets of several particle types are written into a subset, that one into a further subset, and so on, each time with the mask of a region that contains the cube around a sphere (or without a constraint, where that is allowed). A script that cuts the fields of each type at the sphere and then computes with what it has cut gives, with the arrays of the last file, read whole or through one more such mask, the same results or the same exception as with the arrays of the original file. A subset is written exactly if the mask has a constraint (or the override is given) and no dataset is empty; the chain is always written if every particle type has a particle in the cube.", "quantifier": "for all files, numbers of particle types and datasets, chains of any length, regions, storage layouts, scripts, frames and values of the scale factor", "why_tests_cant": "tests write one subset and compare arrays; quantities computed from chains of subsets of several particle types are not compared", "anchors": ["swiftsimio/subset_writer.py:345-373", "swiftsimio/subset_writer.py:398-436", "swiftsimio/masks.py:742-848", "swiftsimio/objects.py:2152-2244"]}
{"id": "C138", "title": "Spatial masks in double precision", "statement": "In rounded arithmetic `constrain_spatial` selects the cell of every particle that lies inside the region by more than twice the rounding error (in double precision: by more than the box length divided by 2^49), also through the sides of the box and for inverted intervals, and every selected cell overlaps the region up to the same margin. No margin is needed for intervals within the box, nor through the lower side of the box. Regions with ends in the box are always accepted. The boxes of cells contain their particles whatever the rounding. Through the upper side of the box the margin is needed: in double precision a particle inside the region can be lost.", "quantifier": "all roundings that never exchange two numbers (for double precision: to nearest, with any treatment of ties), box lengths, regions, cells and particles", "why_tests_cant": "Rounding errors matter only for particles within an ulp of the ends of a region; no test can enumerate doubles, and the coordinates in the tests are random.", "anchors": ["swiftsimio/masks.py:558-662", "swiftsimio/masks.py:339-381"]}
{"id": "C139", "title": "Matrix products act on physical values", "statement": "The product `x @ y` of arrays with shapes `(n, k)` and `(k, l)` or `(k,)`, one of them possibly without a cosmology, has the shape `(n, l)` or `(n,)`; its physical values are the matrix product of the physical values, whatever frames the arrays are in; the exponents of the factors of the scale factor are added. It is the same, with attributes and errors, as the sum over an axis of the product with a new axis. A rotation by a bare matrix keeps factors, lengths and angles. Products of data read with a mask are the rows of the product of all data. Different inner lengths are refused.", "quantifier": "all shapes n, k, l, all convertible arrays in any frames, all formulas for the factors of the product, all masks", "why_tests_cant": "tests multiply arrays of a few fixed shapes", "anchors": ["swiftsimio/objects.py:1068", "swiftsimio/objects.py:2152-2244"]}
{"id": "C140", "title": "Cuts after reading with a mask are exact in double precision", "statement": "If fields are read with a mask and then cut with a condition on the positions, the result has exactly the particles, in the same order, that the cut of the whole file has, to the last digit: for the condition that positions lie strictly between the ends of the region, for spheres in the region, where the distances are computed in double precision, and for any condition that holds only inside accepted regions, also through the sides of the box, by more than the box length divided by 2^49. A region from the computed `centre - radius` to the computed `centre + radius` is not enough for spheres: a particle can be lost, unless the region reaches over these ends.", "quantifier": "all files, regions, roundings to nearest with any treatment of ties, positions, values of any type, layouts of the file", "why_tests_cant": "a lost particle needs a position equal to a rounded end of the region and a cell that begins with it", "anchors": ["swiftsimio/masks.py:742-848", "swiftsimio/masks.py:558-662", "swiftsimio/masks.py:339-381"]}
{"id": "C141", "title": "Particles beyond the edges do not change images to the last digit", "statement": "Leaving out particles whose kernels do not reach the image does not change any pixel of it, to the last digit: for the histogram, fast, renormalised, reference and subsampled projections, slices and both voxel renders, each drawn by one thread, with or without periodic copies, in any arithmetic whose sums, products with resolutions and conversions do not exchange numbers. Hence projections, slices and voxel renders drawn from data read with a mask are those of the whole file in double precision, if the ends of the region are further from the image than the widest kernel reaches and, for projections and slices, the region covers the line of sight. With several threads the last digits may change, because the particles left out move others from one thread to another.", "quantifier": "all arithmetics that keep the order, roundings to nearest, files, regions, particles, resolutions, box sizes, widths and masses", "why_tests_cant": "that the edge tests reject a particle depends on rounding, and differences in the last digit are within the tolerance of every test", "anchors": ["swiftsimio/visualisation/projection_backends/fast.py:13-267", "swiftsimio/visualisation/projection_backends/renormalised.py:22-216", "swiftsimio/visualisation/projection_backends/reference.py:25-174", "swiftsimio/visualisation/projection_backends/subsampled.py:29-321", "swiftsimio/visualisation/projection_backends/histogram.py:12-115", "swiftsimio/visualisation/slice_backends/sph.py:56-227", "swiftsimio/visualisation/volume_render_backends/scatter.py:13-445", "swiftsimio/masks.py:339-381"]}
{"id": "C142", "title": "Images of masses are not negative and grow with the masses, to the last digit", "statement": "If no mass is negative, no pixel of an image is negative; if particles are added, anywhere among the others, or masses increase, no pixel becomes smaller, not even in the last digit: for the histogram, fast, renormalised, reference and subsampled projections, slices, both voxel renders and the grid of a power spectrum, each drawn by one thread, in floating-point arithmetic with any rounding that does not exchange numbers. With several threads a particle that is added can lower a pixel, because the sums are formed in another order.", "quantifier": "all arithmetics in which products, quotients and sums keep signs and order, formats, roundings, particles, resolutions, box sizes", "why_tests_cant": "images with a logarithmic scale show a single negative pixel as a hole, and a pixel that becomes smaller in the last digit is within the tolerance of every test", "anchors": ["swiftsimio/visualisation/projection_backends/histogram.py:12-115", "swiftsimio/visualisation/projection_backends/fast.py:18-267", "swiftsimio/visualisation/projection_backends/renormalised.py:22-216", "swiftsimio/visualisation/projection_backends/reference.py:25-174", "swiftsimio/visualisation/projection_backends/subsampled.py:29-321", "swiftsimio/visualisation/slice_backends/sph.py:56-227", "swiftsimio/visualisation/volume_render_backends/scatter.py:13-445", "swiftsimio/visualisation/power_spectrum.py:13-100"]}
{"id": "C143", "title": "Images through the sides of the box made from masked data are the same to the last digit", "statement": "Positions and other fields are read in double precision with a mask whose regions may reach over the sides of the box. A projection, slice or voxel render with periodic copies, drawn by one thread from these data, has the same pixels, to the last digit, as the one drawn from the whole file, if the ends of a region, shrunk by the box length divided by 2^49, are further from the image and from its periodic copies than the widest kernel reaches.", "quantifier": "all files, regions, roundings to nearest, arithmetics that keep the order, particles, resolutions, box sizes, layouts of the file", "why_tests_cant": "a particle near a side of the box is rounded differently in the mask and in the image, and one lost kernel changes a pixel by less than the tolerance of a test", "anchors": ["swiftsimio/masks.py:339-381", "swiftsimio/masks.py:558-662", "swiftsimio/visualisation/projection_backends/fast.py:18-177", "swiftsimio/visualisation/projection_backends/renormalised.py:22-216", "swiftsimio/visualisation/projection_backends/reference.py:25-174", "swiftsimio/visualisation/projection_backends/subsampled.py:29-321", "swiftsimio/visualisation/slice_backends/sph.py:56-227", "swiftsimio/visualisation/volume_render_backends/scatter.py:13-219"]}
{"id": "C144", "title": "constrain_property in double precision", "statement": "SWIFTMask.constrain_property, with every conversion rounded as the computer does it: (1) if the bounds have the frame and unit of the field, exactly the rows with lower < number <= upper stay selected, whatever the precision; (2) rows between the outer bounds of consecutive bins, given in one unit and frame, are in exactly one of the bins, to the last digit, whatever is converted; (3) wider bounds select at least the same rows, and a number between two selected numbers is selected; (4) after any number of cuts exactly the rows are left that pass each of them alone, so neither order nor repetition matters; (5) with conversions, a row is selected if its number is inside of the bounds by more than the relative errors of three roundings, and is not selected if it is outside by as much; in double precision each is at most 2^-53. A bound that was computed from a number of the file by conversion to physical can miss the row of this number, and bins whose common bound is given in two frames can miss a row.", "quantifier": "all fields, frames, scale factors, units, bounds, masks and monotone roundings", "why_tests_cant": "A test has a few bounds; rows at a bound that are lost or counted twice depend on the last digit of the scale factor and of the numbers.", "anchors": ["swiftsimio/masks.py:475-556", "swiftsimio/_array_functions.py:934-951", "swiftsimio/objects.py:1446-1456"]}
{"id": "C145", "title": "Images after cuts in double precision", "statement": "After cuts with SWIFTMask.constrain_property, with all conversions rounded, images of masses that are not negative, drawn in floating-point arithmetic by the serial backends: no pixel gets larger with a further cut, none gets smaller with wider bounds or with more rows in the mask, and the image after a list of cuts does not depend on their order or repetition, all to the last digit. Each particle between the outer bounds of two neighbouring bins is drawn in exactly one bin. The images of the bins need not add up to the image between the outer bounds, because sums are rounded.", "quantifier": "all arithmetic with the ordered properties of C142, roundings, fields, bounds, masks and particles", "why_tests_cant": "Tests compare few images with a tolerance; a pixel that changes in the wrong direction in the last digit is hidden by it.", "anchors": ["swiftsimio/masks.py:475-556", "swiftsimio/visualisation/projection_backends/fast.py:18-177", "swiftsimio/visualisation/projection_backends/histogram.py:12-115"]}
{"id": "C146", "title": "Laws that relate spatial masks in double precision", "statement": "SWIFTMask.constrain_spatial with every arithmetic operation rounded, after any number of calls whose regions are joined: (1) the rows do not depend on the order or repetition of the calls, nor on calls that are refused; (2) if every accepted region lies inside an accepted region of another mask, the other mask selects at least the same rows, what is read with it contains what is read with the first one in the same order, and no pixel of an image of masses is smaller; (3) a region that is cut by a plane into two regions, which are joined, selects the same rows, provided no cell is flat and lies in the plane. All of this holds to the last digit.", "quantifier": "all files, cells, regions with ordered ends, roundings that keep the order of numbers, layouts and particle types", "why_tests_cant": "Tests use regions far from the edges of cells; whether a cell at the very edge is lost when a region grows or is cut depends on the last digits.", "anchors": ["swiftsimio/masks.py:557-661", "swiftsimio/masks.py:742-848"]}
{"id": "C147", "title": "Masks made of regions and cuts in double precision", "statement": "A mask made by spatial constraints followed by property cuts, with every computation of the cell distances, the frame conversion and the unit conversion rounded by any rounding functions, selects a row exactly when the row is selected by the regions and, for every cut on its group, its number after conversion is above the lower bound and not above the upper bound. The reader returns those rows in the order of the file, whatever the layout. The order and repetition of the cuts do not matter. Reading with the cuts equals reading without them and removing the rows that do not pass.", "quantifier": "every well-formed file, every list of regions and of cuts, every rounding of distances, data and bounds, every row, every group, every layout of a local file", "why_tests_cant": "Tests use masks of one or two constraints on small files with hand-picked bounds far from the data, where rounding cannot matter.", "anchors": ["swiftsimio/masks.py:475-556", "swiftsimio/masks.py:557-661", "swiftsimio/masks.py:742-848", "swiftsimio/accelerated.py"]}
{"id": "C148", "title": "From masks of regions and cuts to images in double precision", "statement": "For monotone roundings, making the regions of a SWIFTMask larger and its property cuts wider, or dropping cuts, never loses a row: the rows and every field that is read contain those of the smaller mask as a subsequence, in the order of the file and whatever the layout. So no pixel of a mass image gets smaller, to the last digit, for every image loop whose pixels only grow with particles.", "quantifier": "every well-formed file, every pair of nested lists of regions and cuts, every monotone rounding of distances and bounds, every rounding of data, every field, every layout of a local file, every growing image loop", "why_tests_cant": "Tests never compare reads of two nested masks with values next to the bounds, where one rounding in the wrong direction would drop a row.", "anchors": ["swiftsimio/masks.py:475-556", "swiftsimio/masks.py:557-661", "swiftsimio/masks.py:742-848", "swiftsimio/visualisation/projection.py"]}
{"id": "C149", "title": "Subsets written with masks of regions and cuts in double precision", "statement": "write_subset with a SWIFTMask made of rounded spatial constraints and property cuts writes a file whose header counts, cells and datasets are exactly those of the rows that the mask selects, and masks can be made from the new file. Property cuts made later in the subset select, to the last digit and in the same order, the values that one mask with all regions and cuts selects in the original file, whatever the layouts of the two files. Regions given to a mask of the subset select the rows of the subset that they select in the file.", "quantifier": "every well-formed file, every list of regions and of cuts, every rounding of distances, data and bounds, every list of datasets that are not empty, every further list of cuts in the subset, every field, every layout of local files", "why_tests_cant": "Tests write one subset of one region and compare a few fields; none makes cuts before and after writing with values next to converted bounds.", "anchors": ["swiftsimio/subset_writer.py:189-249", "swiftsimio/subset_writer.py:319-436", "swiftsimio/masks.py:475-556", "swiftsimio/masks.py:742-848"]}
{"id": "C150", "title": "Conversions between frames in double precision", "statement": "With every product and quotient rounded: a cosmo_array that is converted by to_physical or to_comoving has bit by bit the numbers of the array that is converted in place; converting again to the same frame changes no digit; the order and signs of the numbers and the zeros are kept; one conversion has at most one relative error of the format, and there and back at most two and their product; there and back is exact if the products are numbers of the format. There and back is not the identity in general, and different numbers can become equal. A strict comparison of arrays in any frames that gives true is right, and equal amounts compare as equal, but a comoving array need not compare as equal to its own physical copy. Calls that raise leave the array as it was.", "quantifier": "every array of any length and frame, every positive factor, every monotone rounding function, every relative error bound", "why_tests_cant": "Tests compare converted values with a tolerance, on a few numbers; they cannot see a lost order, a change by a second conversion or the size of the error for all numbers.", "anchors": ["swiftsimio/objects.py:1446-1456", "swiftsimio/objects.py:1494-1505", "swiftsimio/objects.py:1540-1547", "swiftsimio/objects.py:1582-1589", "swiftsimio/objects.py:330-343"]}
