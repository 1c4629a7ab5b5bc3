# Formal model of swiftsimio: design

The target is the Python package in `/repo/swiftsimio` at the pinned commit. The code was read as text and never
executed. The model and proofs are in Lean 4.33.0 under `lean/Verif/`.

## Trusted base

* Lean's kernel, and the three standard axioms `propext`, `Classical.choice`, `Quot.sound` (`AXIOMS.md` lists
  them for each property theorem; no other axiom is used, no `sorry`, no `native_decide`, no `bv_decide`).
* The reading of Python/NumPy/h5py/unyt/sympy semantics that is written next to every definition. Each definition
  cites the file and lines it models and says where it simplifies.
* Numbers: integer arrays are `Int`/`Nat` (no overflow), floating point is replaced by an arbitrary linearly ordered
  field (or the rationals / reals). Rounding, NaN, infinities and dtype width are **not** modelled, except in C79 and C80.
* Not modelled: HDF5 file format and h5py itself (a dataset is a list of rows, a file is a finite tree), network
  transport, numba compilation (`fastmath`, missing bounds checks), unyt unit registry, sympy simplification
  (an exponent is a number), CUDA execution, plotting, warnings, docstrings.

## Modelling conventions

* Functions are total; a Python exception is `Except Err α` (or `Option`) with the branch that raises it visible.
* Reads outside a dataset are errors in the model, never a default value, so a theorem cannot hold by totalisation.
* Model files (`Verif/Model/*.lean`) contain only definitions; `Verif/Spec/*.lean` hold the small independent
  specifications; `Verif/Lemmas/*.lean` hold helper lemmas; `Verif/Props/*.lean` hold the property theorems, each
  followed by an `example` that meets its hypotheses on a non-trivial input.
* When the code does not satisfy a property, the file proves the negation on a concrete witness (`..._fails_...`) and
  keeps what does hold under a name with suffix `_partial` (and the text says which part is missing).

## Plan per property

| id | what is modelled | how it is proved |
|----|------------------|------------------|
| C01 | `ranges_from_array`, `expand_ranges` as list programs over `Int` | induction on the loop: expand (result so far ++ open run) is the consumed prefix |
| C02 | same | invariant: closed ranges end strictly before the open run starts |
| C03 | `get_chunk_ranges`, two-pointer assignment, adjusted ranges, gather with bounds check | invariant of the merge loop (every range inside last chunk range), two-pointer lemma, running sum = length of earlier chunks |
| C04 | `get_chunk_ranges` | merge-loop invariant |
| C05 | `OrderedSlices`: drop empty, argsort, overlap check, merge adjacent, inverse permutation, split and reorder | permutation inverse lemma; merged slices expand to the same rows; split by lengths is left inverse of join |
| C06 | dispatcher | case split on C03, C05 |
| C07 | mask + getter + reader | composition of C06 and C09 invariant |
| C08 | boolean/range conversion | `where`/`ranges_from_array` round trip, set-slice lemma |
| C09 | mask state machine (operations as an inductive type) | refinement to a set of selected rows, induction over histories |
| C10 | same | decision table + induction over histories |
| C11 | `constrain_property` | pointwise boolean algebra |
| C12 | `_generate_cell_mask` per axis over an ordered field | case analysis on the wrap branches |
| C13 | same, plus `_sanitize_region` | case analysis |
| C14 | `_unpack_cell_metadata` bounding boxes | order reasoning |
| C15 | `constrain_indices` + reader | C01 + C06 on sorted lists |
| C16 | `_get_masked_counts_offsets` (searchsorted and overlap sum) | counting lemma over a contiguous partition |
| C17 | `_write_datasubset`, `_write_metadata` header counts | composition |
| C18 | subset of a subset | composition of list selections; prefix sums are a partition |
| C19 | `_find_datasets`, `_find_links` on trees | structural induction; `_find_links` loses nested links (negation) |
| C20 | `write_subset` guard on reachable masks | induction over histories |
| C21 | cache cell per field | trace refinement to an abstract map |
| C22 | handle table with reference to owner | invariant over operations |
| C23 | array element with value, exponent, frame, convertible flag | field algebra, induction over conversion sequences |
| C24, C25, C26 | ufunc dispatch: promotion of operands, cosmo_factor handler, result flags | case analysis on flags + field algebra |
| C27 | `cosmo_factor` class | algebra |
| C28 | expression trees of operations | structural induction |
| C29 | list constructor / oplist wrapper | list induction |
| C30 | `_generate_ids`, uniqueness check in `write` | list arithmetic |
| C31 | `check_empty`, `check_consistent`, header counts | decision logic |
| C32 | attribute writer and reader on exponent records | round trip; exponent 0 written as 1 (negation) |
| C33 | discriminator table and subset rename table | finite case analysis over strings |
| C34 | the two-step regex as a character scanner | list induction |
| C35–C39 | deposition loops as folds producing grids | sums over finite index sets |
| C40 | renormalised backend | negation by witness plus partial theorem |
| C41 | z-mask branches | floor arithmetic over an ordered field |
| C42, C43 | `deposit` pixel formula | floor/mod arithmetic |
| C44 | Rodrigues matrix with given cos/sin | polynomial identities |
| C45 | block loop | induction |
| C46 | `swift_neutrinos_to_astropy` on lists | acceptance characterised exactly, list induction |
| C47 | `list_of_strings_to_arrays`, the two regular expressions as scanners, the header loop, attribute setting | grammar of files as inductive relations, scanners refine it |
| C48 | lookup, call and linear segmented grid over the reals | floor arithmetic, weighted means |
| C49 | Wendland-C2 kernel polynomial | real algebra |
| C50, C51 | tables / argmin | finite case analysis, induction |
| C52 | reductions as folds on (value, exponent) | list induction; variance/einsum negations |
| C53 | region info and normalisation | field arithmetic |
| C54 | bytes as lists | reverse involution |
| C55 | `_unpack_cell_metadata` cell order for several particle types | permutation lemmas |
| C56 | skip list of the subset writer | substring relation |
| C57 | ufuncs on operands with different `valid_transform` | case analysis, field algebra |
| C58 | named columns of a field | list induction |
| C59 | images drawn one after the other from one dataset | copies of a particle, induction on the calls |
| C60 | nearest-neighbour slices | tree as specification, copies in the box |
| C61 | subsampled projections | sums over samples, floors, shares of a unit mass |
| C62 | power spectrum of a deposition | orthogonality of waves, re-indexing of sums |
| C63 | spectra of several foldings | invariant of the loop over foldings |
| C64 | metadata from the header | sequence of assignments, last one wins |
| C65 | mapping tables | greedy match of the expression, sequence of assignments |
| C66 | cosmology of a file | what a successful call has read, fourth powers of roots |
| C67 | groups and attributes of line-of-sight files | sortedness and uniqueness of strictly sorted lists; monotonicity of padded digits by induction; invariant of the cache |
| C68 | header and units of a written file, read back | composition of the theorems C31, C51 and C64 |
| C69 | smoothing lengths made by the writer | algebra of powers over the reals |
| C70 | memory cells, arrays as lists of cells, commands | invariant of programs, induction on commands |
| C71 | constructors | exact acceptance as an inductive relation, case analysis |
| C72 | frames and units of images | covariance of the wrapper (C24), homogeneity of the front ends by a map of the region and the particles |
| C73 | functions that write into arrays, build arrays and solve | writers only move numbers and so commute with the change of frame; solvers are parameters that must be correct on numbers; the wrappers by the lemmas of C52 |
| C74 | in-place ufuncs and reductions | heap of arrays; output written then relabelled; covariance of a line under scaling |
| C75 | values, pickles, comparisons | conversion lemmas with a unit; round trip; monotonicity of real powers |
| C76 | objects of a written subset | output as a list of paths; inversion of the successful write; disjoint first parts of paths |
| C77 | The colouring of a volume render shows the lines of sight of the render | loops as folds with checked writes; the sum along the line of sight by induction; stretching by relating a grid and its multiple |
| C78 | Every attribute of an open dataset shows its own field | Python attribute lookup with properties, instance dictionary and depth; refinement of a memory with one place per attribute, by induction over the actions |
| C79 | Images are written inside their arrays whatever the rounding | the loops over an arbitrary arithmetic; every index is tested or clamped before the write; instance with exact arithmetic equals the earlier models |
| C80 | Depositions, colour maps and image sizes in double precision | round to nearest even over the rationals; monotone, exact on representable numbers, relative error; counterexamples by evaluation |
| C81 | Images of masked data | the rows that the four datasets load are the same rows (C07); a particle that gives something to a pixel lies in a cell that meets the region (C12); sums over rows with zeros left out; composed with C53 |
| C82 | calls reach the package, results have the right class | NEP 18 as a search through an ordered list; the order is shown to respect subclasses; classes of results by cases |
| C83 | linear algebra | homogeneity of the wrapped function against the rule for its factor; matrices of Mathlib |
| C84 | sets, comparisons, signals | the same, with sorted lists of physical values as the specification |
| C85 | writer, file, reader | composition of C30 to C32, C34, C50, C51, C64 and C68; induction over the operations of the user |
| C86 | masks and open datasets that share arrays | heap of arrays; every call refines the mask of C07 as a value and moves references as an invariant allows; induction over programs |
| C87 | subset file, reader, images | composition of C17, C18 and C81; the fit of datasets and cells is an invariant of writing a subset; induction over chains of subsets |
| C88 | `swiftsnap` and `validate_file` | each call of `print` is a step that may raise; composition of C64 for every fact of the sheet, induction over files and steps; the negations by reading back from `returned` that every step worked |
| C89 | rows and columns of arrays with several dimensions | the read of rows of values is the read of C06 mapped over the rows (naturality of every step); the negations from the shapes h5py can not broadcast, by induction over the ranges |
| C90 | maps that mix hues, maps from images, kept grids | hue, saturation and value in closed form on the circle against the cases of matplotlib; uniqueness; weighted means; induction over histories of a map |
| C91 | fields and sizes that images take from a dataset | covariance of quotients and cube roots (C24) composed with the slice of C60 and the assembled particles of C81; induction over names |
| C92 | writer as an object with attributes | induction over commands; the file of C85 for any state (`c85_numbers`) |
| C93 | text that objects are printed as | injectivity of concatenations with known marks; rounding with floor; decimal digits (`Nat.toDigits`) |
| C94 | opening files, by path, by handle and by class | programs over the world of handles that may raise at any stage; a predicate closed under sequencing gives the handles left and the cases that return; an invariant over all sequences of commands |
| C95 | `index_dataset` | the ranges of C01-C02 are in bounds and separated; the reads of C03, C05, C06 lifted to rows; simulation of the loops for the failures |
| C96 | operators of `cosmo_factor` with any operand | case analysis of Python's dispatch; induction over lists for `max`, `min`, `sum`, `in` |
| C97 | numbers of types, counts, masses and exponents that are written | invariant of the loop over any table of types; refinement to the counts of C31; a fold over the factors of a product |
| C98 | attributes of fields, named columns as objects | case analysis on the attributes, in the order in which the code asks for them; induction on lists of quoted names |
| C99 | attributes of a mask | invariant over histories of reads and stores; induction on the recursion depth |
| C100 | groups of a dataset for all kinds of files | induction on the loops over groups, with the last of several equal names; tables by kernel evaluation |
| C101 | figures of colour maps and rendering functions | pixels against cells of the lookup (C48), induction on the anchors and the functions, comparison with the render (C77) |
| C102 | bounds of `constrain_property` with units and frames | comparisons do not depend on the frame (C25) and the unit; masked assignment row by row (C03); a comparison looks at each number by itself |
| C103 | compression of results | induction on expressions with lists of operands; an attribute in normal form against paths of equal length |
| C104 | exponents of factors that were computed | induction on expressions; expressions without roots have a normal form |
| C105 | frames of stored integers and floating point numbers | error bounds of two roundings; exact for a factor of one |
| C106 | comparisons with bare numbers, lists and texts | case analysis; scaling of one side next to zeros |
| C107 | lists of quantities as arguments, ranges of histograms | case analysis of the preparation of arguments; induction over the edges for the counts |
| C108 | arguments by name and out arrays of wrapped functions | the preparation converts each argument by itself and depends on the set of frames only; lookup of names |
| C109 | Calls that raise: conversions in place with units, files at the paths of a disk (`Model/Refusals.lean`) | case analysis on the order of effects, on top of C17, C31 and C75 |
| C110 | Laws that relate selections of masks: larger regions, the same region written otherwise, unions, parts | order and integer shifts on top of C09, C11 and C13 |
| C111 | Laws that relate images: moved data, exchanged axes, order and sets of particles (front ends of `Model/Frame.lean` with any backend) | remainders and integer shifts; an interval of depths on a circle by differences; sums over statements |
| C112 | laws that relate power spectra of particles: formula with mean phases, order, units, moves, axes, mirror images, bounds, mixtures | Fourier modes of the grid as sums over particles, reindexing of waves, Cauchy-Schwarz |
| C113 | copies of snapshots: writing what was read gives the same file, for any number of generations | what a writer keeps is invariant under assignments; a reread field is a fixed point of the setter; induction on generations |
| C114 | nested formulas of arrays in any frames mean the formula of the physical values; errors, factors and frames of results | induction on formulas over the covariance lemmas of C24, C25, C52; a simulation between two sets of variables |
| C115 | formulas of fields read with a mask are the rows of the formulas of all data; same exceptions | simulation between all rows and the selected rows, with C03 and C07 for the reads |
| C116 | chains of subsets hold the rows all masks select; order, repetition and one mask instead of two give the same file | simulation between the histories on a file and on its subset; induction on chains; contiguous tables with the same rows are equal |
| C117 | programs with arrays in any frames do what they do with physical numbers; conversions in place change only frames | simulation between two big-step semantics by induction on executions; determinism |
| C118 | programs row by row with masked fields compute the masked results | simulation in both directions by induction on programs; determinism; the rows of a mask are the same for all fields |
| C119 | images of overlapping regions agree; slices are layers of renders; depth ranges add up | formulas of C53 depend on the region only through the grid; floors move by integers; the missing column of a render lies outside the kernel |
| C120 | which ufuncs compute physical values in every mix of frames | homogeneous functions for one direction, injectivity and steps of the functions for the other, over all ufuncs of the registry |
| C121 | how the result of a ufunc scales, and what is refused | table of rules, case analysis over ufuncs and kinds of arguments |
| C122 | images of the same particles with different resolutions | cell of a coarse grid is the cell of the fine grid divided by k; induction over the statements; centres agree for odd multiples |
| C123 | images of weighted fields are means | linearity of backends and front ends in the weights, and positivity of every statement |
| C124 | Laws that relate slices and renders: sums, order, masks, exchanged axes; nearly cubic regions | sums over periodic copies in another order; `infoOf` with equal lengths |
| C125 | formulas of arrays with units give the formula of the amounts | simulation: scaling all numbers by the size of the unit commutes with each operation; then C114 |
| C126 | programs with arrays in any frames and units do what they do with physical amounts | as C117, with C125 for the steps |
| C127 | programs that pass a check of exponents, dimensions and lengths do not raise | type preservation and progress for the semantics of C126; aliases share one type because they share the array |
| C128 | Programs with units give, on the rows of a mask, the rows of what they give | meaning of a formula row by row, induction over the runs of both accounts, refinement of C126 |
| C129 | Programs with units do with a snapshot that was written and read again what they do with the arrays that were assigned | the fields that are read balance the same account (C85), refinement of C126; negation for exponent zero by C125 |
| C130 | Formulas of arrays with several dimensions: shapes, broadcasting, axes | Positions in memory are the positions of tuples of indices; the rules for factors are those of C114 |
| C131 | Formulas of rows of arrays with several dimensions are the rows of the formulas; masks | Simulation on tables of tuples of indices; C130 for the values and C115 for the rows of a mask |
| C132 | Scripts with conditions, boolean masks and `np.where` on arrays of any shapes compute with physical values | Simulation: conditions are tables of truth values; comparisons are invariant under a common positive factor; positions in memory by tuples of indices |
| C133 | a cut with a condition after reading with a mask is exact | rows of tables (C131) and of conditions by induction; filters of increasing lists with the same members are equal; the cells of the region hold the sphere (C12) |
| C134 | Scripts with cuts and totals give the same results after reading with a mask | induction over the lines with C133 for cuts, C131 for formulas and a lemma for choices; C12 for regions |
| C135 | Spheres over the sides of a periodic box: distances, particles inside, results after reading with a mask | floors for the nearest copy; C130 for the formula; C134 for the script; C12 with a shift for the region |
| C136 | scripts with several particle types and one mask | induction over lines; a line of one type is C134 with the other types left alone |
| C137 | scripts on chains of subsets | induction over the chain: particles stay in their cells, each stage is C136 for the state that holds its rows |
| C138 | spatial masks with rounding | rounding is monotone, so the bounds of a cell round outside the rounded position of its particle; Sterbenz lemma for the lower side |
| C139 | Matrix products act on physical values and go through masks | equality with a formula of sums, then C130 and C131 |
| C140 | Cuts after reading with a mask are exact in double precision | sorted rows that miss no row of the cut; the rounded sum of squares bounds each square |
| C141 | particles beyond the edges do not change images to the last digit | monotonicity of the pixel and of the reach in the position and the width; the deposits of such particles are empty lists; the cut of C140 for masks |
| C142 | images of masses are not negative and grow with the masses to the last digit | induction over the statements of the loop with a pointwise order of images; the weights are products of the mass with numbers that do not depend on it |
| C143 | images through the sides of the box from masked data are the same to the last digit | the cut of C140 for periodic regions; a particle outside of the region is beyond an edge for each copy (C141) |
| C144 | constrain_property in double precision | rows of the masked assignment, monotone conversions, relative errors of each conversion |
| C145 | images after cuts in double precision | masks as sets of rows, sublists of particles, growing images of C142 |
| C146 | laws that relate spatial masks in double precision | what a cell needs to be kept, monotone roundings, sublists of rows |
| C147 | what masks of regions and cuts select in double precision | a cut with rounding is an exact cut of a column of flags; invariant of masks |
| C148 | larger masks read more and no pixel shrinks, in double precision | monotone roundings of bounds, sublists of sorted rows, growing images |
| C149 | subsets written with masks of regions and cuts in double precision, and cuts in them | invariant of masks, composition of sorted rows |
| C150 | frame conversions in double precision | cases of the guards, monotone roundings, triangle inequality |

## Coverage by file

The table is made from the citations in `Verif/Model/*.lean`: the lines of function bodies (without docstrings) that a definition
cites, the models that cite the file (without `.lean`), and the functions of which less than half is cited. Citing a line
means that a definition says what it does, possibly simplified; the simplifications are written at the definition.

| file | lines cited | models | functions not modelled |
|---|---|---|---|
| `__init__.py` | 21/22 | Opening, Reread, CommandLine, MaskedImage | `load_statistics:168` |
| `_array_functions.py` | 947/957 | ArrayWriters, CosmoFunctions, Cosmo, Calls, Dispatch, Comparisons, ArraySets, Text, Sequences, LinearAlgebra, Compression, Values | `_sqrt_cosmo_factor:308`, `_multiply_cosmo_factor:330`, `_preserve_cosmo_factor:394`, `_square_cosmo_factor:532`, `_cbrt_cosmo_factor:554`, `_divide_cosmo_factor:576` |
| `_file_utils.py` | 9/17 | Opening | `is_soft_link:15`, `is_dataset:44` |
| `_handle_provider.py` | 18/18 | Groups, MaskNames, Opening, Dataset, Handles | none |
| `_ordered_slices.py` | 47/47 | OrderedSlices | none |
| `accelerated.py` | 179/179 | Accel, RowArrays, OrderedSlices, Basic, Statistics, Bytes | none |
| `conversions.py` | 77/78 | Cosmology, Neutrinos | `swift_cosmology_to_astropy:153` |
| `masks.py` | 490/496 | Mask, Sharing, CellMask, Dataset, MaskNames, CellSort, Subset, Opening, PropertyBounds, SubsetTree, OrderedSlices | `constrain_mask:442` |
| `metadata/field/attr_reader.py` | 42/42 | Attributes, FieldInfo | none |
| `metadata/metadata/metadata_fields.py` | 12/12 | Header, Power | none |
| `metadata/objects.py` | 664/678 | Header, Text, Groups, Opening, CommandLine, Names, Mapping, Reread, Units, LineOfSight | `present_groups:389`, `present_group_names:407`, `partial_snapshot:424`, `get_nice_name:437`, `__str__:487`, `__repr__:501`, `__repr__:575`, `partial_snapshot:1322`, `unpack_subhalo_number:1603` |
| `metadata/particle/particle_types.py` | 0/0 | Groups, Header, Names, Writer | none |
| `metadata/soap/soap_types.py` | 24/24 | Names | none |
| `metadata/unit/unit_types.py` | 5/5 | Units | none |
| `metadata/writer/required_fields.py` | 0/0 | Writer, Reread | none |
| `objects.py` | 608/624 | Cosmo, Constructors, UfuncMethods, FactorOps, Compression, Memory, Values, Dispatch, StoredNumbers, PropertyBounds, Sequences, Comparisons, ArrayWriters, Refusals, Text, CosmoFunctions | `__init__:178`, `__init__:200`, `__str__:203`, `__init__:230`, `__str__:233`, `__unyt_ufunc_prepare__:1982`, `__rmul__:2343` |
| `optional_packages.py` | 0/4 | — | `cuda_jit:155`, `tqdm:21`, `__init__:147`, `jit:88` |
| `reader.py` | 315/321 | Fields, Dataset, Opening, Groups, Reread, Sharing, FieldInfo, Names, Attributes, LineOfSight, Mask, RowArrays, MaskedImage, Text | `__repr__:405`, `__repr__:505`, `__len__:516` |
| `snapshot_writer.py` | 371/372 | WriterObject, Reread, Writer, WriterHeader, Attributes, Powers, Refusals, WriterTables, Memory | none |
| `statistics.py` | 65/66 | Statistics, Text | `__repr__:127` |
| `subset_writer.py` | 175/176 | SubsetTree, Subset, SubsetImage, Refusals, Tree, RowArrays, Names | none |
| `swiftsnap.py` | 85/87 | CommandLine | none |
| `visualisation/_vistools.py` | 127/142 | Frame, ImageFrame, Session, Sizes | none |
| `visualisation/power_spectrum.py` | 281/281 | Folds, Power, Spectrum, Floating | none |
| `visualisation/projection.py` | 67/67 | MaskedImage, Frame, Session, Binary, Sizes | none |
| `visualisation/projection_backends/fast.py` | 117/117 | Floating, Scatter | none |
| `visualisation/projection_backends/gpu.py` | 100/110 | Floating, Scatter, Kernel | none |
| `visualisation/projection_backends/histogram.py` | 62/62 | Scatter, Floating | none |
| `visualisation/projection_backends/kernels.py` | 25/26 | Kernel | none |
| `visualisation/projection_backends/reference.py` | 108/108 | Scatter, Floating | none |
| `visualisation/projection_backends/renormalised.py` | 151/151 | Scatter, Floating | none |
| `visualisation/projection_backends/subsampled.py` | 240/240 | Floating, Subsampled, Scatter | none |
| `visualisation/projection_backends/subsampled_extreme.py` | 240/240 | Floating, Scatter, Subsampled | none |
| `visualisation/rotation.py` | 37/37 | Rotation | none |
| `visualisation/slice.py` | 57/57 | MaskedImage, Frame, Session, Binary, Sizes | none |
| `visualisation/slice_backends/nearest_neighbours.py` | 46/48 | Nearest, Scatter | none |
| `visualisation/slice_backends/sph.py` | 134/134 | Scatter, Floating, Kernel | none |
| `visualisation/smoothing_length/generate.py` | 49/49 | Smoothing | none |
| `visualisation/smoothing_length/nearest_neighbours.py` | 9/9 | Sizes | none |
| `visualisation/smoothing_length/sph.py` | 10/10 | Sizes | none |
| `visualisation/tools/cmaps.py` | 129/133 | Figures, CmapsHsv, Cmaps, Binary | `__init__:236` |
| `visualisation/volume_render.py` | 89/89 | MaskedImage, VolumeVis, Frame, Session, Figures | none |
| `visualisation/volume_render_backends/scatter.py` | 294/294 | Scatter, Floating | none |

What the functions without model do, and what is left out of the modelled ones:

* `optional_packages.py`: substitutes for `tqdm`, `numba.jit` and `numba.cuda.jit` that do nothing. The model has no progress bars and
  treats compiled functions as the Python that they are compiled from.
* `__str__`/`__init__` of exceptions (`objects.py`): texts of messages. Only the kind of an exception is modelled.
* `cmaps.py` `generate_color_map_grid`, `plot`: drawing with matplotlib. `volume_render.py` `visualise_render_options`: a figure.
* Warnings are left out everywhere, with the exception of the few places where a warning is the observable effect of a property.
* Floating point: see the trusted base. C79 and C80 are about rounding.
* Concurrency: the parallel variants (numba `prange`) are modelled as sums over the parts of the input; threads and processes are not modelled.

## Disagreements between code and intended behaviour

Each line names the theorem that proves the disagreement on a concrete witness.

* C03: the chunked reader returns wrong rows or raises for unordered ranges (`c03_unordered_fails`) and for nested ranges
  (`c03_nested_fails`), where the direct reader returns the requested rows.
* C06: a mask that selects nothing reads as an empty array locally and raises `IndexError` remotely
  (`c06_empty_fails_remote`).
* C09: adding a second region to a mask that is in boolean form loses the new region (`c09_union_on_bool_fails`); the
  same after a property constraint that was refused (`c09_union_after_refused_property_fails`).
* C12: a particle lying exactly on the boundary of the region can be missed when the boundary is a cell boundary
  (`c12_closed_region_fails`): the comparison with cell bounding boxes is strict.
* C15: repeated row indices are read with repetition locally but refused remotely (`c15_repeated_fails_remote`); indices
  past the end are accepted when the mask is built and only fail on reading (`c15_out_of_range_accepted`).
* C55: the cell order is taken from the first particle type only; with an empty cell for that type the cells of other
  types come out in decreasing order and a chunked load raises (`c55_empty_first_type_fails`).
* C17: a particle dataset without rows cannot be written to a subset; the writer reads its first row to find the type
  (`c17_empty_dataset_fails`).
* C18: for that reason a subset that keeps no row of some type cannot be subset again (`c18_emptied_type_fails`).
* C19: the recursive call in `_find_links` loses what it finds; soft links below the root are not recreated and their
  target is copied under the name of the link (`c19_nested_links_fails`).
* C56: the skip list of the subset writer matches substrings of whole paths, so a field whose name contains `Cells` or
  the name of a link is dropped without notice (`c56_substring_fails`).
- **C22** `HandleProvider.open_file` (_handle_provider.py:64-82) opens the file again when the handle it was given has been
  closed; lazy reads after `SWIFTDataset.__init__` depend on it. A handle that is already closed when it is given makes the
  object its own manager (`handle_manager = not self._handle`). See `c22_open_file_reopens_fails`,
  `c22_closed_at_construction_fails`. `_close_handle_if_manager` on an object that never opened its file raises
  AttributeError (`c22_close_unopened_raises`).
* C26: factors are compared with `np.isclose(a**k, a**l)`, whose absolute tolerance accepts any two small factors
  (`c26_small_factors_fails`); `power` ignores the scale factor of the exponent (`c26_power_fails`); `concatenate` and the
  other list functions look at the first factor only (`c26_concatenate_fails`).
* C27: so `==` on factors does not compare exponents, is not transitive and not symmetric
  (`c27_exponents_not_compared_fails`, `c27_not_transitive_fails`, `c27_not_symmetric_fails`).
* C28: the constructor resets `valid_transform` to True when it is given an array that is not convertible
  (`c28_constructor_fails`, `c28_list_constructor_fails`).
* C29: with an explicit `comoving` argument a list of arrays is relabelled, not converted (`c29_all_comoving_fails`,
  `c29_all_physical_fails`, `c29_mixed_physical_fails`).
* C57: to combine with an array that is not convertible, comoving arguments should be made physical; the code converts the
  arguments that are not comoving instead (_array_functions.py:949-956), so that comoving numbers are added to physical ones
  (`c57_comoving_fails`).
* C52: `var` keeps the factor of the values (`c52_var_fails`); `einsum` keeps it for products (`c52_einsum_fails`); Fourier
  transforms get the reciprocal factor (`c52_fft_fails`); `det` of stacked matrices uses the number of matrices as power
  (`c52_det_stack_fails`); `average` computes with unconverted numbers (`c52_average_fails`); `clip(x, min=, max=)` ignores
  the limits (`c52_clip_keywords_fails`); `select` loses the frame (`c52_select_fails`); `where(cond)` raises IndexError
  (`c52_where_condition_fails`); `histogram_bin_edges` with explicit edges raises (`c52_bin_edges_fails`); `interp` accepts
  nodes with another exponent (`c52_interp_fails`); weighted density histograms keep the factor of the weights
  (`c52_density_weights_fails`); `histogram2d` density edges are labelled with the wrong frame
  (`c52_histogram2d_edges_fails`).
* C54: `_ensure_native_byteorder` looks only at the byte order that numpy reports for the outer type. For a structure inside a
  structure `byteswap` swaps every member, also members that were native already (`c54_nested_fails`).
* C34: fields or group attributes whose names agree up to case and underscores get the same Python name and the last one
  wins (`c34_collision_fails`, `c34_attribute_fails`).
* C50: a ninth particle type makes the file unreadable (`c50_ninth_type_fails`); a type with particles that `CanHaveTypes`
  does not declare is not listed (`c50_undeclared_fails`); SOAP groups at several levels can share a Python name
  (`c50_soap_levels_fails`).
* C58: columns whose names differ in case only are merged (`c58_case_fails`); an empty list of columns raises
  ZeroDivisionError (`c58_empty_fails`).
* C30: the writer keeps a view of the ID array it is given and checks it once; writing into the array later puts IDs into
  the file that were never checked (`c30_alias_fails`).
* C31: a type whose fields have length zero passes all checks, then `masses[0]` raises IndexError after the output file has
  been truncated (`c31_no_particles_fails`); a writer with nothing set raises from `np.concatenate`
  (`c31_nothing_set_fails`); `extra_header` can replace the counts (`c31_extra_header_fails`); generated IDs stay in the
  writer, so that new data of another length is refused (`c31_generated_ids_stay_fails`).
* C32: `getattr(expr, "exp", 1.0)` is 1.0 for `a**0`, so a field with exponent zero (masses) is written with exponent one and
  its physical values are wrong by the scale factor when it is read (`c32_exponent_zero_fails`); physical fields come back as
  comoving (`c32_physical_fails`).
* C36: `slice_scatter` and both voxel renders loop to `particle_cell + cells_spanned` exclusive, the projections inclusive. A pixel in that column whose centre is inside the kernel gets nothing (`c36_slice_truncated_fails`, `c36_volume_truncated_fails`). The reference backend silently draws nothing for kernels below two pixels (`c36_reference`).
* C37: `scatter_limited_z` always uses the shifts -1, 0, 1, so an image wider than the box has empty parts (`c37_limited_fails`). No backend considers enough copies for kernels larger than the box (`c37_wide_kernel_fails`).
* C38: the parallel voxel render allocates `res` layers also when `res_ratio_z` asks for fewer, and adding the image of a thread is then refused (`c38_layers_fails`).
* C40: the renormalised projection sums the kernel over fewer cells than it draws when the fractional part of `res*H` is above one half, so that the particle gains mass (`c40_fails`).
* C41: with `periodic=True` a depth range of zero length, or one given in reverse order, chooses particles that are not in the range (`c41_empty_range_fails`, `c41_reversed_fails`).
* C53: the projection divides by `x_range * y_range`, although coordinates are scaled by `max_range`; images of regions that are not square are off by `max_range**2 / (x_range * y_range)` (`c53_norm_fails`). Fields without a known frame are not divided at all (`c53_unframed_fails`).
* C53: `render_gas` accepts regions that are not cubic when their sides are below about 1e-8, because `np.isclose` has an absolute tolerance (`c53_render_tiny_fails`).
* C42: `render_to_deposit` folds physical coordinates with the comoving box size (`c42_physical_fails`).
* C44: vectors along the axis, in either direction, give a mirror image instead of a rotation (`c44_parallel_fails`, `c44_opposite_fails`).
* C45: `generate_smoothing_lengths` raises for no particles and for one neighbour, and gives infinite lengths for fewer particles than neighbours (`c45_empty_fails`, `c45_single_neighbour_fails`, `c45_few_fails`).
* C46: masses missing for some degeneracies, negative degeneracies and fractional massless species are accepted with a wrong number of species (`c46_missing_mass_fails`, `c46_negative_fails`, `c46_fraction_lost_fails`).
* C47: short rows and empty lines of statistics files are filled with zeros (`c47_ragged_fails`); names one space apart become one name and shift all later columns (`c47_single_space_fails`); titles are cut at the first full stop, and columns with equal titles share a unit (`c47_titles_fails`); column types come from the first row only (`c47_whole_first_fails`); a file with comments only raises (`c47_no_data_fails`).
* C48: the grid of `LinearSegmentedCmap2D` is transposed with respect to `apply_color_map`: `bower(1, 0)` is blue, although green is at (1, 0) (`c48_transposed_fails`); `np.ndarray(vertical_values)` should be `np.array` (`c48_list_fails`, `c48_list_whole_fails`); see also `c48_mixed_fails`, `c48_far_fails`, `c48_three_channels_fails`.
* C59: `coords %= boxsize` in `_get_rotated_and_wrapped_coordinates` writes into the coordinates that the dataset keeps. Periodic
  images move particles outside the box into it, and later images that are not periodic show them at the new place.
* C60: a nearest-neighbour slice without selected particles raises IndexError.
* C61: `subsampled.scatter` takes the distance to the upper border of a pixel from 1 instead of the width of a pixel, so kernels of
  at most a quarter of a pixel that reach over an upper border are not divided (`c61_upper_border_fails`). The shares of divided
  kernels are laid down at the lower edges of the cells of the dithered kernel, although they were evaluated at the centres.
* C62: `deposition_to_power_spectrum` takes all wave vectors and the volume factor from `dataset.metadata.boxsize[0]`; only the shot noise uses the volume of the box. For boxes that are not cubes the powers do not add up to the volume times the mean square of the contrast for any density that is not uniform (`c62_not_cubic_fails`). Nothing checks that the box is a cube.
* C63: `folded_depositions_to_power_spectrum` labels the powers with `box_volume.cosmo_factor**-1`, so `to_physical()` multiplies comoving powers by `a**-3` instead of `a**3` (`c63_label_fails`). With a cutoff fraction, `np.max` of no wave numbers raises if a folding other than the last has no waves in the bins (`c63_unsampled_fails`). Bins that no folding fills have power zero and tracker 1, as if taken from the unfolded box. `minimal_sample_modes=None`, which the signature allows, fails when there is more than one folding (`c63_refused`).
* C64: a header with `Redshift` but without `Scale-factor` is read with scale factor one; the two are never compared, so physical
  and comoving sizes of the box agree at any redshift (`c64_redshift_fails`).
* C64: `NumPart_ThisFile` stored as a single number gives zero particles for every type, because the IndexError of indexing a
  number is taken for a table that is too short (`c64_scalar_counts_fails`). A header without the entry raises AttributeError
  (`c64_refused`).
* C65: `get_mapping_metadata` splits a key at its last `To` (the first group of the expression is greedy), so `ElementToTotalMapping`
  is read as `ElementTo` and `tal` and raises IndexError (`c65_key_fails`). Names are matched with `startswith`: with the named
  columns `DustA` and `Dust`, the table `DustToElementMapping` gets the names of `DustA`, and rows without name are dropped
  silently (`c65_prefix_fails`). Names with underscores can give one entry for two pairs (`c65_underscore_fails`).
* C66: the temperature computed for files without `T_CMB_0 [K]` is described as an exact inversion of the procedure in astropy. It
  inverts the photons only; astropy adds the neutrinos, so that the radiation of the cosmology is larger than `Omega_r` of the file
  by the factor `1 + 7/8 (4/11)^(4/3) N_eff` for massless neutrinos (`c66_radiation_fails`).
* C67: groups of a line-of-sight file are sorted as text, LOS_10000 comes before LOS_9999; names that differ only in case give one attribute; attributes with the same Python name hide each other.
* C68: the writer ignores the frame of `boxsize`: a physical box is written as it is, and the reader takes it as comoving. The unit of
  current is written as 1 A whatever the unit system. The reader rounds units to five digits, so a unit system such as the default
  one (its unit of time is 977.79... Gyr) does not come back exactly.
* C70: `cosmo_array(x, comoving=False)` makes a view of `x` and converts it in place, so the numbers of `x` are rescaled while `x` keeps its label (`c70_construct_fails`); this also happens when the call raises (`c70_refused_fails`). The setters of the snapshot writer convert the array that they are given in place and keep it: two slices of one physical array are converted twice and written wrong (`c70_writer_fails`).
* C71: `from_astropy` and `from_pint` assign to `valid_trasform`, so `valid_transform` is ignored and the default result has an unknown frame but counts as convertible (`c71_import_fails`). With `bypass_validation=True` and a scale factor, `cosmo_factor.create` is looked up on the argument `cosmo_factor`, which is None: AttributeError (`c71_bypass_fails`). `cosmo_quantity(q, comoving=c)` relabels where `cosmo_array(x, comoving=c)` converts (`c71_quantity_fails`). A `cosmo_factor` given with an array is ignored (`c71_ignored_fails`).
* C72: whether a region is cubic is decided by `np.isclose` with an absolute tolerance of 1e-8 in the unit of the region, so a small flat region is rendered in one unit and refused in another (`c72_cubic_fails`).
* C73: `np.fill_diagonal(matrix, 0)` raises AttributeError for every cosmo_array matrix with a frame; `np.block` returns an array whose `cosmo_factor` is a list, so a comoving result cannot be converted; `np.choose` returns an array without a frame; `np.logspace` with a cosmological base keeps its factor for any power; `np.pad` accepts `constant_values` that scale differently; `np.histogramdd(..., density=True)` labels the edges of all dimensions with the factor of the first sample; `np.apply_over_axes(np.sum, matrix, [0, 1])` raises, because the second axis is looked up in the reduced array.
* C74: `x += y` with a physical `x` and a comoving `y` changes the frame of `x` to comoving and writes comoving numbers into
  its memory. Every other view of that memory keeps the label physical and now shows a wrong length (`c74_inplace_fails`).
* C74: `np.multiply.reduce(x)` without `axis` reduces the first axis, but the exponent is multiplied by `x.size`; with
  `axis=(0, 1)` it is a TypeError (`c74_default_axis_fails`, `c74_axes_fails`).
* C75: `compatible_with_physical` is True for an array whose frame is not known (`c75_compatible_fails`); `f < g` and
  `f == g` can both be True (`c75_order_fails`).
* C76: a file with a dataset in any other group of the root (for example a log beside the particles) cannot be written: the
  group is copied and the dataset is then written again, or no mask is found for it (`c76_extra_fails`). Groups such as
  `VoronoiCells` are lost because the test is for substrings (`c76_lost_fails`).
* C77: `render_voxels_to_array` writes `output[j, i]` into an array of shape `(shape[0], shape[1])`. For a grid that is not square across the line of sight this is out of bounds, which the compiled function does not notice (`c77_nonsquare_fails`); the array alone is transposed (`c77_transposed_fails`), and only the `.T` of `visualise_render` puts it right. Fewer widths than centres leave out rendering functions (`c77_short_fails`). A single `Normalize()` for all functions takes its limits from the first one (`c77_shared_fails`). An unknown `return_type` returns `None`, which fails only when the caller unpacks it (`c77_other_fails`).
* C78: names in the file can clash with names of the Python objects. A dataset called `Metadata` makes every field of its group fail with a RecursionError (`c78_metadata_fails`); named columns called `Units` are hidden by the units of the group (`c78_units_fails`); a group attribute hides the dataset of the same name (`c78_hidden_fails`); a group `cell` would get `cell_size` of the mask as its size (`c78_mask_fails`).
* C80: `deposit` does not check its index. In a box of length 105 the greatest double below 105 divided by the box rounds up to one, and the particle is written one cell beyond the grid, whatever the resolution (`c80_inside_fails`). The same happens for positions slightly below zero (`c80_negative_fails`). The compiled loop writes into the next row or, along the first axis, outside the array. The projection, slice and volume backends test their indices and are safe (C79).
* C80: the size of an image that is not square is `ceil(res * (range / max_range))`. The rounding of the quotient can add a pixel: 8 instead of 7 for a region 7 wide and 100 high (`c80_size_fails`).
* C81: a mask of just the region of the image, as the documentation makes it (`docs/source/visualisation/projection.rst` 302-357), loses the particles in other cells whose kernels reach into the region, although the notes say they "are still considered" (`c81_unpadded_fails`; `projection.py` 95-96).
* C82: `np.concatenate((x, y))` and every other numpy function with a `cosmo_array` and a `unyt_array` among its arguments runs unyt's implementation: `cosmo_array.__array_function__` returns NotImplemented, and so frames and scale exponents are not looked at. A function unyt declares unsupported is refused for a `cosmo_array` alone but computed by numpy from the bare numbers if a plain array is among the arguments.
* C82: `flatten` and `ravel` of a `cosmo_quantity` return a `cosmo_quantity` of shape `(1,)`; `np.linalg.svd` with vectors returns unyt objects, because `_return_helper` does nothing for tuples.
* C83: `np.linalg.norm(x, ord=0)` counts elements but gets the factor of `x`.
* C84: `np.around`, `np.isclose` with a bare `atol`, `np.unwrap` with a bare `period` (the default) and `np.sinc` give answers that depend on the frame.
* C85: from end to end, a mass written with exponent zero at scale factor `a` is read back with exponent one, so that its physical value is `a` times what was written; particle IDs get exponent one too.
* C86: `load(file, mask=mask)` converts the mask that was passed, so that a later `constrain_spatial(..., union=True)` on a mask that was in boolean form selects other rows than without the load (`c86_open_changes_mask_fails`); a value written into `mask.gas` changes what a dataset that is already open reads (`c86_edit_fails`); a boolean array taken from a mask changes with later calls (`c86_boolean_array_fails`).
* C87: the image of a subset of just the region of the image lacks the particles outside it whose kernels reach in (`c87_unpadded_fails`), and a subset that is left without particles of a type can be loaded, masked and drawn but not written again (`c87_empty_fails`: IndexError).
* C88: `swiftsnap` uses `compiler_info` and `code_info`, which only the metadata of snapshots and lines of sight has: for a FOF or
  SOAP catalogue that passes validation it prints the first lines and then raises AttributeError, so that the files after it on the
  command line are not reported either (`c88_catalogues_fails`). The same happens for a file without one of the groups `Policy`,
  `GravityScheme`, `HydroScheme`, `SubgridScheme`, because the attribute is then `None` (`c88_groups_fails`). Files made by this
  package's own `Writer` have no group `Code`, so that `validate_file` refuses them and the command says that they are not SWIFT
  snapshots, though `load` opens them (`c88_writer_fails`). The docstring of `validate_file` says that it raises KeyError; it raises
  OSError (`c88_validate`).
* C89: The buffers of masked reads have at most two dimensions (`reader.py:138-144`, `accelerated.py:388-392`), so h5py raises TypeError for
  every dataset of three or more dimensions, and the server refuses it (`c89_rank_fails`); without a mask the same dataset is read. The
  subset writer makes the buffer from the number of values of the first row (`subset_writer.py:353-363`), so a dataset of the shape
  `(N, 1)` ends in a TypeError, or, if every range has one row, loses its second dimension (`c89_single_column_fails`).
* C90: `LinearSegmentedCmap2DHSV` averages hues as numbers, although hue 0 and hue 1 are the same red: between the reds (1, 0, 0.6) and
  (1, 0.6, 0) the map is cyan (`c90_red_fails`). Far from all anchors the hue is NaN, for which `hsv_to_rgb` leaves the result of
  `np.empty_like` as it was (`c90_far_fails`). Colours outside of [0, 1] raise (`c90_bright_fails`). Setting `colors` after the first
  use has no effect (`c90_stale_fails`).
* C91: `backends_get_hsml["histogram"]` is `np.empty_like(data.masses)`: histogram projections of groups without `masses` (black holes have
  `subgrid_masses` and `dynamical_masses`) raise AttributeError, whatever is projected, although sizes are not used (`c91_histogram_fails`).
* C92: `writer.gas.mass = x` (a misspelt or unknown name) is accepted and not written (`c92_foreign_fails`). `writer.scale_factor = b` after fields were assigned at `a` writes them as comoving values of `b`: physical values change by `(b/a)**k` (`c92_scale_fails`). `writer.unit_system = u` changes the units in the header only; the setters keep the unit system with which the writer was made (`c92_system_fails`). `writer.gas._masses = x` is neither checked nor converted (`c92_hidden_fails`).
* C93: `str(x)`, `np.array2string(x)` and `np.savetxt` leave out the scale factor, so arrays of different physical values are printed alike (`c93_str_fails`, `c93_savetxt_fails`). Lists of names are joined with `", "`, so a name with a comma reads as two (`c93_lists_fails`). `{x:4.2f}` prints positive numbers below 0.005 as `0.00` (`c93_small_fails`). Schemes stored as variable-length strings raise AttributeError (`c93_text_fails`); `str` of a mapping table without rows raises IndexError (`c93_mapping`).
* C94: `get_units` and `get_metadata` say that they can be called again to refresh the object, but after `load(path)` they, `handle` and `create_datasets` raise RuntimeError (`c94_reload_fails`): the handle that all objects share was closed when `load` returned. `SWIFTDataset(path)` and `SWIFTUnits(path)` leave the file open if anything raises (`c94_direct_fails`), and `get_units` of a dataset made that way leaves it open too (`c94_direct_reload_fails`). `SWIFTDataset(path, mask)` of a file without particles calls `None.close()` (`c94_direct_mask_fails`).
* C95: `index_dataset` raises an IndexError for a dataset without rows even if there are no indices (`c95_no_rows`); for a chunked file
  and indices that are not sorted (`c95_unordered_fails`); and it can not read any row of a dataset with two or more columns, because
  the buffer has one dimension (`c95_columns_fails`). Indices outside of the dataset are not modelled: h5py clips the ranges.
* C96: dividing a number by a factor raises a TypeError and dividing another object by it an AttributeError, where the documentation
  says ValueError (`c96_divided_fails`); `sum` and `math.prod` of factors always raise (`c96_total_fails`); a search for a factor in a
  list raises if it comes to an object that is not a factor (`c96_contains_fails`); at `a <= 0.01` all powers of at least four are equal
  but can not be added (`c96_equal_not_addable_fails`).
* C97: `get_dimensions` gives the dimension 1 of pure numbers the exponent one, where the documentation has zero
  (`c97_dimensionless_fails`; it is not written). Angles, luminous intensities and magnitudes have no attribute in the file
  (`c97_angle_fails`).
* C98: `reader.py` appends ` [Column None, <name>]` to the description of every field that is read without a mask, and not to that of a
  field that is read with one (reader.py:157 and 177). A field without one of the five exponents, or a masked SOAP field without the
  names or the threshold of the mask, is `None` after a line is printed, and whoever uses it fails later (reader.py:183-185). `==` on
  named columns raises AttributeError for anything that is not named columns, so that `columns == None` and `columns in [...]` raise.
* C99: `SWIFTMask.__getattr__` uses `self.group_mapping`, which needs `self._group_mapping`. On an object that has no dictionary yet, as
  `copy` and `pickle` make it, this calls `__getattr__` again without end, so no mask can be copied or pickled (`c99_copy_fails`).
* C100: members of a group are taken for datasets unless they are in the list of present groups, so a nested group becomes a field
  (`c100_nested_fails`); SOAP groups whose names differ in case share an attribute (`c100_same_name_fails`); `SubgridScheme/NamedColumns`
  is never looked at in SOAP and FOF files (`c100_catalogue_fails`).
* C101: the picture of a colour map is transposed with respect to the labels of its axes (`c101_labels_fails`); colours that are set after the first use of a map are drawn as points on the picture of the old ones (`c101_stale_fails`); the curve of a rendering function has no point at its centre and stays below the peak (`c101_peak_fails`); a width of zero, which `visualise_render` refuses, is drawn as a curve without numbers (`c101_zero_fails`).
* C102: `constrain_property` does not read `Value stored as physical … cannot be converted`: a field that cannot be converted is compared with a comoving bound after a conversion, where the array of the dataset is compared as it is (`c102_fixed_fails`). Bounds without units and bounds of other dimensions are not modelled.
* C103: `_prepare_array_func_args` keeps pairs `(hasattr(…), compression)` and returns the first pair, so the compression of a result is a tuple, deeper with each operation (`c103_operation_fails`); operands behind different numbers of operations count as different (`c103_three_fails`); `cosmo_array([1, 2], …)` has compression `(False, None)` (`c103_list_fails`). Which numpy functions give their arguments to the helper, and in which order, is not modelled here (C27, C41, C73).
* C104: the writer takes the outermost exponent of an expression of sympy, which for a root of a power is the exponent of the root (`c104_root_fails`): smoothing lengths computed as cube roots of volumes are written with exponent 1/3 and are read with wrong physical values (`c104_lengths_fails`). The attribute with the conversion factor to physical cgs is right, so the two attributes disagree. The rules by which sympy joins powers are read off its documentation and source (`Model/Powers.lean`); floats that are whole numbers and products of roots are simplified there.
* C105: `convert_to_physical()` and `to(comoving=False)` raise on arrays of integers (identifiers are read as comoving), `to_physical()` turns them into floating point numbers and changes those beyond 2**53 (`c105_integers_fails`, `c105_large_fails`). The behaviour of `in_units` of unyt on integers and the casting rule of numpy are taken from their documentation.
* C106: the test for zeros in comparisons calls `.any()` on everything that can be iterated, so lists, tuples and texts raise AttributeError (`c106_lists_fails`); `np.isin` with a list of identifiers is such a comparison.
* C107: a list or tuple of quantities has no `comoving` and no `cosmo_factor`. `x + [q]` with comoving `x` and physical `q` adds the number of `q` as a comoving one (c107_frames_fails), `np.histogram(x, range=(q1, q2))` likewise (c107_range_fails); `x * [q]` lacks the factor of `q` (c107_products_fails); lists of different factors are accepted (c107_factors_fails).
* C108: `np.var(a=x)`, `np.cross(x, b=y)` raise IndexError (c108_keywords_fails, c108_second_fails). `np.around(x, out=o)` with comoving `x` and physical `o` writes into a converted copy of `o`; `o` keeps its numbers and is relabelled as comoving (c108_out_fails). `np.concatenate([x, y], out=o)` leaves the frame and factor of `o` (c108_join_out_fails).
* C109: `convert_to_comoving(units)` and `convert_to_physical(units)` convert the units before they look at the frame, so that an array that is refused has other units after the exception. `write_subset` and `SWIFTSnapshotWriter.write` open (and so empty) the file at the path before they look at the rows: a dataset without rows or a type without particles destroys a file that was there and leaves a broken one.
* C114: Model/Formulas.lean adds a small language of formulas on top of the ufuncs, methods and conversions of Model/Cosmo.lean and Model/CosmoFunctions.lean; `**` has a number as its exponent, and `whole` stands for any function that passes on the attributes (`propagate`).
* C115: no new definitions of the code; joins Model/Formulas.lean with the masked reads of Model/Mask.lean.
* C116: no new definitions of the code; chains of the writes of Model/Subset.lean. A chain stops when a dataset has no rows (c17_empty_dataset_fails, c18_emptied_type_fails), which the definition of a chain asks for at each write.
* C117: Model/Programs.lean adds statements (names, assignments, in-place operations, conversions in place, branches, loops, try/except) to the formulas of C114. Variables are always bound to cosmology arrays with memory of their own: views are in C70/C74, and a statement that assigns a bare array has no rule. Loops that do not end have no run.
* C118: no new definitions of the code; joins Model/Programs.lean with the masked reads of Model/Mask.lean. All arrays of the state have the same number of rows.
* C119: no new definitions of the code; relates two calls of the grid functions of Model/Frame.lean through the formulas of C53, so the backends are `fast`, `slice` and `volume`; C38 covers the parallel ones.
* C120: Model/Ufuncs.lean adds ufuncs with two results. What numpy computes on real numbers is in Spec/Ufuncs.lean; rounding, infinities and NaN are left out, and matrix products are inner products of vectors. The ufuncs outside of the list are refused by unyt for arrays with dimensions where numpy asks for numbers without dimensions; the negative statements are about arrays without dimensions whose factor is not `a^0` (and about `floor`, `ceil`, `trunc`, `modf`, `divmod`, `heaviside`, `rint` and `ones_like` for all).
* C121: no new definitions of the code; the table of rules in Spec/FactorRules.lean is written down on its own and compared with `registry` and `handle`. The calls of `clip` go through the array function (C52).
* C122: no new definitions. `c122_histogram` speaks of the whole square array; where the region is not square the last coarse row or column may cover fine pixels that the fine image no longer shows. The deposition is taken with a comoving field or a^k = 1, the case in which `render_to_deposit` does not refuse.
* C123: no new definitions of the code. The kernel is a parameter that is not negative; `c123_kernels` shows that both kernels of the code are such. The nearest-neighbour slice and the GPU backend are not among the backends of this claim.
* C124: the laws hold for every backend with the stated property; `c124_turns` and C39 give the properties for the SPH slice and the renders. The nearest-neighbour slice is not additive. `c124_cube_fails` shows a region that is accepted in one order of the axes and refused in another.
* C125: units are pairs of a size in base units and dimensions in a real vector space. unyt is not in the repository; its rules for sums, products, powers and comparisons are part of the trusted base (`likeUnits`, `mulUnits`, `divUnits`, `unit1`, `compareUnits`). What is modelled of swiftsimio is where unyt is called: after the frames have been made equal, with the attributes attached to what it returns.
* C126: Model/UnitPrograms.lean has the statements of C117 over the formulas of C125; the disclaimers of both apply. The numbers are real, so integer arrays that `convert_to_units` casts are not modelled, nor are equivalencies. That an in-place operation leaves the array with the unit of the result is a rule of unyt (`out.units = unit`), as are the refusals. The meaning of a program covers formulas that scale and have dimensions throughout, and those in which a step is refused because of shapes, dimensions or factors that differ by more than `np.isclose` allows; programs that add zeros of other dimensions are left to c125_zero and c125_zero_right.
* C127: the check is not part of swiftsimio; the claim says that swiftsimio has no other reasons to raise than those that the check sees. A variable has one type in the whole program; programs that use a name for different things have to be renamed first. Comparisons of arrays without dimensions are not accepted by the check (c125_compare_dimensionless_fails).
* C128: no new definitions of the code; joins Model/UnitPrograms.lean with the masked reads of Model/Mask.lean. A mask can change the unit of a result (c128_numbers_fails) and accept a sum of different dimensions (c128_refused_fails), because unyt gives operands that are zero everywhere the unit of the other operand.
* C129: no new definitions of the code; joins Model/Reread.lean with Model/UnitPrograms.lean. Arrays are taken as they are before they are assigned (the setters convert them in place, C70), and all numbers of a field count as one list, so that programs which broadcast fields of different shapes are not covered.
* C130: numpy finds positions with strides; `Model/ShapedFormulas.lean` has the row-major order only, that is what operations give. Reductions of an axis of length zero are those of the empty list, where numpy raises for extrema. `Err.index` stands for numpy's `AxisError` and `IndexError`.
* C131: no new definitions of the code; joins Model/ShapedFormulas.lean with the masked reads of Model/Mask.lean.
* C132: results without a cosmology (bare arrays) get no names in scripts; boolean arrays appear only in conditions; `np.where` with one argument is in C52. The comparison of a bare number other than zero with an array that scales is accepted with a warning (C106) and depends on the frame; conditions of this kind are outside of the positive statement.
* C133: a condition is row by row if each comparison has one number per row on one side and one number per row or a single number on the other side; conditions with several numbers per row (`x > 0` for positions) are not covered, they select numbers and not rows. Lists of indices (`constrain_index`, `constrain_indices`) are left out: they may hold rows twice. The remote layout is left out as in C07.
* C104: nested powers follow sympy's rules for a symbol without assumptions: `b**1` is `b` and `b**0` is 1, so the square of a square root has its exponent back (`c104_undone`); all other powers of a root, and powers of products with a root, are written with a wrong exponent (`c104_powers_fails`, `c104_product_powers_fails`).
* C134: `RowScript` asks for cuts and formulas to be row by row in the states that the script itself reaches on all data; the condition on cuts (they hold only for selected rows) speaks about the flags of the script on all data only. Choices with `np.where` must have one number for each row or a single number as arguments. In-place changes are not lines of these scripts (see C118 for programs with these).
* C135: the user's lines are written with operations of the package (`np.remainder`, sums along an axis); the package has no function for periodic distances. Numbers are exact: with floating point numbers a particle at a distance of half a box may be put on either side.
* C136: `TypeStates` gives every variable a type or none; `TypeScript` asks of each line that it uses variables of one type and free ones only (`UsesOnly`). The proof reduces a line to C134 with a second state in which all other types are unchanged. `c136_sphere` gives the hypothesis on cuts from the cells and the region (C12) for any number of types.
* C137: Model/SubsetScripts.lean writes any list of datasets of several types (`writeAll`, `subset`, `chain`), like Model/SubsetImage.lean does for the four datasets of an image. Places are a function of a row of coordinates (`pos`), so that the same function serves all files of a chain.
* C138: `Verif/Model/RoundedMask.lean` repeats the selection of cells with every arithmetic result rounded by a function `fl`. The format in `Verif/Spec/RoundedMask.lean` has `p` binary digits and a least exponent but no largest exponent, so overflow and NaN are not modelled. The theorems say which particles are safe from rounding. Two negations show, with IEEE 754 doubles, that a particle within an ulp of an end of the region can be lost through the upper side of the box. Conversions of units and frames before the comparison are not part of this model.
* C139: `Verif/Model/MatrixProducts.lean` has the product of a matrix with a matrix or a vector; numpy's rule for stacks of matrices and for a vector on the left is not modelled. `matrixOf` in the spec reads a list row after row into Mathlib's `Matrix`. The proof identifies the product with a formula of Model/ShapedFormulas.lean, so C130 and C131 apply.
* C140: no new definitions of the code. `RoundedSphere` in the spec is the cut `np.sum((x - centre) ** 2) < radius ** 2` with every result rounded and the three squares added from left to right. Values are of any type, so nothing is assumed about what is computed from them.
* C141: the assumption `OrderedArith` speaks of the operations that decide whether a particle reaches the image, and of none of the operations that give its weight. NaN and numbers that do not fit `np.int32` are not ordered and are outside of the claim. The preparation of the positions (`project.py`) is any function that keeps the order of positions along each axis.
* C142: `PositiveArith` speaks of the operations that form weights and sums. In `formatArith` division by zero gives zero, as everywhere in Lean; the code gives infinity or raises, and then there is no image to compare. That images are drawn at all is C79.
* C143: the images are those of `Verif.Model.Floating` with the periodic copies that the loops draw; the places in the image are any function of the positions that keeps their order along each axis, as in C141.
* C144: `constrain_property` with rounding (Model/RoundedBounds.lean). The bins and the order of selected numbers are exact; the bounds move by at most three roundings. In double precision a bound made by converting a number of the file to physical can lose the row of that number (`c144_own_fails`, scale factor 0.7, length 3), so cuts at a value that is in the file should be given in the frame of the file.
* C145: images after cuts with rounding join C144 (masks) and C142 (images). `compress` is the masked read of C07. The images of bins need not add up in double precision (`c145_sum_fails`).
* C146: laws of spatial masks with rounding, for the model of C138. Regions whose ends are in reverse order are only covered by the order of calls.
* C147: programs of spatial masks followed by property cuts with rounding, joining C138 and C144. A cut on an unknown group or quantity raises and changes nothing in the rows (`BetweenBounds` holds trivially for it).
* C148: joins C146 (regions), C147 (cuts) and C142 (images) with rounding. The smaller mask must have at least one accepted region, since a mask without one holds all rows.
* C149: subsets with rounding. The lemmas behind C16 and C17 (`inv_ranges`, `inv_counts`, `inv_reopen`) hold for every mask with the invariant, so they are used for rounded masks too. That numbers, unit and frame of a column are copied bit by bit is the modelling of the writer in C17 and C76.
* C150: frame conversions with rounding (Model/RoundedFrames.lean), beside the exact ones of C23. `to_comoving(to_physical(x))` need not be `x`: for the scale factor 0.7 and the length 3 the last digit differs (`c150_back_fails`).
