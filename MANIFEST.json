{
 "claims": [
  {
   "property": "C01",
   "status": "proved",
   "theorems": [
    "Householder.Props.C01_bijection"
   ],
   "note": ""
  },
  {
   "property": "C02",
   "status": "proved",
   "theorems": [
    "Householder.Props.C02_order"
   ],
   "note": "For shapes whose element count fits in usize (as any accepted matrix with overflow checks has)."
  },
  {
   "property": "C03",
   "status": "partial",
   "theorems": [
    "Householder.Props.C03_false",
    "Householder.Props.C03_false_everywhere",
    "Householder.Props.C03_partial"
   ],
   "note": "False of the code: the unit coordinate is reported as 1, so the position is outside the vector. Negation proved; the partial theorem covers the free coordinate and the round trip."
  },
  {
   "property": "C04",
   "status": "proved",
   "theorems": [
    "Householder.Props.C04_access",
    "Householder.Props.C04_same_cell"
   ],
   "note": "Quantifies over shapes whose element count fits in usize (others cannot be backed by memory)."
  },
  {
   "property": "C05",
   "status": "proved",
   "theorems": [
    "Householder.Props.C05_no_sharing"
   ],
   "note": "Quantifies over shapes whose element count fits in usize (others cannot be backed by memory)."
  },
  {
   "property": "C06",
   "status": "proved",
   "theorems": [
    "Householder.Props.C06_packed"
   ],
   "note": "Quantifies over shapes whose element count fits in usize (others cannot be backed by memory)."
  },
  {
   "property": "C07",
   "status": "partial",
   "theorems": [
    "Householder.Props.C07_false",
    "Householder.Props.C07_partial"
   ],
   "note": "False of the code for arbitrary-stride row/column-major layouts (stride() reports the strides of a contiguous matrix). The partial theorem characterises exactly when the contract holds."
  },
  {
   "property": "C08",
   "status": "proved",
   "theorems": [
    "Householder.Props.C08_triangular_bijection"
   ],
   "note": ""
  },
  {
   "property": "C09",
   "status": "partial",
   "theorems": [
    "Householder.Props.C09_binary64",
    "Householder.Props.C09_exact",
    "Householder.Props.C09_false",
    "Householder.Props.C09_false_at",
    "Householder.Props.C09_never_another_element",
    "Householder.Props.C09_outcome",
    "Householder.Props.C09_partial",
    "Householder.Props.C09_places_partial",
    "Householder.Props.C09_small_targets",
    "Householder.Props.C09_targets"
   ],
   "note": "False of the code from index 2^53+2^26-1 on (f64 rounding). C09_partial covers every smaller index; C09_exact characterises, by a test in whole numbers, exactly the indices at which the conversion is right; C09_outcome gives the result at every index in both build modes; C09_places_partial: right except among the last 3*2^(log2 i - 52) places of a row; C09_never_another_element: a wrong result is never the position of another stored element. C09_small_targets, C09_targets: C09 holds in full on 16-bit and 32-bit targets, and only there. C09_binary64: the floating-point steps of the model are those of IEEE-754 binary64 (declarative specification: nearest value, ties to even), at every index."
  },
  {
   "property": "C10",
   "status": "proved",
   "theorems": [
    "Householder.Props.C10_below_diagonal_panics"
   ],
   "note": ""
  },
  {
   "property": "C11",
   "status": "proved",
   "theorems": [
    "Householder.Props.C11_index_layout"
   ],
   "note": ""
  },
  {
   "property": "C12",
   "status": "partial",
   "theorems": [
    "Householder.Props.C12_false",
    "Householder.Props.C12_partial"
   ],
   "note": "False of the code for ColumnVector (asserts the number of rows is 1). The partial theorem covers the four other layouts and what ColumnVector does instead."
  },
  {
   "property": "C13",
   "status": "proved",
   "theorems": [
    "Householder.Props.C13_checked_exact",
    "Householder.Props.C13_fits_exact"
   ],
   "note": ""
  },
  {
   "property": "C14",
   "status": "proved",
   "theorems": [
    "Householder.Props.C14_get_slice"
   ],
   "note": ""
  },
  {
   "property": "C15",
   "status": "proved",
   "theorems": [
    "Householder.Props.C15_get_slice_mut"
   ],
   "note": ""
  },
  {
   "property": "C16",
   "status": "partial",
   "theorems": [
    "Householder.Props.C16_acceptance",
    "Householder.Props.C16_acceptance_own_count",
    "Householder.Props.C16_acceptance_release",
    "Householder.Props.C16_exact",
    "Householder.Props.C16_false",
    "Householder.Props.C16_partial"
   ],
   "note": "Acceptance is proved in both build modes. The safety half is false of release builds (the element count wraps, so a 2^32 x 2^32 matrix is accepted over an empty container); the partial theorem covers overflow checks on or representable counts. C16_exact: in every build, the elements of an accepted matrix are inside its container exactly if the container has as many elements as the matrix; C16_acceptance_release: what is accepted without overflow checks."
  },
  {
   "property": "C17",
   "status": "partial",
   "theorems": [
    "Householder.Props.C17_exact",
    "Householder.Props.C17_false",
    "Householder.Props.C17_partial"
   ],
   "note": "False of release builds for wrapping element counts (undefined behaviour in get); the partial theorem covers overflow checks on or representable counts. C17_exact: in every build, access to an accepted matrix is never undefined exactly if the container has as many elements as the matrix."
  },
  {
   "property": "C18",
   "status": "partial",
   "theorems": [
    "Householder.Props.C18_false",
    "Householder.Props.C18_partial"
   ],
   "note": "False of the code: from_data does not check the extent of strided layouts. The partial theorem says exactly which safe accesses are undefined."
  },
  {
   "property": "C19",
   "status": "proved",
   "theorems": [
    "Householder.Props.C19_read_your_writes"
   ],
   "note": ""
  },
  {
   "property": "C20",
   "status": "proved",
   "theorems": [
    "Householder.Props.C20_abstract_array"
   ],
   "note": ""
  },
  {
   "property": "C21",
   "status": "proved",
   "theorems": [
    "Householder.Props.C21_zeros_from_dim"
   ],
   "note": ""
  },
  {
   "property": "C22",
   "status": "proved",
   "theorems": [
    "Householder.Props.C22_vectors"
   ],
   "note": ""
  },
  {
   "property": "C23",
   "status": "proved",
   "theorems": [
    "Householder.Props.C23_fixed_size"
   ],
   "note": ""
  },
  {
   "property": "C24",
   "status": "proved",
   "theorems": [
    "Householder.Props.C24_for_each"
   ],
   "note": ""
  },
  {
   "property": "C25",
   "status": "proved",
   "theorems": [
    "Householder.Props.C25_fill_complex",
    "Householder.Props.C25_fill_real",
    "Householder.Props.C25_layout_independent"
   ],
   "note": ""
  },
  {
   "property": "C26",
   "status": "proved",
   "theorems": [
    "Householder.Props.C26_block_is_submatrix"
   ],
   "note": ""
  },
  {
   "property": "C27",
   "status": "partial",
   "theorems": [
    "Householder.Props.C27_empty",
    "Householder.Props.C27_false",
    "Householder.Props.C27_partial",
    "Householder.Props.C27_release",
    "Householder.Props.C27_release_empty",
    "Householder.Props.C27_release_empty_column",
    "Householder.Props.C27_release_inside"
   ],
   "note": "False of the code in release builds: top_left + dim wraps. The partial theorem covers overflow checks on or non-wrapping arguments; C27_empty gives the exact outcome for empty blocks (undefined behaviour below the last row even with overflow checks). C27_release: the outcome of every call without overflow checks, wrapping included; C27_release_empty (and _column): which empty blocks are then undefined; C27_release_inside: when the elements of a block returned for wrapping arguments are all inside."
  },
  {
   "property": "C28",
   "status": "partial",
   "theorems": [
    "Householder.Props.C28_false",
    "Householder.Props.C28_partial"
   ],
   "note": "False of the code: blocks of blocks use the wrong stride. The partial theorem says exactly which elements are right."
  },
  {
   "property": "C29",
   "status": "partial",
   "theorems": [
    "Householder.Props.C29_exact",
    "Householder.Props.C29_false",
    "Householder.Props.C29_partial"
   ],
   "note": "False of the code: wrapping arguments in release builds, and empty blocks below the last row in both modes. The partial theorem covers everything else, to any depth. C29_exact: with overflow checks, empty blocks included, undefined exactly at an empty block whose corner lies beyond the window."
  },
  {
   "property": "C30",
   "status": "proved",
   "theorems": [
    "Householder.Props.C30_block_write"
   ],
   "note": ""
  },
  {
   "property": "C31",
   "status": "proved",
   "theorems": [
    "Householder.Props.C31_split_partition"
   ],
   "note": ""
  },
  {
   "property": "C32",
   "status": "partial",
   "theorems": [
    "Householder.Props.C32_false",
    "Householder.Props.C32_partial",
    "Householder.Props.C32_release",
    "Householder.Props.C32_release_outside"
   ],
   "note": "False of the code in release builds (no bounds check). The partial theorem covers overflow checks on and characterises the panics exactly. C32_release: without overflow checks, for every split point inside the matrix or on its border, undefined exactly at the upper and lower border. C32_release_outside: for split points outside the matrix the call is undefined, or panics, or returns views with an element that a safe access cannot reach without undefined behaviour."
  },
  {
   "property": "C33",
   "status": "partial",
   "theorems": [
    "Householder.Props.C33_false",
    "Householder.Props.C33_partial"
   ],
   "note": "False of the code: the containers of horizontally adjacent views overlap. The partial theorem says exactly which windows overlap and that no elements do."
  },
  {
   "property": "C34",
   "status": "proved",
   "theorems": [
    "Householder.Props.C34_addition",
    "Householder.Props.C34_expressions"
   ],
   "note": ""
  },
  {
   "property": "C35",
   "status": "proved",
   "theorems": [
    "Householder.Props.C35_get1d_get"
   ],
   "note": ""
  },
  {
   "property": "C36",
   "status": "proved",
   "theorems": [
    "Householder.Props.C36_scalar"
   ],
   "note": ""
  },
  {
   "property": "C37",
   "status": "proved",
   "theorems": [
    "Householder.Props.C37_eval"
   ],
   "note": ""
  },
  {
   "property": "C38",
   "status": "proved",
   "theorems": [
    "Householder.Props.C38_no_side_effects"
   ],
   "note": ""
  },
  {
   "property": "C39",
   "status": "proved",
   "theorems": [
    "Householder.Props.C39_layout_independent"
   ],
   "note": ""
  },
  {
   "property": "C40",
   "status": "proved",
   "theorems": [
    "Householder.Props.C40_from_ref",
    "Householder.Props.C40_references"
   ],
   "note": ""
  },
  {
   "property": "C41",
   "status": "partial",
   "theorems": [
    "Householder.Props.C41_false",
    "Householder.Props.C41_partial"
   ],
   "note": "False of the code: ColumnVector::from_dimension asserts that the number of rows is 1, so eval of a Dynamic x Dynamic column vector layout panics. The partial theorem says exactly when eval panics."
  },
  {
   "property": "C42",
   "status": "proved",
   "theorems": [
    "Householder.Props.C42_dimensions",
    "Householder.Props.C42_types"
   ],
   "note": ""
  },
  {
   "property": "C43",
   "status": "proved",
   "theorems": [
    "Householder.Props.C43_matmul",
    "Householder.Props.C43_matrix"
   ],
   "note": ""
  },
  {
   "property": "C44",
   "status": "proved",
   "theorems": [
    "Householder.Props.C44_only_c"
   ],
   "note": ""
  },
  {
   "property": "C45",
   "status": "partial",
   "theorems": [
    "Householder.Props.C45_blocks_partial",
    "Householder.Props.C45_false",
    "Householder.Props.C45_partial"
   ],
   "note": "False of the code: blocks report the strides of contiguous matrices, so the kernel multiplies other elements. The partial theorem says exactly which operands are multiplied correctly (iff each of the three reports the strides it has), and which blocks these are (single rows, whole rows; columns for column-major)."
  },
  {
   "property": "C46",
   "status": "partial",
   "theorems": [
    "Householder.Props.C46_defined_partial",
    "Householder.Props.C46_exact",
    "Householder.Props.C46_false",
    "Householder.Props.C46_partial"
   ],
   "note": "False of release builds for wrapping element counts (2^32 x 2^32 over an empty container). The partial theorem covers overflow checks on or representable counts. C46_exact: in every build, the kernel's addresses are inside exactly if the container has as many elements as the matrix."
  },
  {
   "property": "C47",
   "status": "partial",
   "theorems": [
    "Householder.Props.C47_false",
    "Householder.Props.C47_partial"
   ],
   "note": "False of the code: the kernel confuses horizontally adjacent parts of two or more rows, so mutable and immutable operands alias. The partial theorem characterises exactly when."
  },
  {
   "property": "C48",
   "status": "proved",
   "theorems": [
    "Householder.Props.C48_dot",
    "Householder.Props.C48_release_undefined",
    "Householder.Props.C48_types",
    "Householder.Props.C48_unallocatable"
   ],
   "note": "For results that can be allocated. Otherwise dot panics with overflow checks (C48_unallocatable); without them it can be undefined (C48_release_undefined: 2^32 x 0 times 0 x 2^32)."
  },
  {
   "property": "C49",
   "status": "proved",
   "theorems": [
    "Householder.Props.C49_assoc",
    "Householder.Props.C49_distrib",
    "Householder.Props.C49_scalar"
   ],
   "note": "In exact arithmetic over any semiring, for results that can be allocated. The laws with eval exclude column vectors, which eval cannot evaluate (C41)."
  },
  {
   "property": "C50",
   "status": "partial",
   "theorems": [
    "Householder.Props.C50_exact",
    "Householder.Props.C50_false",
    "Householder.Props.C50_no_wrap_partial",
    "Householder.Props.C50_partial"
   ],
   "note": "False as stated: an empty block at the lower edge of a matrix computes a pointer beyond the allocation before panicking (C50_false). C50_partial: without empty blocks, every program over all modelled safe operations (zeros, vectors, fixed sizes, from_data, element access, for_each, random fill, slices, block, split, references, sums, scaling, eval, matmul, dot) of any length is free of undefined behaviour. C50_no_wrap_partial: the same in release builds when no size wraps. C50_exact: with overflow checks and without arbitrary strides there are exactly two ways to undefined behaviour: asking for an empty block at a corner beyond the window, and multiplying into a matrix whose cells the kernel takes for elements of a factor too. C85_exact gives all causes in every build and with arbitrary strides."
  },
  {
   "property": "C51",
   "status": "partial",
   "theorems": [
    "Householder.Props.C51_bytes",
    "Householder.Props.C51_exact",
    "Householder.Props.C51_false",
    "Householder.Props.C51_false_witness",
    "Householder.Props.C51_partial"
   ],
   "note": "False of the code without overflow checks. The partial theorem covers overflow checks on, or representable counts. C51_exact: in every build, access to a matrix that zeros_from_dim returned is never undefined exactly if the matrix needs at most isize::MAX bytes. C51_bytes: with overflow checks zeros_from_dim succeeds exactly if the bytes, counted per scalar type, are at most isize::MAX."
  },
  {
   "property": "C52",
   "status": "proved",
   "theorems": [
    "Householder.Props.C52_macros",
    "Householder.Props.C52_random_macros"
   ],
   "note": ""
  },
  {
   "property": "C53",
   "status": "partial",
   "theorems": [
    "Householder.Props.C53_false",
    "Householder.Props.C53_partial"
   ],
   "note": "False of the code for upper triangular layouts of size > 1 (position (0,0) is not at raw index 0). The partial theorem covers the rest."
  },
  {
   "property": "C54",
   "status": "partial",
   "theorems": [
    "Householder.Props.C54_exact",
    "Householder.Props.C54_false",
    "Householder.Props.C54_partial"
   ],
   "note": "False of the code when the extent wraps in release builds. The partial theorem covers overflow checks on, or extents that fit. C54_exact: in every build, the slice contains all elements exactly if the extent fits in usize."
  },
  {
   "property": "C55",
   "status": "proved",
   "theorems": [
    "Householder.Props.C55_slice_element"
   ],
   "note": ""
  },
  {
   "property": "C56",
   "status": "partial",
   "theorems": [
    "Householder.Props.C56_false",
    "Householder.Props.C56_partial"
   ],
   "note": "False of the code for BaseMatrix::length on containers larger than the vector. Matrix::length is proved."
  },
  {
   "property": "C57",
   "status": "proved",
   "theorems": [
    "Householder.Props.C57_views_coherent"
   ],
   "note": ""
  },
  {
   "property": "C58",
   "status": "proved",
   "theorems": [
    "Householder.Props.C58_layouts",
    "Householder.Props.C58_operations",
    "Householder.Props.C58_programs"
   ],
   "note": ""
  },
  {
   "property": "C59",
   "status": "proved",
   "theorems": [
    "Householder.Props.C59_programs",
    "Householder.Props.C59_release"
   ],
   "note": "Every operation of Op is simulated by Spec/Machine.lean (Op.meaning); Op.Allowed lists the uses left out, each refuted elsewhere (C12, C18, C27, C28, C45). C59_release is for programs without panics."
  },
  {
   "property": "C60",
   "status": "proved",
   "theorems": [
    "Householder.Props.C60_mutable_references",
    "Householder.Props.C60_shape"
   ],
   "note": ""
  },
  {
   "property": "C61",
   "status": "proved",
   "theorems": [
    "Householder.Props.C61_triangular",
    "Householder.Props.C61_unchecked_1d",
    "Householder.Props.C61_unchecked_anywhere",
    "Householder.Props.C61_unchecked_inside",
    "Householder.Props.C61_wraps_around"
   ],
   "note": ""
  },
  {
   "property": "C62",
   "status": "proved",
   "theorems": [
    "Householder.Props.C62_agreement",
    "Householder.Props.C62_reference_product"
   ],
   "note": "Exact arithmetic; matmul_expect is the helper of the unit tests."
  },
  {
   "property": "C63",
   "status": "proved",
   "theorems": [
    "Householder.Props.C63_addition",
    "Householder.Props.C63_disjoint_slices",
    "Householder.Props.C63_double_slice",
    "Householder.Props.C63_double_slice_missed",
    "Householder.Props.C63_example_access",
    "Householder.Props.C63_example_block",
    "Householder.Props.C63_example_constructors",
    "Householder.Props.C63_example_dot",
    "Householder.Props.C63_example_rand_mat",
    "Householder.Props.C63_example_sum",
    "Householder.Props.C63_example_unchecked",
    "Householder.Props.C63_macros",
    "Householder.Props.C63_scalar_mult",
    "Householder.Props.C63_simple_slice",
    "Householder.Props.C63_upper_triangular_indexing"
   ],
   "note": "kernel_rfl only hands Eq.refl to the kernel, which does the comparison. C63_double_slice_missed shows what test_double_slice does not notice (C28)."
  },
  {
   "property": "C64",
   "status": "proved",
   "theorems": [
    "Householder.Props.C64_data_independence",
    "Householder.Props.C64_exact_kernel",
    "Householder.Props.C64_homomorphism",
    "Householder.Props.C64_relational"
   ],
   "note": "Abstraction theorem for whole programs (logical relation between the two runs); data independence and homomorphisms are corollaries."
  },
  {
   "property": "C65",
   "status": "proved",
   "theorems": [
    "Householder.Props.C65_linear_combination",
    "Householder.Props.C65_module_laws"
   ],
   "note": "Exact arithmetic; rounding is C67."
  },
  {
   "property": "C66",
   "status": "proved",
   "theorems": [
    "Householder.Props.C66_eval_twice",
    "Householder.Props.C66_product_of_blocks",
    "Householder.Props.C66_product_of_evaluated"
   ],
   "note": "Includes blocks (C45 shows that multiplying them without eval is wrong)."
  },
  {
   "property": "C67",
   "status": "proved",
   "theorems": [
    "Householder.Props.C67_expressions",
    "Householder.Props.C67_matmul",
    "Householder.Props.C67_reference_product"
   ],
   "note": "Standard model of rounded arithmetic without overflow and underflow; binary p-digit arithmetic with unbounded exponents is proved to be an instance. The kernel of matrixmultiply is abstract with an assumed error bound."
  },
  {
   "property": "C68",
   "status": "partial",
   "theorems": [
    "Householder.Props.C68_stacked_borrows_false",
    "Householder.Props.C68_stacked_borrows_partial"
   ],
   "note": "The crate's own test test_disjoint_slices is undefined behaviour under Stacked Borrows (refuted); exact characterisation of the sequences that are fine."
  },
  {
   "property": "C69",
   "status": "partial",
   "theorems": [
    "Householder.Props.C69_tree_borrows_false",
    "Householder.Props.C69_tree_borrows_partial"
   ],
   "note": "The crate's own test test_disjoint_slices is undefined behaviour under Tree Borrows as well (refuted); exact characterisation of the sequences that are fine."
  },
  {
   "property": "C70",
   "status": "proved",
   "theorems": [
    "Householder.Props.C70_blocks"
   ],
   "note": "Models of both published aliasing rules in Model/Borrow.lean, without protectors and two-phase borrows."
  },
  {
   "property": "C71",
   "status": "proved",
   "theorems": [
    "Householder.Props.C71_any_schedule",
    "Householder.Props.C71_footprint",
    "Householder.Props.C71_race_free",
    "Householder.Props.C71_schedules_agree",
    "Householder.Props.C71_split"
   ],
   "note": "At the level of the cells that operations read and write; the aliasing rules for the references are C68 and C69."
  },
  {
   "property": "C72",
   "status": "proved",
   "theorems": [
    "Householder.Props.C72_blocks",
    "Householder.Props.C72_expressions",
    "Householder.Props.C72_histories",
    "Householder.Props.C72_layouts",
    "Householder.Props.C72_products"
   ],
   "note": "Stated as equations between runs of the model on mirrored inputs, with no hypothesis about the matrices except that no layout is triangular. Evaluation is for the four matrix layouts: ColumnVector::from_dimension is not the mirror image of RowVector::from_dimension (C41)."
  },
  {
   "property": "C73",
   "status": "proved",
   "theorems": [
    "Householder.Props.C73_operation",
    "Householder.Props.C73_programs"
   ],
   "note": "No hypothesis on the state: it also holds for states with overlapping or malformed matrices. The memory of a panicking allocation is not modelled."
  },
  {
   "property": "C74",
   "status": "partial",
   "theorems": [
    "Householder.Props.C74_agreement",
    "Householder.Props.C74_construction",
    "Householder.Props.C74_contract",
    "Householder.Props.C74_crate_expressions",
    "Householder.Props.C74_crate_layouts",
    "Householder.Props.C74_crate_matrices",
    "Householder.Props.C74_eval_partial",
    "Householder.Props.C74_exact",
    "Householder.Props.C74_exact_any",
    "Householder.Props.C74_exact_reads",
    "Householder.Props.C74_exact_slices",
    "Householder.Props.C74_false",
    "Householder.Props.C74_false_eval",
    "Householder.Props.C74_false_slice",
    "Householder.Props.C74_false_sum",
    "Householder.Props.C74_fit",
    "Householder.Props.C74_reads_partial",
    "Householder.Props.C74_writes_partial"
   ],
   "note": "False of the code in four ways, each with a witness: a layout that converts to an index outside its container (C74_false), operands of a sum with the same index layout but different numbers of elements (C74_false_sum), a layout with more elements than its index layout in eval (C74_false_eval), a container that overstates its length in get_slice (C74_false_slice). True for implementations that keep the contract in Spec/Traits.lean, which the nine layouts and the containers keep (C74_crate_layouts for all layouts; C74_crate_matrices for sound matrices). C74_construction: which containers the constructors accept. C74_agreement ties the generic model to the model of the crate. Implementations that break the contract: exactly when they make safe code undefined (C74_exact_reads for any layouts, containers and matrices; C74_exact for layouts that return or panic over the crate's containers: reads, mutable access, for_each and eval are undefined exactly if the first conversion that fails gives an index past the end; C74_exact_slices). C74_contract: Addresses is necessary as well as sufficient; C74_fit: a layout is fit for all containers that are accepted exactly if it addresses only as many elements as it says. C74_exact_any: the same for mutable access, for_each and eval over any layouts, containers and matrices whatever. Implementations with interior mutability: C86. Products and views over other implementations: C75."
  },
  {
   "property": "C75",
   "status": "partial",
   "theorems": [
    "Householder.Props.C75_crate_products",
    "Householder.Props.C75_dot_partial",
    "Householder.Props.C75_dot_wraps",
    "Householder.Props.C75_exact_any",
    "Householder.Props.C75_exact_block",
    "Householder.Props.C75_exact_dot",
    "Householder.Props.C75_exact_product",
    "Householder.Props.C75_exact_split",
    "Householder.Props.C75_false",
    "Householder.Props.C75_false_product",
    "Householder.Props.C75_false_views",
    "Householder.Props.C75_product_agreement",
    "Householder.Props.C75_product_partial",
    "Householder.Props.C75_views_agreement",
    "Householder.Props.C75_views_partial"
   ],
   "note": "False of the code: a layout with safe functions, all of whose accesses are inside its container, makes matmul and dot undefined (C75_false, C75_false_product); a container that overstates its length makes block and split undefined (C75_false_views). True when strides and pointer lead to the elements (Exposes, Shows in Spec/TraitsMul.lean): C75_product_partial, C75_dot_partial, C75_views_partial; C75_views_agreement reduces views over any container to views over a slice of the crate. The crate's sound and honest matrices keep the contract (C75_crate_products) and the generic code agrees with the model of the crate (C75_product_agreement). C75_dot_wraps: for every implementation, what dot does without overflow checks when the size of the result wraps (undefined or a panic, and exactly when). Implementations that break the contract: C75_exact_product, C75_exact_dot, C75_exact_block, C75_exact_split say exactly when they make matmul, dot, blocks and splits undefined, for any answers whatever (for products, pointers into memory that exists). C75_exact_any: the same for products without the condition on the pointers. Missing: that it never happens (it does)."
  },
  {
   "property": "C76",
   "status": "proved",
   "theorems": [
    "Householder.Props.C76_every_build",
    "Householder.Props.C76_no_leak",
    "Householder.Props.C76_no_leak_every_build",
    "Householder.Props.C76_no_use_after_free",
    "Householder.Props.C76_same_results",
    "Householder.Props.C76_same_results_every_build"
   ],
   "note": "C76_no_use_after_free, C76_no_leak, C76_same_results (Props/Lifetimes.lean). The borrow checker is the predicate Admitted of Spec/Lifetimes.lean: which operands are moved and which borrows are part of the result is read off the signatures, operation by operation. Moves and shared borrows are tracked, not exclusive borrows (a superset of legal programs). Conditions of C50 (Careful). Examples show a use after free and double frees when the rules are broken. Without those conditions (Props/Blame.lean), in every build and for every layout: C76_every_build (undefined behaviour exactly at a culprit of C85, never by a drop; containers of living values are in memory not freed), C76_no_leak_every_build, C76_same_results_every_build."
  },
  {
   "property": "C77",
   "status": "partial",
   "theorems": [
    "Householder.Props.C77_blocks_false",
    "Householder.Props.C77_every_build",
    "Householder.Props.C77_exact",
    "Householder.Props.C77_exclusive_every_build_partial",
    "Householder.Props.C77_exclusive_false",
    "Householder.Props.C77_exclusive_partial",
    "Householder.Props.C77_no_undefined_behaviour_partial",
    "Householder.Props.C77_undefined_false"
   ],
   "note": "False of the code: C77_undefined_false (a program accepted by the borrow checker multiplies two parts of a split into a third part: undefined behaviour), C77_exclusive_false (get_slice_mut of a part of a split writes elements of another part), C77_blocks_false (so does a mutable block of a part, whose strides are wrong). Proved: C77_no_undefined_behaviour_partial (apart from products of parts of splits the borrow checker discharges the no-overlap condition of C50, for every program), C77_exact (with overflow checks and without arbitrary strides a program accepted by the borrow checker is undefined exactly if it asks for an empty block at a corner beyond the window or multiplies parts of a split into a part that the kernel confuses with a factor), C77_exclusive_partial (a step changes no element of any readable value but the one it writes to, unless a part is written by get_slice_mut, matmul or a block that does not show elements of the part). The borrow checker is the predicate Checked of Spec/Exclusive.lean on top of Admitted of C76; a borrow ends when the borrowing value is dropped, earlier ends (NLL) are written as earlier drops. C77_every_build (Props/Blame.lean): in every build and for every layout a program that the borrow checker accepts is undefined exactly if an operation leaves its container, or multiplies with an element outside a container, two elements of the result at one place, or parts of splits confused; no other alias is possible. C77_exclusive_every_build_partial: in every build and for every layout a step changes nothing that another readable value shows, unless both are parts of splits. Missing: those cases."
  },
  {
   "property": "C78",
   "status": "proved",
   "theorems": [
    "Householder.Props.C78_crash_point",
    "Householder.Props.C78_eval",
    "Householder.Props.C78_fill",
    "Householder.Props.C78_for_each",
    "Householder.Props.C78_matmul",
    "Householder.Props.C78_no_panic",
    "Householder.Props.C78_programs"
   ],
   "note": "Proved: C78_for_each, C78_crash_point, C78_no_panic, C78_fill, C78_eval, C78_matmul, C78_programs. The loops are modelled again in Model/Unwind.lean so that a panic carries the memory; C78_no_panic and C78_matmul tie them to the functions of the rest of the model. The conditions of C78_programs are those of C50 (no arbitrary strides, no overlapping product, no block of size zero, no wrapping sizes). The scalars have no destructors that panic."
  },
  {
   "property": "C79",
   "status": "partial",
   "theorems": [
    "Householder.Props.C79_count",
    "Householder.Props.C79_exact",
    "Householder.Props.C79_false",
    "Householder.Props.C79_partial",
    "Householder.Props.C79_random_shape",
    "Householder.Props.C79_shape",
    "Householder.Props.C79_vectors"
   ],
   "note": "False of the code: C79_false (mat! expands its dimension argument twice, `$dim.0` and `$dim.1`; an expression that yields 2 x 2 and then 3 x 3 gives a 2 x 3 matrix). Proved: C79_partial (expressions whose second evaluation changes nothing), C79_exact (when it is as if evaluated once: if and only if the second evaluation yields the same columns and leaves the same state), C79_shape and C79_random_shape (what every expression gives), C79_vectors (vector! and rand_vector! evaluate once), C79_count (two evaluations and one)."
  },
  {
   "property": "C80",
   "status": "proved",
   "theorems": [
    "Householder.Props.C80_binary64",
    "Householder.Props.C80_dot",
    "Householder.Props.C80_expressions",
    "Householder.Props.C80_matmul"
   ],
   "note": "Real scalars; one zero (signs of zeros are not distinguished; see C97, C98). A kernel is any function whose every element is one of the trees of `ProductOf`: sums in any order and bracketing, fused or not, in blocks, alpha applied to blocks or terms, beta*c skipped for beta 0 or 1. C80_matmul also covers the reference product; C80_binary64 relates the format f64 to the binary64 of C09. Non-vacuity: `Num f` is a type that follows the standard for every format, `loopKern` and `fusedKern` are such kernels."
  },
  {
   "property": "C81",
   "status": "proved",
   "theorems": [
    "Householder.Props.C81_complex_dot",
    "Householder.Props.C81_complex_expressions",
    "Householder.Props.C81_complex_products",
    "Householder.Props.C81_orders",
    "Householder.Props.C81_products"
   ],
   "note": "The arithmetic of num_complex (an external crate) is written down in Spec/Terms.lean (`Cx`): two parts, sums by parts, products with four multiplications. Algorithms are trees of rounded operations; what a tree computes is the multiset of terms it expands to, so the kernel may sum, block and scale as it likes, but algorithms whose terms cancel (three-multiplication complex products, Strassen) are not covered. The bounds of roundings, underflow and intermediate results are parameters of the kernel; for the reference loop they are computed (`loopKern_complex`: k + 4 roundings), for the orders of C80 too (C81_orders). Signs of zeros are not distinguished (see C97, C98)."
  },
  {
   "property": "C82",
   "status": "proved",
   "theorems": [
    "Householder.Props.C82_access",
    "Householder.Props.C82_cost",
    "Householder.Props.C82_for_each",
    "Householder.Props.C82_once",
    "Householder.Props.C82_same_results",
    "Householder.Props.C82_single_pass"
   ],
   "note": "The functions are modelled once more with a record of every access, arithmetic operation and allocation (Model/Trace.lean); C82_same_results: their outcome is that of the model without the record, for all inputs. C82_single_pass gives the record, C82_cost the numbers, C82_once that nothing is read or written twice, C82_access and C82_for_each the record of the other operations. That building an expression does nothing is visible in the model: the operators do not take the memory."
  },
  {
   "property": "C83",
   "status": "partial",
   "theorems": [
    "Householder.Props.C83_false",
    "Householder.Props.C83_partial"
   ],
   "note": "False of the code for c32 and c64: it panics on all values (C83_false). C83_partial: on f32 and f64 it is the angle, and the only one unless the point is the origin. Missing: rounding (the standard library does not promise a precision)."
  },
  {
   "property": "C84",
   "status": "proved",
   "theorems": [
    "Householder.Props.C84_complex",
    "Householder.Props.C84_macros",
    "Householder.Props.C84_real"
   ],
   "note": "C84_real, C84_complex: lists of matrices filled from one generator; C84_macros: new random matrices. Independence is Mathlib's iIndepFun (of all elements together). The distribution is arbitrary: which distribution rand_distr::StandardNormal has is up to that library."
  },
  {
   "property": "C85",
   "status": "proved",
   "theorems": [
    "Householder.Props.C85_exact",
    "Householder.Props.C85_harmless"
   ],
   "note": "C85_exact: the characterisation, for all programs; C85_harmless: the operation alone. The specification (Spec/Culprit.lean) lists the accesses of each operation and the contract of the product; it uses the layouts' own index functions, whose correctness is C01-C09."
  },
  {
   "property": "C86",
   "status": "partial",
   "theorems": [
    "Householder.Props.C86_agreement",
    "Householder.Props.C86_agreement_base",
    "Householder.Props.C86_agreement_dot",
    "Householder.Props.C86_apart",
    "Householder.Props.C86_blocks",
    "Householder.Props.C86_contract",
    "Householder.Props.C86_crate",
    "Householder.Props.C86_dot_partial",
    "Householder.Props.C86_eval_partial",
    "Householder.Props.C86_exact",
    "Householder.Props.C86_exact_dot",
    "Householder.Props.C86_exact_dot_here",
    "Householder.Props.C86_exact_each",
    "Householder.Props.C86_exact_eval",
    "Householder.Props.C86_exact_here",
    "Householder.Props.C86_exact_kernel",
    "Householder.Props.C86_exact_new",
    "Householder.Props.C86_exact_product",
    "Householder.Props.C86_exact_reads",
    "Householder.Props.C86_exact_slices",
    "Householder.Props.C86_exact_sums",
    "Householder.Props.C86_exact_views",
    "Householder.Props.C86_false",
    "Householder.Props.C86_false_each",
    "Householder.Props.C86_product_partial",
    "Householder.Props.C86_reads_partial",
    "Householder.Props.C86_split",
    "Householder.Props.C86_still",
    "Householder.Props.C86_writes_partial"
   ],
   "note": "False of the code: a layout that at every moment is safe, logical and inside its container, but changes between the calls, makes get, get1d and eval undefined (C86_false, C86_false_each). True if dim and number_of_elements do not change and every conversion stays inside at every moment (Spec/Stateful.lean), however else the implementations change: C86_reads_partial, C86_writes_partial (get_mut, get1d_mut, for_each, slices), C86_eval_partial, C86_product_partial and C86_dot_partial (also the values). C86_blocks, C86_split: views ask once, so C75 applies. C86_agreement, C86_agreement_base, C86_agreement_dot: for implementations that do not change the model is that of C74 and C75; C86_still, C86_crate: they, and the crate's own, keep the contract. Exactly: C86_exact_reads (any implementations whatever, each call answered in the state the calls before have left), C86_exact (layouts that change, over the crate's containers: get, get1d, get_mut, get1d_mut, for_each, eval), C86_contract (defined in all states iff each position inside the answered shape is converted, by the next call, to an index inside), C86_exact_sums and C86_exact_new (also what is returned), C86_exact_slices, C86_exact_product, C86_exact_dot, C86_exact_views. C86_exact_each, C86_exact_eval: mutable access, for_each and eval over any layouts, containers and matrices whatever. Implementations that share the memory, i.e. read and change elements while they answer (Model/StatefulMemory.lean): C86_exact_here (reads, for_each with a callable that may do anything, eval), C86_exact_kernel and C86_exact_dot_here (products, wherever the pointers lead); C86_apart: if they leave the memory as it is then the model is the one above. Missing: that it never happens (it does)."
  },
  {
   "property": "C87",
   "status": "proved",
   "theorems": [
    "Householder.Props.C87_stacked_borrows",
    "Householder.Props.C87_stacked_strict",
    "Householder.Props.C87_tree_borrows",
    "Householder.Props.C87_tree_strict"
   ],
   "note": "C87_stacked_borrows, C87_tree_borrows: by one proof over an interface (Lemmas/Guards.lean, Obeys) that both models meet. Empty blocks are excluded since block itself is undefined there in release builds and, for empty dimensions, in all builds (C27, C50). The four parts of a split, which may exist side by side, are in C68 and C69, without protectors, and C88, with them."
  },
  {
   "property": "C88",
   "status": "proved",
   "theorems": [
    "Householder.Props.C88_no_difference",
    "Householder.Props.C88_stacked_borrows",
    "Householder.Props.C88_test_undefined",
    "Householder.Props.C88_tree_borrows"
   ],
   "note": "C88_stacked_borrows, C88_tree_borrows give the exact conditions, C88_no_difference the comparison with the models of C68 and C69. C88_test_undefined: the crate's own test test_disjoint_slices is undefined behaviour under both models with protectors, from every state (that the parts cannot be used freely is C68_stacked_borrows_false, C69_tree_borrows_false)."
  },
  {
   "property": "C89",
   "status": "proved",
   "theorems": [
    "Householder.Props.C89_stacked_borrows",
    "Householder.Props.C89_tree_borrows"
   ],
   "note": "C89_stacked_borrows, C89_tree_borrows: by the interface of C87 for each matrix (Lemmas/Guards.lean, Obeys). Products of the parts of one split matrix, which the borrow checker admits too, are in C90."
  },
  {
   "property": "C90",
   "status": "proved",
   "theorems": [
    "Householder.Props.C90_stacked_borrows",
    "Householder.Props.C90_tree_borrows",
    "Householder.Props.C90_tree_borrows_and_aliasing"
   ],
   "note": "C90_stacked_borrows, C90_tree_borrows, C90_tree_borrows_and_aliasing. In Stacked Borrows, invariants of the three pointers hold side by side because the windows of usable parts are disjoint; in Tree Borrows the cells written to are followed."
  },
  {
   "property": "C91",
   "status": "partial",
   "theorems": [
    "Householder.Props.C91_any_schedule",
    "Householder.Props.C91_false",
    "Householder.Props.C91_operations",
    "Householder.Props.C91_own_windows",
    "Householder.Props.C91_plainKernel",
    "Householder.Props.C91_readers",
    "Householder.Props.C91_schedules_agree",
    "Householder.Props.C91_split_partial",
    "Householder.Props.C91_windows",
    "Householder.Props.C91_zones"
   ],
   "note": "C91_any_schedule, C91_zones, C91_windows, C91_own_windows, C91_readers, C91_schedules_agree hold. False for the parts of a split (C91_false): a product stored in the first part is stored in elements of the second, because the kernel is told the wrong strides (C07), and races with a thread that reads them. C91_split_partial holds for programs that use their part element by element (element access, for_each, random filling, expressions, eval) and use slices, views and products only of matrices they have made themselves. C91_operations: uninterrupted, the functions of Model/Steps.lean are those of the rest of the model; C91_plainKernel: the assumptions about the kernel are met. C95 says exactly which threads race, whatever they are given."
  },
  {
   "property": "C92",
   "status": "partial",
   "theorems": [
    "Householder.Props.C92_asks",
    "Householder.Props.C92_eval_order",
    "Householder.Props.C92_false",
    "Householder.Props.C92_intact",
    "Householder.Props.C92_more",
    "Householder.Props.C92_order_partial",
    "Householder.Props.C92_plainKernel",
    "Householder.Props.C92_program",
    "Householder.Props.C92_room",
    "Householder.Props.C92_same_or_aborted",
    "Householder.Props.C92_used",
    "Householder.Props.C92_without"
   ],
   "note": "All but the last sentence hold: C92_same_or_aborted, C92_intact, C92_asks, C92_without, C92_used, C92_more, C92_program, C92_room. The last sentence is false for dot (C92_false): it allocates its result before the shapes of the factors are compared, so a product of two 2x3 matrices aborts the process instead of panicking when there is no room for the 2x3 result. C92_order_partial proves it for all operations but dot, eval and from_data on storage of the program's; C92_eval_order for eval of expressions the program can build."
  },
  {
   "property": "C93",
   "status": "proved",
   "theorems": [
    "Householder.Props.C93_agrees",
    "Householder.Props.C93_any_order",
    "Householder.Props.C93_includes",
    "Householder.Props.C93_own_windows",
    "Householder.Props.C93_readers",
    "Householder.Props.C93_split",
    "Householder.Props.C93_windows",
    "Householder.Props.C93_zones"
   ],
   "note": "C93_any_order (zones), C93_zones, C93_windows, C93_own_windows, C93_readers, C93_split; C93_agrees: finished threads agree with every interleaving of C91; C93_includes: every interleaving is among the executions. Examples show that the model allows store buffering, load buffering and reordered stores when elements are shared. C93_split has the hypothesis of C91_split_partial (products stored into parts race, C91_false)."
  },
  {
   "property": "C94",
   "status": "proved",
   "theorems": [
    "Householder.Props.C94_finishes",
    "Householder.Props.C94_fork_join",
    "Householder.Props.C94_join_unique",
    "Householder.Props.C94_own_windows",
    "Householder.Props.C94_readers",
    "Householder.Props.C94_split"
   ],
   "note": "C94_fork_join (zones), C94_own_windows, C94_readers, C94_split; C94_join_unique: what the waiting thread sees is determined; C94_finishes: no thread waits for another. For the split the threads use their parts element by element, as in C91_split_partial (products stored into parts race, C91_false)."
  },
  {
   "property": "C95",
   "status": "proved",
   "theorems": [
    "Householder.Props.C95_any_order",
    "Householder.Props.C95_fork_join",
    "Householder.Props.C95_free_of_races",
    "Householder.Props.C95_listed",
    "Householder.Props.C95_races",
    "Householder.Props.C95_weak_races"
   ],
   "note": "C95_races and C95_weak_races: exact criterion, for interleavings and for weak memory. C95_free_of_races, C95_any_order, C95_fork_join: what threads without races can rely on; no zones are assumed. C95_listed: for threads that finish alone the criterion is a finite check. Threads that have undefined behaviour alone are not covered (they have it in the schedule in which they run alone, too)."
  },
  {
   "property": "C96",
   "status": "proved",
   "theorems": [
    "Householder.Props.C96_parts_stacked",
    "Householder.Props.C96_parts_tree",
    "Householder.Props.C96_product_stacked",
    "Householder.Props.C96_product_tree",
    "Householder.Props.C96_split_stacked",
    "Householder.Props.C96_split_tree",
    "Householder.Props.C96_stacked_borrows",
    "Householder.Props.C96_tree_borrows"
   ],
   "note": "C96_stacked_borrows and C96_tree_borrows: programs. C96_split_stacked and C96_split_tree: exactly which uses of the four parts are defined. C96_parts_stacked and C96_parts_tree: exactly which products of three of the parts. C96_product_stacked and C96_product_tree: programs that multiply, where each matrix may have its elements inside or not. How each call is cut into methods (`Plan`) is universally quantified. Calls that panic go through any number of methods first (`failMut`, `fail`, `refuse`); unwinding ends the protectors, and the program goes on. The matrix starts contiguous; the blocks need not be. The examples show that a look after the slice is made would be undefined."
  },
  {
   "property": "C97",
   "status": "proved",
   "theorems": [
    "Householder.Props.C97_dot",
    "Householder.Props.C97_expressions",
    "Householder.Props.C97_matmul"
   ],
   "note": "The arithmetic is stated on data (`Datum`: NaN, signed infinities, signed numbers) by relations for sums, products and fused multiply-adds (Spec/Special.lean); NaN payloads are not distinguished. Kernels are those of C80, up to which NaN they return. With beta = 0 nothing is said about the old element: the examples show a kernel that keeps a NaN there and one that does not. Non-vacuity: `Num754 f` follows the standard for every format, `loopKern` and `clearingKern` are such kernels. Real scalars; for complex ones see C81."
  },
  {
   "property": "C98",
   "status": "partial",
   "theorems": [
    "Householder.Props.C98_false",
    "Householder.Props.C98_opposites",
    "Householder.Props.C98_partial",
    "Householder.Props.C98_whole",
    "Householder.Props.C98_zeros"
   ],
   "note": "C98_statement: the laws of C65 for IEEE-754 data. C98_false: associativity, collecting factors, both distributive laws (even for the factor -1) and dropping `0 * b` fail in f64. C98_partial: the congruence `Rearranged` of what holds; missing are the refuted laws. C98_opposites and C98_zeros say exactly what the two laws about zeros become; C98_whole: all laws hold, as numbers, for whole numbers up to 2^p. Rounding is proved to be a function (`Format.RoundsTo.unique`)."
  },
  {
   "property": "C99",
   "status": "partial",
   "theorems": [
    "Householder.Props.C99_dot",
    "Householder.Props.C99_expressions",
    "Householder.Props.C99_false",
    "Householder.Props.C99_matmul",
    "Householder.Props.C99_order",
    "Householder.Props.C99_partial",
    "Householder.Props.C99_real"
   ],
   "note": "C99_statement / C99_false: `1 * (inf + 0i)` is `inf + NaN i`, `1 * (-0 - i)` is `0 - i`. C99_partial: the exact condition (`Cx.Kept`) for an element to be kept; missing is only what is refuted. C99_real: real factors. C99_order: exchanging operands of sums. C99_expressions, C99_matmul, C99_dot: NaN and infinities, for expressions (also evaluated), for kernels whose operations use both parts of all numbers (`Thorough`; the loop of the reference product is proved to be one), for the reference product itself and for `dot`. Complex arithmetic is the one of num_complex, as in C81."
  },
  {
   "property": "C100",
   "status": "proved",
   "theorems": [
    "Householder.Props.C100_dot",
    "Householder.Props.C100_expressions",
    "Householder.Props.C100_matmul",
    "Householder.Props.C100_open"
   ],
   "note": "C100_matmul (also for the reference product of the unit tests), C100_dot, C100_expressions. C100_open: two kernels that compute in the allowed orders return zeros of different signs for the same operands, so the zeros left open cannot be decided without fixing the kernel."
  },
  {
   "property": "C101",
   "status": "proved",
   "theorems": [
    "Householder.Props.C101_choice",
    "Householder.Props.C101_dot",
    "Householder.Props.C101_expressions",
    "Householder.Props.C101_matmul"
   ],
   "note": "C101_matmul (also for the reference product of the unit tests), C101_dot, C101_expressions. C101_choice: a kernel that is exact in the sense of C97 but not fixed returns a smaller product for larger operands, so that condition cannot be dropped."
  },
  {
   "property": "C102",
   "status": "partial",
   "theorems": [
    "Householder.Props.C102_block",
    "Householder.Props.C102_eval",
    "Householder.Props.C102_false",
    "Householder.Props.C102_partial",
    "Householder.Props.C102_read",
    "Householder.Props.C102_same",
    "Householder.Props.C102_slices"
   ],
   "note": "False (C102_false): ColumnVector::from_dimension asserts on the number of rows but prints the number of columns, so for a proper column shape (3, 1) it says \"Number of columns is 1 but must be one for ColumnVector.\"; in release builds the corner in the message of block is wrong for a block of no rows or columns at the top or left edge, and numbers of elements and corners that wrap around are shown wrapped. C102_partial: these are exactly the messages that mislead; every other message of every accepted call is right. C102_same: a function has a message exactly when the model without messages panics. C102_read: which message get and get1d print, C102_block: which block prints, C102_slices: which slices print, and C102_eval: the only message of eval of allocatable size is the misleading one."
  },
  {
   "property": "C103",
   "status": "proved",
   "theorems": [
    "Householder.Props.C103_choice",
    "Householder.Props.C103_dot",
    "Householder.Props.C103_expressions",
    "Householder.Props.C103_matmul"
   ],
   "note": "C103_matmul (also for the reference product of the unit tests), C103_dot, C103_expressions. C103_choice: a kernel that is exact in the sense of C97 but chooses by the elements gives 2^53 and -(2^53 + 2) for opposite rows, so that condition cannot be dropped. The kernels loopKern, clearingKern and fusedKern are shown to meet the condition."
  },
  {
   "property": "C104",
   "status": "proved",
   "theorems": [
    "Householder.Props.C104_dot",
    "Householder.Props.C104_expressions",
    "Householder.Props.C104_matmul",
    "Householder.Props.C104_reference",
    "Householder.Props.C104_sums",
    "Householder.Props.C104_underflow"
   ],
   "note": "C104_matmul, C104_reference, C104_dot, C104_expressions; C104_sums for sums of matrices, without any condition on underflow. The condition on underflow is stated on the products in the kernel's order of operations (Fp.Retains); overflow needs no condition beyond finite results because infinities and NaN never become finite again. C104_underflow: 3/2^537 times 1/2^537 and half of it, where the condition fails and so does the claim. loopKern, clearingKern and fusedKern are shown to meet the condition on kernels."
  },
  {
   "property": "C105",
   "status": "proved",
   "theorems": [
    "Householder.Props.C105_dot",
    "Householder.Props.C105_matmul",
    "Householder.Props.C105_position",
    "Householder.Props.C105_reference"
   ],
   "note": "C105_matmul, C105_dot, C105_reference. C105_position: a kernel that computes in the allowed orders but chooses by the position gives 2^53 and 2^53 + 2 for equal rows, so the condition on the kernel cannot be dropped. For expressions see C39."
  }
 ]
}