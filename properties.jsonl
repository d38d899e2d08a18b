{"id": "C01", "title": "1D and 2D logical indices are inverse bijections (row-/column-major)", "statement": "For every row-major or column-major layout, contiguous or with arbitrary stride, convert_1d_2d maps each index below number_of_elements to a (row, col) inside dim, convert_2d_1d maps each position inside dim to an index below number_of_elements, and each undoes the other.", "quantifier": "all dimensions (rows, cols) whose product fits in usize, all strides, all indices and positions in range, overflow checks on or off", "why_tests_cant": "Tests fix a handful of shapes; the claim ranges over every shape and every index.", "anchors": ["src/layouts/row_major.rs: convert_1d_2d, convert_2d_1d", "src/layouts/column_major.rs", "src/layouts/arbitrary_stride_row_major.rs", "src/layouts/arbitrary_stride_column_major.rs"]}
{"id": "C02", "title": "1D traversal order is the documented logical order", "statement": "Running index 0..number_of_elements through convert_1d_2d visits row-major layouts row by row, column-major layouts column by column and upper triangular layouts from the last row upwards, left to right in each row, each stored position exactly once, whatever the physical strides are.", "quantifier": "all shapes, all strides (upper triangular: sizes whose index count is at most 2^53)", "why_tests_cant": "The order over all shapes is an infinite family of lists.", "anchors": ["src/traits/layout.rs: LayoutType::convert_1d_2d", "src/layouts/row_major.rs", "src/layouts/column_major.rs", "src/layouts/upper_triangular.rs"]}
{"id": "C03", "title": "1D to 2D conversion on vectors yields a valid position", "statement": "For every row or column vector layout (contiguous or strided), convert_1d_2d of an index below the length is a position inside dim, namely (0, index) for row vectors and (index, 0) for column vectors, and is undone by convert_2d_1d.", "quantifier": "all lengths, all strides, all indices below the length", "why_tests_cant": "Existing tests never call convert_1d_2d on vectors; the claim is for every index.", "anchors": ["src/layouts/row_vector.rs: convert_1d_2d", "src/layouts/column_vector.rs: convert_1d_2d", "src/layouts/arbitrary_stride_row_vector.rs", "src/layouts/arbitrary_stride_column_vector.rs"]}
{"id": "C04", "title": "1D and 2D access name the same memory cell", "statement": "For every layout, convert_1d_raw(i) = convert_2d_raw(convert_1d_2d(i)) for every index i in range, and convert_2d_raw(r,c) = convert_1d_raw(convert_2d_1d(r,c)) for every stored position; hence get1d and get agree on every matrix.", "quantifier": "all nine layouts, all shapes and strides, all indices/positions in range (upper triangular first form: indices below 2^53)", "why_tests_cant": "Agreement must hold for all shapes and indices.", "anchors": ["src/traits/layout.rs: convert_1d_raw, convert_2d_raw", "src/base_matrix.rs: get_unchecked, get1d_unchecked"]}
{"id": "C05", "title": "Distinct matrix positions never share a memory cell", "statement": "For every contiguous layout (row-major, column-major, vectors, packed triangular), two different stored positions have different raw indices; for arbitrary-stride layouts the same holds whenever the strides do not overlap rows (resp. columns).", "quantifier": "all shapes, strides, pairs of positions", "why_tests_cant": "Quantifies over pairs of positions in all shapes.", "anchors": ["src/layouts/*.rs: convert_2d_raw"]}
{"id": "C06", "title": "Contiguous layouts are packed without holes", "statement": "For every contiguous layout the raw indices of its stored positions are exactly 0..number_of_elements.", "quantifier": "all shapes, all raw indices", "why_tests_cant": "Both inclusions range over unbounded shapes.", "anchors": ["src/layouts/row_major.rs", "src/layouts/column_major.rs", "src/layouts/row_vector.rs", "src/layouts/column_vector.rs", "src/layouts/upper_triangular.rs"]}
{"id": "C07", "title": "stride() reports the memory distance between neighbours", "statement": "stride() = (r, c) means: walking to the next row moves r raw positions, walking to the next column moves c raw positions.", "quantifier": "every layout with a stride, all positions having a next row / next column", "why_tests_cant": "The contract quantifies over all positions of all strided layouts; the reported value is consumed by block, split_in_four_mut and matmul.", "anchors": ["src/traits/layout.rs: stride", "src/layouts/arbitrary_stride_row_major.rs: stride", "src/layouts/arbitrary_stride_column_major.rs: stride"]}
{"id": "C08", "title": "Upper triangular packing is a bijection", "statement": "For an n x n upper triangular layout, convert_2d_1d is a bijection from the positions with row <= col < n onto 0..n(n+1)/2, and number_of_elements is n(n+1)/2.", "quantifier": "all n whose n(n+1) fits in usize, all positions on or above the diagonal, all indices", "why_tests_cant": "The unit test checks n = 5 at four points.", "anchors": ["src/layouts/upper_triangular.rs: convert_2d_1d, number_of_elements"]}
{"id": "C09", "title": "Upper triangular 1D to 2D conversion inverts 2D to 1D", "statement": "For every upper triangular layout and every index below number_of_elements, convert_1d_2d (which goes through f64 sqrt and floor) returns the position (row, col) with row <= col < n whose convert_2d_1d is the index.", "quantifier": "all n, all indices below n(n+1)/2, with IEEE-754 binary64 round-to-nearest-even arithmetic", "why_tests_cant": "Rounding failures occur only at huge indices that tests do not reach; correctness below the threshold is a statement about 2^53 inputs.", "anchors": ["src/layouts/upper_triangular.rs: convert_1d_2d"]}
{"id": "C10", "title": "Access below the diagonal of an upper triangular matrix always panics", "statement": "get, get_mut or the raw conversion at (row, col) with col < row never returns a value or a reference to some other element: it panics.", "quantifier": "all n, all positions with col < row, every memory state", "why_tests_cant": "A universally quantified negative.", "anchors": ["src/layouts/upper_triangular.rs: convert_2d_1d", "src/base_matrix.rs: get_unchecked"]}
{"id": "C11", "title": "The index layout has the same shape and logical indexing", "statement": "index_layout() of any layout succeeds and has the same dim, number_of_elements, convert_1d_2d and convert_2d_1d as the layout, and is its own index layout.", "quantifier": "all nine layouts, all shapes, all indices", "why_tests_cant": "Generic code (addition, eval) relies on it for all shapes.", "anchors": ["src/traits/layout.rs: index_layout", "src/addition.rs: Addition::new", "src/matrix/common_impl.rs: eval"]}
{"id": "C12", "title": "from_dimension yields a layout of exactly the requested dimension, or panics when the shape is impossible", "statement": "from_dimension((rows, cols)) succeeds iff the shape is possible for the layout (vectors: the unit dimension is 1; triangular: square) and then dim() = (rows, cols).", "quantifier": "all (rows, cols), all five base layouts", "why_tests_cant": "Must hold for every requested shape.", "anchors": ["src/layouts/row_vector.rs: from_dimension", "src/layouts/column_vector.rs: from_dimension", "src/layouts/upper_triangular.rs: from_dimension"]}
{"id": "C13", "title": "With overflow checks every index computation is exact or panics", "statement": "With overflow checks enabled, whenever a layout method returns a value, the value equals the mathematical (unbounded integer) formula; it never silently wraps. With checks disabled it is still exact whenever the mathematical values fit in usize.", "quantifier": "all layouts, all machine integers, both build modes", "why_tests_cant": "Overflow needs enormous inputs.", "anchors": ["src/layouts/*.rs", "src/types.rs: IndexType"]}
{"id": "C14", "title": "get_slice returns exactly the requested raw range", "statement": "get_slice(first, last) returns the stored elements first..last in order when first < last <= number of stored elements, and panics for every other pair.", "quantifier": "all containers and windows, all (first, last), every memory state", "why_tests_cant": "All pairs of bounds over all containers.", "anchors": ["src/data_container.rs: DataContainer::get_slice", "src/matrix/base_methods.rs: get_slice"]}
{"id": "C15", "title": "get_slice_mut writes through exactly the requested range", "statement": "Writing values through get_slice_mut(first, last) changes exactly the raw cells first..last of that container, to those values, and no other cell of any container.", "quantifier": "all containers, bounds, values, memory states", "why_tests_cant": "Frame condition over all memory.", "anchors": ["src/data_container.rs: DataContainerMut::get_slice_mut"]}
{"id": "C16", "title": "from_data accepts exactly the containers that are large enough", "statement": "Matrix::from_data(data, layout) succeeds iff layout.number_of_elements() <= data.number_of_elements(), and for contiguous layouts a successful construction guarantees that every in-bounds access stays inside the container.", "quantifier": "all containers and layouts", "why_tests_cant": "All container/layout pairs.", "anchors": ["src/base_matrix.rs: BaseMatrix::new", "src/matrix.rs: from_data"]}
{"id": "C17", "title": "Bounds-checked access is exact", "statement": "On a matrix with a contiguous layout, get/get_mut (row, col) succeed iff row < rows and col < cols (and, for triangular, row <= col), get1d/get1d_mut(i) succeed iff i < number_of_elements, and panic otherwise; they never reach undefined behaviour.", "quantifier": "all matrices with base layouts over all containers, all indices", "why_tests_cant": "All indices including out of range ones.", "anchors": ["src/traits/random_access.rs: get, get1d, get_mut, get1d_mut, assert_dimension"]}
{"id": "C18", "title": "Safe element access never leaves the container, for any layout", "statement": "If from_data succeeded, then get, get_mut, get1d and get1d_mut (safe functions) never read or write outside the container, whatever the layout.", "quantifier": "all containers, all layouts including arbitrary strides, all indices", "why_tests_cant": "Memory safety over all strides.", "anchors": ["src/base_matrix.rs: BaseMatrix::new", "src/traits/random_access.rs"]}
{"id": "C19", "title": "Read your writes, and only your writes", "statement": "After *m.get_mut(r,c) = v, m.get(r,c) returns v and every other element of m and every other matrix with its own storage is unchanged; likewise for get1d_mut.", "quantifier": "all matrices with non-overlapping layouts, all positions, values, memory states", "why_tests_cant": "Frame conditions quantify over all other positions.", "anchors": ["src/traits/random_access.rs", "src/base_matrix.rs: get_unchecked_mut, get1d_unchecked_mut", "src/data_container.rs"]}
{"id": "C20", "title": "A matrix behaves like an abstract array under any operation sequence", "statement": "Any sequence of get, get1d, get_mut-write, get1d_mut-write and in-place updates on a matrix returns the same results as on an abstract function from positions to values, including the panics.", "quantifier": "all histories of any length, all shapes, all base layouts", "why_tests_cant": "Histories are unbounded.", "anchors": ["src/traits/random_access.rs", "src/base_matrix.rs"]}
{"id": "C21", "title": "zeros_from_dim yields a zero matrix of the requested shape", "statement": "MatrixD::zeros_from_dim(rows, cols) with row-major, column-major or triangular layout returns a matrix with dim (rows, cols) all of whose elements read as zero, in fresh storage, leaving all existing matrices unchanged.", "quantifier": "all shapes that can be allocated, all prior memory states", "why_tests_cant": "All shapes.", "anchors": ["src/matrix/constructors.rs: zeros_from_dim", "src/data_container.rs: VectorContainer::new"]}
{"id": "C22", "title": "Vector constructors: shape, length, zeros and argument check", "statement": "RowVectorD/ColumnVectorD::zeros_from_length(n) have dim (1,n)/(n,1), length() n and zero elements; zeros_from_dim(rows, cols) agrees with it when the unit dimension is 1 and panics otherwise.", "quantifier": "all lengths, all (rows, cols)", "why_tests_cant": "All lengths and argument pairs.", "anchors": ["src/matrix/constructors.rs: RowVectorD, ColumnVectorD", "src/matrix/common_impl.rs: length"]}
{"id": "C23", "title": "Fixed-size constructors always succeed with their static shape", "statement": "Every fixed-size zeros_from_dim / zeros_from_length succeeds, has the dimensions of its size types, and reads zero everywhere inside them.", "quantifier": "all 12 fixed matrix and 4 fixed vector types, every memory state", "why_tests_cant": "Every prior memory state and every instantiation.", "anchors": ["src/matrix/constructors.rs: from_zeros_fixed, from_zeros_fixed_vector", "src/traits/size.rs"]}
{"id": "C24", "title": "for_each applies the callable once to each element in 1D order", "statement": "m.for_each(f) calls a stateful f exactly number_of_elements times, the k-th call on the element with 1D index k, stores its results there, and touches nothing else.", "quantifier": "all matrices with non-overlapping layouts, all stateful callables, all memory states", "why_tests_cant": "Quantifies over all callables and shapes.", "anchors": ["src/matrix/base_methods.rs: for_each"]}
{"id": "C25", "title": "Random fill assigns successive samples in 1D order", "statement": "fill_from_rand_standard_normal stores the k-th drawn scalar at 1D index k; real scalars take one draw, complex scalars two draws (real part first, then imaginary), so the generator is advanced by n (resp. 2n) draws and a seeded generator gives a reproducible matrix independent of the physical layout.", "quantifier": "all generators (as state machines), all matrices", "why_tests_cant": "All generator states and shapes.", "anchors": ["src/matrix/random.rs", "src/tools.rs: RandScalar"]}
{"id": "C26", "title": "A block is the requested submatrix", "statement": "For a row-major or column-major parent, block(top_left, dim) has dimension dim and block.get(i,j) equals parent.get(top_left.0+i, top_left.1+j), at every later memory state.", "quantifier": "all parents, all in-range blocks, all (i,j), all memory states", "why_tests_cant": "All blocks of all shapes.", "anchors": ["src/matrix/matrix_slices.rs: block", "src/matrix/constructors.rs: from_pointer"]}
{"id": "C27", "title": "block rejects exactly the blocks that do not fit", "statement": "block/block_mut panic when top_left + dim exceeds the parent's dimension in either coordinate, and succeed for every non-empty block that fits.", "quantifier": "all parents, all (top_left, dim)", "why_tests_cant": "All argument tuples.", "anchors": ["src/matrix/matrix_slices.rs: block, block_mut"]}
{"id": "C28", "title": "A block of a block is the corresponding block of the parent", "statement": "b.block(tl2, d2) of b = m.block(tl1, d1) satisfies get(i,j) = m.get(tl1+tl2+(i,j)).", "quantifier": "all parents, all nested in-range blocks, all (i,j)", "why_tests_cant": "The existing double-slice test only reads row 0, where the defect is invisible.", "anchors": ["src/matrix/matrix_slices.rs: block_matrix!(ArbitraryStrideRowMajor, ...)", "src/layouts/arbitrary_stride_row_major.rs: stride"]}
{"id": "C29", "title": "Blocks nested to any depth stay inside the parent's memory", "statement": "Starting from a row-major or column-major matrix and taking blocks of blocks to any depth, every view's memory window lies inside its parent's window and every in-range access of it stays inside the window.", "quantifier": "all parents, all nesting depths, all arguments", "why_tests_cant": "Unbounded nesting.", "anchors": ["src/matrix/matrix_slices.rs", "src/matrix/constructors.rs: from_pointer"]}
{"id": "C30", "title": "Writes through a mutable block update exactly the parent's element", "statement": "Writing v at (i,j) through block_mut(top_left, dim) makes parent.get(top_left+(i,j)) = v and leaves every other parent element unchanged.", "quantifier": "all row-/column-major parents, blocks, positions, values", "why_tests_cant": "Frame conditions over all positions.", "anchors": ["src/matrix/matrix_slices.rs: block_mut"]}
{"id": "C31", "title": "split_in_four_mut partitions the matrix", "statement": "For 0 < split < dim, the four blocks have the documented shapes, block element (i,j) is the parent element at the block's origin plus (i,j), every parent element belongs to exactly one block, and a write through one block is visible in the parent and changes no element of the other three.", "quantifier": "all shapes, all interior split points, all positions and values", "why_tests_cant": "All shapes and split points.", "anchors": ["src/matrix/matrix_slices.rs: split_in_four_mut"]}
{"id": "C32", "title": "split_in_four_mut rejects invalid split points", "statement": "A split point outside the matrix makes split_in_four_mut panic rather than return views outside the matrix.", "quantifier": "all shapes, all split points, both build modes", "why_tests_cant": "All split points in both modes.", "anchors": ["src/matrix/matrix_slices.rs: split_in_four_mut"]}
{"id": "C33", "title": "The four views of split_in_four_mut own disjoint memory", "statement": "The four mutable views are independently accessible: no two of them expose the same memory cell through any safe method, including get_slice_mut.", "quantifier": "all shapes and interior split points", "why_tests_cant": "All shapes; a test on elements does not see overlapping raw windows.", "anchors": ["src/matrix/matrix_slices.rs: split_in_four_mut", "src/data_container.rs: get_slice_mut"]}
{"id": "C34", "title": "Matrix addition is elementwise and rejects different dimensions", "statement": "a + b panics iff a.dim() != b.dim(); otherwise it has that dim and (a+b).get(r,c) = a.get(r,c) + b.get(r,c), with the scalar type's own addition, in that operand order.", "quantifier": "all expressions a, b with the same index layout type, all positions, all memory states", "why_tests_cant": "All pairs of expressions.", "anchors": ["src/addition.rs"]}
{"id": "C35", "title": "1D and 2D access agree on every expression", "statement": "On every expression built from +, scalar multiplication and references, get1d(k) equals get at the k-th logical position of the expression's layout.", "quantifier": "all expression trees of any depth, mixing contiguous and strided operands with the same index layout", "why_tests_cant": "Unbounded trees.", "anchors": ["src/addition.rs: get1d_unchecked", "src/scalar_mult.rs: get1d_unchecked", "src/matrix_ref.rs"]}
{"id": "C36", "title": "Scalar multiplication is elementwise for all operand forms", "statement": "s*a, s*&a, a*s and &a*s all have a.dim() and element (r,c) equal to s * a.get(r,c) (scalar on the left).", "quantifier": "all scalars, all expressions, all positions", "why_tests_cant": "All expressions.", "anchors": ["src/scalar_mult.rs"]}
{"id": "C37", "title": "eval computes the expression", "statement": "e.eval() of any successfully built expression e returns a new matrix of the same dim, in the index layout, whose element (r,c) is the expression evaluated at (r,c) of the leaves (any scalar type, no algebraic laws assumed), and whose 1D elements equal those of e.", "quantifier": "all expression trees, all shapes, all memory states", "why_tests_cant": "Unbounded trees and shapes.", "anchors": ["src/matrix/common_impl.rs: eval"]}
{"id": "C38", "title": "eval has no side effects", "statement": "eval, get, block, + and scalar multiplication leave every existing element of every matrix unchanged; eval's result uses fresh storage, so later writes to it never change its operands and later writes to operands never change it.", "quantifier": "all expressions, all later writes", "why_tests_cant": "Frame over all of memory and later histories.", "anchors": ["src/matrix/common_impl.rs: eval"]}
{"id": "C39", "title": "Results do not depend on operands' physical layout", "statement": "Two expressions of the same shape whose corresponding leaves read equal at every position evaluate to equal matrices, even when leaves differ in strides, windows or storage.", "quantifier": "all pairs of expressions with the same tree, all layouts with the same index layout", "why_tests_cant": "Relational property over pairs of programs.", "anchors": ["src/addition.rs", "src/matrix/common_impl.rs: eval"]}
{"id": "C40", "title": "References behave like the matrices they refer to", "statement": "Replacing an operand by a reference to it (&a for a, Matrix::from_ref) anywhere in an expression changes no dimension, no element, no panic and no eval result.", "quantifier": "all expressions, all subsets of operands replaced", "why_tests_cant": "All expressions.", "anchors": ["src/matrix_ref.rs", "src/matrix.rs: from_ref", "src/addition.rs", "src/scalar_mult.rs"]}
{"id": "C41", "title": "eval succeeds for every dynamic matrix", "statement": "eval on a Dynamic x Dynamic expression of allocatable size never panics, whatever its layout.", "quantifier": "all layouts, all shapes", "why_tests_cant": "All layouts and shapes.", "anchors": ["src/matrix/common_impl.rs: eval", "src/layouts/column_vector.rs: from_dimension"]}
{"id": "C42", "title": "matmul rejects incompatible dimensions and accepts all compatible ones", "statement": "matmul(alpha, a, b, beta, c) panics iff not (a.cols = b.rows and c.rows = a.rows and c.cols = b.cols), before touching any memory.", "quantifier": "all strided-layout operands, all dims", "why_tests_cant": "All dimension triples.", "anchors": ["src/matrix_multiply.rs: matmul"]}
{"id": "C43", "title": "matmul computes alpha*A*B + beta*C", "statement": "For contiguous matrices, contiguous or strided vectors as operands, after matmul c.get(i,j) = alpha * sum_k a.get(i,k)*b.get(k,j) + beta * old c.get(i,j) (exact arithmetic, kernel contract of the matrixmultiply crate assumed).", "quantifier": "all shapes, all values, all combinations of those layouts", "why_tests_cant": "All shapes and layouts.", "anchors": ["src/matrix_multiply.rs: matmul_impl"]}
{"id": "C44", "title": "matmul changes nothing but C", "statement": "matmul leaves a, b, every other matrix, and every cell of c's container that is not an element of c unchanged.", "quantifier": "all operands, all memory states", "why_tests_cant": "Frame over all memory.", "anchors": ["src/matrix_multiply.rs: matmul_impl"]}
{"id": "C45", "title": "matmul works on block views", "statement": "matmul with operands obtained from block/block_mut computes the product of the blocks.", "quantifier": "all blocks of all matrices", "why_tests_cant": "No existing test multiplies views.", "anchors": ["src/matrix_multiply.rs", "src/layouts/arbitrary_stride_row_major.rs: stride"]}
{"id": "C46", "title": "matmul never accesses memory outside its operands' containers", "statement": "For operands with row-/column-major layouts (contiguous or arbitrary stride) or contiguous vectors that from_data accepted, every address passed to the kernel lies inside the operand's container.", "quantifier": "all shapes, strides, containers", "why_tests_cant": "Memory safety over all strides.", "anchors": ["src/matrix_multiply.rs", "src/base_matrix.rs: new"]}
{"id": "C47", "title": "matmul on the blocks of one split matrix does not alias", "statement": "Using blocks of split_in_four_mut as a, b and c of matmul never makes the kernel write cells it also reads as inputs.", "quantifier": "all shapes and split points", "why_tests_cant": "Aliasing is invisible to value tests on small inputs.", "anchors": ["src/matrix_multiply.rs", "src/matrix/matrix_slices.rs: split_in_four_mut"]}
{"id": "C48", "title": "dot returns the matrix product in fresh storage", "statement": "a.dot(b) for matrix x matrix, row vector x matrix and matrix x column vector panics on mismatched inner dimensions and otherwise returns a new matrix/vector of dim (a.rows, b.cols) equal to the product, leaving existing memory unchanged.", "quantifier": "all shapes and values, contiguous operands", "why_tests_cant": "All shapes.", "anchors": ["src/matrix_multiply.rs: dot_impl"]}
{"id": "C49", "title": "dot is associative and distributes over sums and scalars", "statement": "In exact arithmetic (a.dot(b)).dot(c) = a.dot(b.dot(c)), a.dot((b1+b2).eval()) = (a.dot(b1)+a.dot(b2)).eval(), and (s*a).eval().dot(b) = (s*a.dot(b)).eval().", "quantifier": "all conformable shapes and values", "why_tests_cant": "Algebraic law over all inputs.", "anchors": ["src/matrix_multiply.rs", "src/addition.rs", "src/scalar_mult.rs"]}
{"id": "C50", "title": "No safe program reaches undefined behaviour (overflow checks on, no arbitrary-stride from_data)", "statement": "With overflow checks on, any program that uses only safe functions, does not pass an arbitrary-stride layout to from_data and does not multiply overlapping split views never reads or writes outside an allocation or a view's window, whatever it does and however long it runs.", "quantifier": "all histories of construct/read/write/slice/block/split/add/scale/eval/for_each/matmul/dot operations of any length", "why_tests_cant": "Unbounded histories.", "anchors": ["src/base_matrix.rs", "src/traits/random_access.rs", "src/matrix/*.rs", "src/matrix_multiply.rs"]}
{"id": "C51", "title": "Oversized dimensions are rejected in every build mode", "statement": "zeros_from_dim(rows, cols) with rows*cols beyond usize panics instead of returning a matrix whose in-bounds accesses leave its storage, with overflow checks on or off.", "quantifier": "all shapes, both build modes", "why_tests_cant": "Needs dimensions near 2^32 in a release build.", "anchors": ["src/matrix/constructors.rs: zeros_from_dim", "src/layouts/row_major.rs: number_of_elements"]}
{"id": "C52", "title": "mat! and vector! macros build zero matrices of the requested shape and layout", "statement": "mat![T, dim], mat![T, dim, layout], vector![T, n] and vector![T, n, orientation] are zero, have the requested shape, default to row-major resp. column vector, and rand_mat!/rand_vector! have the same shape and hold the drawn samples in 1D order.", "quantifier": "all dims, lengths and generators", "why_tests_cant": "All shapes.", "anchors": ["src/macros.rs"]}
{"id": "C53", "title": "The first entry is at raw index 0", "statement": "The raw physical location of the first matrix entry is 0: convert_1d_raw(0) = 0 and convert_2d_raw(0,0) = 0.", "quantifier": "all non-empty layouts", "why_tests_cant": "All layouts and shapes.", "anchors": ["src/traits/layout.rs (module documentation)", "src/layouts/upper_triangular.rs"]}
{"id": "C54", "title": "from_pointer claims exactly the memory its positions need", "statement": "The slice created by from_pointer has length 1 + the largest raw index of a position of the new matrix when both dimensions are positive, so it covers every element and nothing beyond the last one.", "quantifier": "all dims >= 1, all strides", "why_tests_cant": "All shapes and strides.", "anchors": ["src/matrix/constructors.rs: from_pointer"]}
{"id": "C55", "title": "Raw slices and element access agree", "statement": "m.get_slice(k, k+1)[0] with k = convert_2d_raw(r,c) equals m.get(r,c); with k = convert_1d_raw(i) it equals m.get1d(i).", "quantifier": "all matrices, all positions", "why_tests_cant": "All positions.", "anchors": ["src/matrix/base_methods.rs: get_slice"]}
{"id": "C56", "title": "length() of a vector is its logical dimension", "statement": "length() of a row/column vector equals the non-unit component of dim(), both on Matrix and on the underlying BaseMatrix, whatever the size of the container.", "quantifier": "all vectors over all accepted containers", "why_tests_cant": "Containers may be larger than the vector.", "anchors": ["src/matrix/common_impl.rs: length", "src/base_matrix.rs: vector_length"]}
{"id": "C57", "title": "Views stay coherent under any interleaving of writes", "statement": "For any sequence of writes through the parent, through any blocks of it, or through the four split views, each read through any of these returns the last value written to that parent position through any of them.", "quantifier": "all histories of writes/reads through parent and first-level views of row-/column-major matrices", "why_tests_cant": "Unbounded interleavings.", "anchors": ["src/matrix/matrix_slices.rs"]}
{"id": "C58", "title": "Overflow checks only ever add panics", "statement": "If no operation of a program panics in a build with overflow checks, the build without them makes the same observations, ends in the same memory and has undefined behaviour exactly when the first does.", "quantifier": "all programs over all modelled operations, all start states, both build modes", "why_tests_cant": "Relates two builds over unbounded histories.", "anchors": ["src/layouts/*.rs", "src/base_matrix.rs", "src/matrix/*.rs", "src/matrix_multiply.rs"]}
{"id": "C59", "title": "Programs do what the documentation says: simulation by an abstract machine", "statement": "An abstract machine gives every operation its documented meaning on named stores, without the library's index arithmetic, pointers or layouts. With overflow checks, every program observes exactly what the machine says and ends in the memory the machine says; without overflow checks the same holds for programs in which nothing panics. Left out are the uses for which the code is wrong: MatrixD with column-vector layout, strided layouts beyond the end of their data, empty blocks, blocks and products of views with gaps, products into a factor.", "quantifier": "all programs of any length over all modelled operations, all scalar types and kernels", "why_tests_cant": "Functional correctness over unbounded histories of all operations.", "anchors": ["src/matrix/*.rs", "src/base_matrix.rs", "src/matrix_multiply.rs", "src/addition.rs", "src/scalar_mult.rs"]}
{"id": "C60", "title": "A mutable reference is transparent", "statement": "A matrix wrapped in any number of MatrixRefMut behaves like the matrix itself: any history of reads, writes and updates, each through its own number of references, gives the responses of an abstract array, leaves the matrix holding the resulting array, and touches nothing else. Shape, size types and length are those of the matrix.", "quantifier": "all matrices, all nesting depths, all histories", "why_tests_cant": "Unbounded histories and nesting.", "anchors": ["src/matrix_ref.rs", "src/matrix/common_impl.rs", "src/traits/random_access.rs"]}
{"id": "C61", "title": "Contract of the unsafe accessors", "statement": "Inside the bounds the unchecked accessors equal the checked ones (values and places). Outside, they address the cell at the computed offset if the container reaches that far and are undefined behaviour otherwise; a column index beyond the end of a row of a row-major matrix continues in the next rows; below the diagonal of a triangle they panic.", "quantifier": "all layouts, positions, indices and containers", "why_tests_cant": "Unbounded positions, both build modes.", "anchors": ["src/traits/random_access.rs", "src/base_matrix.rs", "src/data_container.rs"]}
{"id": "C62", "title": "The reference product of the unit tests agrees with matmul", "statement": "The triple loop that the unit tests compare matmul with computes alpha*A*B + beta*C in exact arithmetic and changes nothing but C, for all layouts that are not triangular; wherever stride() is right, matmul leaves exactly the same memory.", "quantifier": "all shapes, layouts, scalars and contents over a commutative semiring", "why_tests_cant": "The unit tests check three shapes; this is the same comparison for all.", "anchors": ["src/matrix_multiply.rs: matmul_expect, matmul_test, row_matvec_test, col_matvec_test"]}
{"id": "C63", "title": "The crate's unit tests and documented examples hold for all scalars", "statement": "Every unit test (other than the products up to rounding) and every example of src/examples.rs, including those that must panic, holds in both build modes, for every scalar type, with arbitrary scalars in place of the literals and arbitrary random numbers.", "quantifier": "all scalars, random draws, build modes and scalar types", "why_tests_cant": "Connects the model to the behaviour the authors checked or documented.", "anchors": ["src/examples.rs", "src/macros.rs", "src/addition.rs", "src/scalar_mult.rs", "src/matrix/matrix_slices.rs", "src/layouts/upper_triangular.rs"]}
{"id": "C64", "title": "Scalars never decide where the library goes", "statement": "Programs that differ only in their scalars (even in the scalar type and its arithmetic) panic at the same operations, have undefined behaviour at the same operation, create the same matrices and buffers of the same sizes and show the same number of values. If the scalars are related by any relation that arithmetic and kernels respect, so are all observations and all cells of memory; in particular applying a homomorphism to all scalars of a program applies it to everything observed.", "quantifier": "all programs over all modelled operations, all pairs of scalar types, all relations respecting the arithmetic, both build modes", "why_tests_cant": "Compares two runs over unbounded histories and all scalar types.", "anchors": ["src/traits.rs", "src/base_matrix.rs", "src/matrix/*.rs", "src/matrix_multiply.rs"]}
{"id": "C65", "title": "Expressions are linear combinations: the module laws", "statement": "Every element of a lazily evaluated expression is the sum over its matrices of total coefficient times element, so expressions with equal coefficients (reassociated, reordered, factored out, distributed, with zero multiples) give equal elements by position, by 1D index and after eval.", "quantifier": "all expressions of any depth over any semiring, all layouts and memories", "why_tests_cant": "Unbounded expression depth.", "anchors": ["src/addition.rs", "src/scalar_mult.rs", "src/matrix/base_methods.rs: eval"]}
{"id": "C66", "title": "eval makes contiguous copies that can be multiplied", "statement": "Evaluating an evaluated matrix copies it into new storage with the same layout and elements. Evaluating two expressions of matrices and blocks and multiplying the results with dot gives the product of their values; for two blocks, the product of the submatrices.", "quantifier": "all expressions, blocks, shapes and contents over a semiring", "why_tests_cant": "All shapes; this is the use of blocks in products that is right (cf. the wrong products of blocks).", "anchors": ["src/matrix/base_methods.rs: eval", "src/matrix_multiply.rs: dot", "src/matrix/matrix_slices.rs"]}
{"id": "C67", "title": "Rounding errors stay within the standard bounds", "statement": "In floating point with unit roundoff u (no overflow or underflow), every element of an expression and of its evaluation differs from the exact value by at most ((1+u)^depth - 1) times the expression with absolute values; the reference product of the unit tests by at most ((1+u)^(k+2) - 1)(|alpha||A||B| + |beta||C|); matmul by the error of the kernel, and matmul and reference product from each other by the sum of the two bounds.", "quantifier": "all expressions, shapes, contents, every rounded arithmetic (in particular p-digit binary floating point with unbounded exponents)", "why_tests_cant": "Unit tests compare a few random products up to 100 ulps.", "anchors": ["src/matrix_multiply.rs: matmul_expect, matmul_test", "src/addition.rs", "src/scalar_mult.rs"]}
{"id": "C68", "title": "The four views of split_in_four_mut may be used in any order (Stacked Borrows)", "statement": "After split_in_four_mut, any sequence of element reads and writes through the four views is free of undefined behaviour under the Stacked Borrows aliasing rules.", "quantifier": "all matrices, interior split points, sequences of accesses, states of the borrow stacks in which the matrix may be written", "why_tests_cant": "Aliasing violations have no visible effect in an ordinary test run; the sequences are unbounded.", "anchors": ["src/matrix/matrix_slices.rs: split_in_four_mut, test_disjoint_slices", "src/matrix/constructors.rs: from_pointer", "src/data_container.rs: get_unchecked_mut"]}
{"id": "C69", "title": "The four views of split_in_four_mut may be used in any order (Tree Borrows)", "statement": "After split_in_four_mut, any sequence of element reads and writes through the four views is free of undefined behaviour under the Tree Borrows aliasing rules.", "quantifier": "all matrices, interior split points, sequences of accesses, states of the borrow tree in which the matrix may be written", "why_tests_cant": "As above, for the more permissive of the two published aliasing models.", "anchors": ["src/matrix/matrix_slices.rs: split_in_four_mut, test_disjoint_slices", "src/matrix/constructors.rs: from_pointer", "src/data_container.rs: get_unchecked_mut"]}
{"id": "C70", "title": "Blocks and element accessors obey the aliasing rules", "statement": "Every program that the borrow checker admits over the accessors of a row- or column-major matrix and over non-empty blocks of it (one mutable view at a time, or several shared views) is free of undefined behaviour under Stacked Borrows and under Tree Borrows.", "quantifier": "all contiguous matrices, blocks, positions, unbounded sequences of views and accesses", "why_tests_cant": "As above.", "anchors": ["src/matrix/matrix_slices.rs: block, block_mut", "src/matrix/constructors.rs: from_pointer", "src/data_container.rs"]}
{"id": "C71", "title": "Threads that own different views do not interfere", "statement": "Any number of threads, each with its own matrix or view without cells in common with the others and each choosing its next operation from the responses it has had, never reach undefined behaviour under any schedule; each gets the responses and leaves the elements it would get and leave running alone, no two access the same place, and schedules with the same number of moves per thread end in the same memory. The four views of split_in_four_mut are such matrices.", "quantifier": "all numbers of threads, adaptive programs, schedules, matrices, memories, both build modes", "why_tests_cant": "Interleavings cannot be tested exhaustively; disjoint mutable views exist to be used by several threads.", "anchors": ["src/matrix/matrix_slices.rs: split_in_four_mut", "src/traits/random_access.rs", "src/base_matrix.rs"]}
{"id": "C72", "title": "Row-major and column-major code are mirror images", "statement": "Exchanging the roles of rows and columns (row-major with column-major, row vector with column vector, strides swapped, same data) commutes with everything: conversions, element histories, blocks, sums and reads of expressions, evaluation for the matrix layouts; and multiplying the mirror images in the opposite order does to memory exactly what the product does, including panics and undefined behaviour.", "quantifier": "all layouts but the triangular one, all matrices, memories, arguments (in range or not), both build modes, all kernels that treat the factors alike", "why_tests_cant": "A mistake in one of the two parallel implementations, such as a stride of the wrong axis, breaks the symmetry at once.", "anchors": ["src/layouts.rs", "src/base_matrix.rs", "src/matrix/matrix_slices.rs", "src/matrix_multiply.rs: matmul!"]}
{"id": "C73", "title": "Only owning operations allocate; lazy ones share storage", "statement": "In any program, constructors, eval and dot make one allocation each, which the new matrix has to itself from its first to its last cell; views, references, sums and multiples make none; no operation changes the size of an allocation, moves an existing value, or writes outside the window of the matrix it is documented to write to; a panicking operation changes nothing.", "quantifier": "all states (reachable or not), operations, programs, kernels, both build modes", "why_tests_cant": "Lazy evaluation without copies is the crate's stated purpose; a hidden copy or a shared buffer changes the meaning of later writes.", "anchors": ["src/data_container.rs: VectorContainer::new, ArrayContainer::new", "src/matrix.rs: eval", "src/matrix_multiply.rs: dot", "src/matrix/matrix_slices.rs", "src/addition.rs", "src/scalar_mult.rs"]}
{"id": "C74", "title": "Safe code stays defined with other implementations of the public traits", "statement": "The layout, container and matrix traits are public and not unsafe. With any implementation of them, safe access (get, get1d, get_mut, get1d_mut, for_each, get_slice, get_slice_mut), sums, multiples and eval never reach undefined behaviour; eval returns the values of the expression; the crate's own layouts and containers are instances of the same generic code.", "quantifier": "all implementations given by pure functions, all expressions over them, all memories and arguments, both build modes", "why_tests_cant": "In Rust a safe trait may be implemented by anyone without writing unsafe, so unsafe code must not trust it.", "anchors": ["src/traits/layout.rs: LayoutType, BaseLayoutType, Layout", "src/data_container.rs: DataContainer, DataContainerMut", "src/traits/random_access.rs", "src/base_matrix.rs", "src/addition.rs: Addition::new", "src/matrix/common_impl.rs: eval"]}
{"id": "C75", "title": "Products and views stay defined with other implementations of the public traits", "statement": "matmul and dot exist for every StridedLayoutType over every DataContainer; block, block_mut and split_in_four_mut for the crate's layouts over every DataContainer. With any implementation of these safe traits they never reach undefined behaviour; products are the products of the elements that get gives; a block's element (i, j) is what get gives for the matrix at the shifted position; the crate's own matrices are instances of the same generic code.", "quantifier": "all implementations given by pure functions (negative strides and pointers into the middle of a buffer included), all kernels, all memories and arguments, both build modes", "why_tests_cant": "matmul passes stride() and get_pointer() of a safe trait to an unsafe kernel.", "anchors": ["src/matrix_multiply.rs: MatMul::matmul, Dot::dot", "src/matrix/matrix_slices.rs: block, block_mut, split_in_four_mut", "src/traits/layout.rs: StridedLayoutType", "src/data_container.rs: DataContainer::get_pointer"]}
{"id": "C76", "title": "Every allocation is freed exactly once and never used afterwards", "statement": "The library has no Drop implementation: storage goes with the value that owns it, and views, references and expressions carry the lifetimes of what they borrow. In a program that also drops values, moves them into expressions and drops its own slices, as far as the borrow checker admits, no freed allocation is read, written or freed again; each allocation of the library is freed at most once and belongs to exactly one value until then; when all values are gone everything has been freed (also after operators that panic); the library never frees the program's own slices; and the results are those of the program without drops.", "quantifier": "all programs of any length with drops at any place, all scalars and kernels, both build modes", "why_tests_cant": "Views hold raw pointers or windows of memory that belongs to another value; only the lifetimes in the signatures keep it alive.", "anchors": ["src/matrix/matrix_slices.rs: block, block_mut, split_in_four_mut", "src/matrix.rs: from_ref", "src/addition.rs: Add for Matrix", "src/scalar_mult.rs: Mul", "src/data_container.rs: SliceContainer, SliceContainerMut"]}
{"id": "C77", "title": "Shared or mutable: what the borrow checker promises about programs using the library", "statement": "Mutable views (block_mut, split_in_four_mut, matrices on mutable slices) hold raw windows of memory that other values also show; the only protection is Rust's rule that a value is either shared or mutably borrowed. In a program that the borrow checker accepts no operation has undefined behaviour (in particular the operands of matmul do not overlap), and whatever is done through one value changes no element of any other value that may still be read.", "quantifier": "all programs of any length with moves, drops, shared and mutable borrows, all scalars and kernels, both build modes", "why_tests_cant": "It is the reason why safe callers may use the library's views at all; split_in_four_mut hands out four mutable views of one matrix by unsafe code, so the compiler alone does not guarantee it.", "anchors": ["src/matrix/matrix_slices.rs: block_mut, split_in_four_mut", "src/data_container.rs: SliceContainerMut, get_slice_mut", "src/matrix_multiply.rs: MatMul"]}
{"id": "C78", "title": "Panics that are caught: what the matrices hold after an operation was left by unwinding", "statement": "The library runs code of the program inside its loops: the callable of for_each, the random number generator of the fill functions, the arithmetic of the scalar type in eval. If that code panics at any element and the program catches the panic, exactly the elements visited before the panic have been updated, the one at the panic is what the code left there, all others and all other memory are unchanged; eval leaves all old memory unchanged and nothing allocated; matmul panics before it writes anything; and a program that goes on afterwards still has no undefined behaviour.", "quantifier": "all sound matrices without overlapping elements, all callables, generators and partial arithmetics, all crash points, all expressions, all programs of any length, both build modes", "why_tests_cant": "Unsafe code that is interrupted in the middle is a classic source of broken invariants; programs (and test harnesses) catch panics and go on using the matrices.", "anchors": ["src/matrix/base_methods.rs: for_each", "src/matrix/random.rs: fill_from_rand_standard_normal", "src/matrix/common_impl.rs: eval", "src/matrix_multiply.rs: MatMul"]}
{"id": "C79", "title": "Macro arguments are evaluated once", "statement": "The macros are used like functions: the dimension or length argument of mat!, rand_mat!, vector! and rand_vector! is evaluated exactly once, and the matrix has the shape that this evaluation yields.", "quantifier": "all argument expressions with any effect on the program's state (including drawing from the generator that fills the matrix, and panics), all states, layouts and scalars, both build modes", "why_tests_cant": "mat![f64, next_shape()] with an expression that reads input or draws random numbers silently gives a matrix of a shape nobody asked for.", "anchors": ["src/macros.rs: mat, rand_mat, vector, rand_vector"]}
{"id": "C80", "title": "Results in f32 and f64 are within the standard bounds, in any order of summation, or are not finite", "statement": "With scalars that follow IEEE-754 (correct rounding to nearest even, gradual underflow, infinities and NaN), every element of an expression, of eval, of matmul, of dot and of the reference product of the unit tests is within the a-priori error bound of its exact value whenever it is finite; it is finite when no intermediate result can reach the limit of the format; and it is exact when the numbers are whole and small. For products this holds whatever the order, blocking and fusing of operations in the kernel, so matmul and the reference product differ by at most twice the bound.", "quantifier": "all binary formats (f32 and f64 among them), all scalar types that follow the standard, all expressions, layouts, sizes, memories, kernels that sum in any order (which may differ from element to element), alpha and beta, both build modes, all pointer widths", "why_tests_cant": "The tests compare matmul with a naive loop up to a tolerance; without such a bound a kernel that sums in another order, or uses fused multiply-adds, could fail them, or a large dimension could make the tolerance meaningless.", "anchors": ["src/matrix_multiply.rs: matmul, MatMul", "src/matrix/common_impl.rs: eval", "src/addition.rs", "src/scalar_mult.rs", "src/matrix_multiply.rs: matmul_expect (tests)"]}
{"id": "C81", "title": "Products by any algorithm that adds the right terms, and complex scalars (c32, c64)", "statement": "With complex scalars whose parts follow IEEE-754 and whose sums and products are those of num_complex, both parts of every element of an expression, of eval, of matmul, of dot and of the reference product of the unit tests are within the a-priori error bound of their exact value whenever they are finite; they are finite when no intermediate result can reach the limit of the format; and exact when the numbers are whole and small. For products this holds for every kernel that computes each part by some algorithm that adds up the right terms; with real scalars likewise, the orders of C80 being among these algorithms.", "quantifier": "all binary formats, all scalar types that follow the standard, all expressions, layouts, sizes, memories, kernels that use any tree of sums, differences, products and fused multiply-adds that expands to the right terms (a different one for every element if need be), alpha and beta, both build modes, all pointer widths", "why_tests_cant": "Two of the four scalar types the crate implements MatMul for are complex; their product kernels do more operations, with subtractions, and cannot be covered by a bound for real sums.", "anchors": ["src/matrix_multiply.rs: matmul, MatMul", "src/matrix/common_impl.rs: eval", "src/addition.rs", "src/scalar_mult.rs", "src/matrix_multiply.rs: matmul_expect (tests)"]}
{"id": "C82", "title": "Expressions are evaluated in a single pass without temporaries", "statement": "eval of an expression makes exactly one allocation (the result), then visits the positions in 1D order; at each it reads every matrix occurring in the expression once, does the additions and multiplications of the expression, and stores the value; nothing else is read, written, computed or allocated. For n elements that is n reads per matrix, n additions per +, n multiplications per *, and n writes. No cell is both read and written, none is written twice, and none is read twice if the matrices of the expression do not overlap. Element access reads every matrix once at that position; for_each reads and writes every element once in 1D order.", "quantifier": "all expressions (any shape and depth), layouts, sizes, memories, scalars, both build modes, all pointer widths", "why_tests_cant": "This is the documented purpose of the lazy expressions (src/lib.rs:16-21: 'executed in a single pass without creating temporaries'); a hidden temporary or a second pass is invisible to properties about values.", "anchors": ["src/lib.rs:16-21", "src/matrix/common_impl.rs: eval", "src/addition.rs", "src/scalar_mult.rs", "src/matrix/base_methods.rs: for_each"]}
{"id": "C83", "title": "atan2 returns the angle of a point for every scalar type", "statement": "y.atan2(x) of HScalar returns, for every scalar type, and is for real scalars the angle of the point (x, y) in (-pi, pi].", "quantifier": "all four scalar types, all values", "why_tests_cant": "atan2 is the only method that HScalar adds to cauchy::Scalar; generic code over HScalar can call it on any scalar type. The implementation for f32 and f64 looks recursive.", "anchors": ["src/types.rs:6-50"]}
{"id": "C84", "title": "Random matrices hold independent samples of the distribution", "statement": "If the numbers that the generator and the distribution yield one after the other are independent with distribution mu, then all elements of all matrices filled one after the other by fill_from_rand_standard_normal are independent with distribution mu; for complex scalars all real and imaginary parts are. The same for rand_mat! and rand_vector!.", "quantifier": "all probability spaces, distributions, generators, lists of matrices without common cells (any layouts, sizes, views), scalars, both build modes, all pointer widths", "why_tests_cant": "Documented: 'Fill a matrix with normally distributed random numbers'; 'the generator and distribution are separately applied to obtain the real and imaginary part'. Reusing a sample, or correlating real and imaginary parts, is not visible in shapes or ranges.", "anchors": ["src/matrix/random.rs:21-25", "src/tools.rs:7-48", "src/macros.rs:30-40,56-66"]}
{"id": "C85", "title": "Where undefined behaviour comes from, in every build and for every layout", "statement": "A program of safe operations has undefined behaviour exactly if, after some prefix that runs without, the next operation is the culprit: its first access that does not succeed starts or ends outside its container, or it multiplies matrices and breaks the contract of the matrix product (an element looked for outside a container, two elements of the result at one place, or an element of a factor at the place of one of the result). An operation that is not a culprit is harmless whatever was done before.", "quantifier": "all programs of all modelled safe operations, of any length, all layouts including arbitrary strides and wrapped sizes, empty blocks and splits, all kernels, both build modes, all pointer widths", "why_tests_cant": "C50 is false, and C50_exact covers only builds with overflow checks and layouts without arbitrary strides. Who wants to use the crate safely needs to know all the causes, and that there are no others.", "anchors": ["src/base_matrix.rs", "src/data_container.rs", "src/matrix/matrix_slices.rs", "src/traits/random_access.rs", "src/matrix_multiply.rs"]}
{"id": "C86", "title": "Safe code stays defined with implementations that change their answers", "statement": "The traits for layouts, containers and matrices can be implemented by types with interior mutability (a Cell, a counter), so that the same question gets different answers. Whatever such a layout answers, as long as it keeps at every moment the contract that C74 asks of unchanging layouts, safe reads and evaluation are defined.", "quantifier": "all implementations with any state, all initial states and sequences of answers, all expressions built from them, all memories, both build modes, all pointer widths", "why_tests_cant": "The library asks the layout first for the dimension, to check the indices, and then for the place. Nothing in the types says that the two answers fit together. C74 and C75 treat implementations as functions.", "anchors": ["src/traits/random_access.rs", "src/base_matrix.rs", "src/addition.rs", "src/matrix/base_methods.rs", "src/data_container.rs", "src/matrix_multiply.rs"]}
{"id": "C87", "title": "Views of views obey the aliasing rules, with protectors", "statement": "A program that holds a matrix, a chain of mutable views each made by block_mut from the one before, and shared views made by block from the last of them or from each other, and that reads and writes elements, takes slices, passes views to functions and gives views up, in any order that the borrow checker admits, never has undefined behaviour under Stacked Borrows or Tree Borrows with protectors.", "quantifier": "all row- and column-major matrices, all memories, all lengths of the chain, all numbers of shared views, all sequences of operations with non-empty blocks, all states of the aliasing models in which the program may write to the matrix, both build modes (without overflow checks: blocks whose corner does not wrap), all pointer widths", "why_tests_cant": "Every view is rebuilt from a raw pointer, so the borrow checker only sees lifetimes; whether the references that are really used may be used is up to the library. C68 to C70 treat one level of views and leave protectors out, which add errors whenever a function takes a reference.", "anchors": ["src/data_container.rs:53-77", "src/data_container.rs:140-228", "src/matrix/matrix_slices.rs:8-74", "src/matrix/constructors.rs:131-165"]}
{"id": "C88", "title": "Protectors change nothing for the four parts of a split", "statement": "For a row-major matrix split by split_in_four_mut, the sequences of element accesses through the four parts that are free of undefined behaviour under Stacked Borrows with protectors, and those under Tree Borrows with protectors, are exactly those that are free of it without protectors (C68, C69), whether the matrix is a parameter of the running function or not.", "quantifier": "all row-major matrices, all memories, all interior split points, all sequences of reads and writes through the parts, all states of the aliasing models in which the program may write to the matrix, protected or not, all build modes and pointer widths", "why_tests_cant": "The parts exist side by side and their slices overlap. C68 and C69 decide which uses are defined but leave out protectors and start at the pointer; the exact conditions there are only of use if what was left out does not change them.", "anchors": ["src/matrix/matrix_slices.rs:76-141", "src/matrix/matrix_slices.rs:193-205", "src/data_container.rs:140-228"]}
{"id": "C89", "title": "Products obey the aliasing rules", "statement": "A program that holds several matrices, with chains of mutable views and shared views of each as in C87, and multiplies views of them by matmul as the borrow checker admits, never has undefined behaviour under Stacked Borrows or Tree Borrows with protectors, in whatever order the kernel accesses the elements through the pointers it gets.", "quantifier": "all numbers and shapes of row- and column-major matrices, all memories, all sequences of operations and products with non-empty blocks, the two factors of the same or of different matrices, all orders of the kernel's accesses, all states of the aliasing models in which the program may write to the matrices, both build modes (without overflow checks: blocks whose corner does not wrap), all pointer widths", "why_tests_cant": "matmul hands raw pointers to foreign code, made from references one after the other. Making the third must not invalidate the first two, and the kernel must not use a pointer for a cell that the reference behind it does not cover (the strides that blocks report are not the ones they have, C07).", "anchors": ["src/matrix_multiply.rs:155-235", "src/matrix_multiply.rs:240-337", "src/data_container.rs:140-228"]}
{"id": "C90", "title": "Products of parts under the aliasing rules", "statement": "Multiplying two parts of a split matrix into a third is free of undefined behaviour under Stacked Borrows exactly when none of the three is the top left or the bottom left part, unless that has one row only; and under Tree Borrows exactly when the kernel never reads a factor in a cell where it has written the result. Tree Borrows accept the product for every order of the kernel's accesses exactly when matmul's operands do not alias (C47).", "quantifier": "all row-major matrices, all split points inside, all choices of parts with matching shapes, all orders of the kernel's accesses, all states of the aliasing models in which the program may write to the matrix, the matrix a parameter of the running function or not, both build modes, all pointer widths", "why_tests_cant": "split_in_four_mut exists so that parts can be multiplied into one another, as block algorithms do. C47 says when the kernel's operands alias, C88 when the references of the parts may be used; this says when the product is allowed, and that the two accounts agree.", "anchors": ["src/matrix/matrix_slices.rs:76-141", "src/matrix_multiply.rs:155-235"]}
{"id": "C91", "title": "Threads that run whole functions, interrupted between any two memory accesses", "statement": "Threads are each given some of the library's values and run arbitrary adaptive programs of library operations (constructors, element access, for_each, random filling, slices, blocks, splits, expressions, eval, matmul, dot), and may be interrupted between any two accesses to memory inside an operation. If their matrices do not overlap (or the threads only read the shared ones), then in every schedule there is no data race and no undefined behaviour that is not there when each runs alone, each thread observes what it observes alone, and its values show the elements they show alone. The four parts of a split may be given to four threads.", "quantifier": "all scalar types, all adaptive programs, any number of threads, all schedules, all kernels that access only elements of their operands in whatever order, both build modes, all pointer widths", "why_tests_cant": "split_in_four_mut hands out four mutable views, and matrices that share nothing are used from several threads. C71 treats accesses to single elements as indivisible moves; real threads are interrupted inside for_each, eval and matmul.", "anchors": ["src/matrix/matrix_slices.rs:76-182", "src/matrix/base_methods.rs:23-27", "src/matrix/common_impl.rs:79-89", "src/matrix_multiply.rs:189-236", "src/data_container.rs:82-225"]}
{"id": "C92", "title": "When memory runs out", "statement": "If the allocator may refuse a request (the process is then aborted), every operation either does exactly what it does in unlimited memory or the process is aborted with everything that was in memory still as it was. Each operation asks for memory at most once, before it does anything else, and for exactly the elements of the new matrix; element access, for_each, slices, views, splits, expressions and matmul ask for none. A program aborted for lack of memory has observed and made what it observes and makes in unlimited memory up to that operation; more memory never changes what a program does; a program that keeps its matrices runs through in room for B elements exactly when the memory it uses holds at most B. An operation that panics when there is memory enough panics whatever memory there is.", "quantifier": "all scalar types, all allocators (any function of the memory and the request), all adaptive programs, all states, all kernels that allocate before they write (exact counts: that do not allocate), both build modes, all pointer widths", "why_tests_cant": "The rest of the model lets every allocation succeed that Rust's types allow. Numerical programs do run out of memory, and then it matters that no result is stored half-way and that views and in-place functions need none.", "anchors": ["src/data_container.rs:98-115", "src/matrix/constructors.rs:24-128", "src/matrix/common_impl.rs:79-89", "src/matrix_multiply.rs:75-152"]}
{"id": "C93", "title": "Threads on machines and compilers with weak memory ordering", "statement": "Threads run whole library functions as in C91, but each has its own view of the memory: its stores reach each other thread at any time, never, repeatedly, in any order, even in conflicting orders for the same element, and even before the storing thread makes them. If the threads' matrices do not overlap, or the shared ones are only read, or the threads use their parts of a split element by element, then whatever happens there is no undefined behaviour, no two accesses of different threads conflict, each thread observes what it observes alone, and its values show in its view what they show alone; when it has finished, what it has observed and what its values show is what they are when the threads take turns in one memory.", "quantifier": "all scalar types, all adaptive programs, any number of threads, all sequences of moves, arrivals and early stores, all kernels that access only elements of their operands in whatever order, both build modes, all pointer widths", "why_tests_cant": "The crate uses plain loads and stores everywhere (raw pointers from get_pointer, slices, kernel calls). Compilers and processors reorder these. That matrices which share nothing can be used from several threads without fences or locks, and split_in_four_mut for parallel work, rests on the absence of conflicting accesses, not on a global order of accesses.", "anchors": ["src/matrix/matrix_slices.rs:76-182", "src/matrix/base_methods.rs:23-27", "src/matrix/common_impl.rs:79-89", "src/matrix_multiply.rs:189-236", "src/data_container.rs:82-225"]}
{"id": "C94", "title": "Starting threads and waiting for them is running their programs one after the other", "statement": "Threads whose matrices do not overlap, or who share matrices only to read them, or who use the elements of the four parts of a split matrix, run under weak memory ordering (C93). When all have finished, each has observed exactly what it observes when the programs run one after the other without threads, in any order, and whoever has waited for the threads sees, in all memory that existed before, exactly what this leaves. From every state the threads can reach, they can all finish without anything else having to happen, if each finishes alone.", "quantifier": "all scalar types, all adaptive programs, all finite crews, all sequences of moves, arrivals and early stores, all orders of the sequential run, all kernels that access only elements of their operands in whatever order, both build modes, all pointer widths", "why_tests_cant": "Scoped threads that each work on a part from split_in_four_mut, followed by use of the whole matrix, is what the mutable split is for. The result must be that of the sequential program.", "anchors": ["src/matrix/matrix_slices.rs:76-182", "src/matrix/base_methods.rs:23-27", "src/matrix/common_impl.rs:79-89", "src/matrix_multiply.rs:189-236", "src/data_container.rs:82-225"]}
{"id": "C95", "title": "Which threads race can be told from each thread alone, and threads that do not race behave as alone", "statement": "Take any threads that run whole library functions on any values, overlapping or not, each with defined behaviour when it runs alone. Some interleaving leads to a data race if and only if one thread, running alone, at some time writes to a place of the given memory that another, running alone, at some time reads or writes. The same criterion decides whether there is a race under weak memory ordering (C93). If no interleaving races, then in every schedule and under every ordering of stores the behaviour is defined, each thread observes exactly what it observes alone, and finds wherever it reads or writes what it finds there alone; and when all have finished, they have done what their programs do one after the other in any order.", "quantifier": "all scalar types, all values and memories, all adaptive programs, any number of threads, all schedules, all sequences of moves, arrivals and early stores, all kernels that access only elements of their operands in whatever order, both build modes, all pointer widths", "why_tests_cant": "The library gives out overlapping mutable views (C06, C07) and writes products outside of parts of a split, so whether a parallel program is safe cannot be read off from the borrow checker. The theorem says exactly when it is, without enumerating interleavings.", "anchors": ["src/matrix/matrix_slices.rs:76-182", "src/matrix/base_methods.rs:23-27", "src/matrix/common_impl.rs:79-89", "src/matrix_multiply.rs:189-236", "src/data_container.rs:82-225"]}
{"id": "C96", "title": "Matrices that hold their elements inside themselves obey the aliasing rules as the others do", "statement": "Let a program start with a contiguous matrix over an array (`ArrayContainer`), whose elements lie inside the matrix, so that every `&self` and `&mut self` of every method borrows all the elements again and every `self.layout()` counts as a read of them. The program passes references to the matrix, makes blocks and slices of it and of the blocks, and reads and writes elements, as the borrow checker allows. Then no step is undefined behaviour under Stacked Borrows or Tree Borrows with protectors, although `block_mut` looks up the strides after it has got its pointer: whatever the methods look up before and after, and through however many methods the pointer is got. The same holds of programs with several such matrices, and others, that multiply them and blocks of them (`matmul`), in whatever order the kernel accesses the elements while the operands are protected. A call that panics, having borrowed the elements again and again, and is caught, is no exception. After `split_in_four_mut` (row-major, inside split) exactly the same uses of the parts, and exactly the same products of parts, are free of undefined behaviour as for matrices over a vector (C88, C90).", "quantifier": "all contiguous matrices and memories, all programs of any length, every cutting of every single call into methods, all states of the stacks or the tree in which the matrix may be written, matrix a parameter or not, both build modes, all pointer widths", "why_tests_cant": "Aliasing violations are invisible in test results. Whether the call of self.layout() between taking the pointer and making the slice invalidates the pointer depends on the whole state of the borrow stacks.", "anchors": ["src/data_container.rs:84-86", "src/data_container.rs:166-186", "src/matrix_multiply.rs:189-236", "src/matrix/matrix_slices.rs:48-71", "src/matrix/matrix_slices.rs:89-141", "src/base_matrix.rs:63-105", "src/matrix/common_impl.rs:16-18", "src/matrix/base_methods.rs:40-83"]}
{"id": "C97", "title": "Infinities and NaN are carried by sums, scalings and products, whatever the order of summation", "statement": "With scalars that follow IEEE-754 (f32, f64: infinities, NaN, signed zeros) and a gemm kernel that sums in any order, with or without fused multiply-adds, every element of a product shows what went into it: it is NaN if its row, its column or alpha contains a NaN, or if an infinity meets a zero, or if infinite terms have opposite signs; with an infinite term it is that infinity times the sign of alpha, or NaN; if beta is not 0 the same holds of beta and the old element; and a finite element has used finite numbers only. In particular no kernel may skip terms because a factor is zero. Elements of sums and scalings are NaN if an operand is, and not finite if an operand is not, when read and when evaluated.", "quantifier": "all formats, all scalar types that follow the standard, all matrices, shapes and layouts (honest strides), all alpha and beta, all expressions, all orders of summation, all kernels of that kind, both build modes, all pointer widths", "why_tests_cant": "Users find failed computations by looking for NaN in results. The crate documents matmul as alpha*A*B + beta*C without saying that a NaN in C is overwritten if beta is 0, which depends on the kernel.", "anchors": ["src/matrix_multiply.rs:34-58", "src/matrix_multiply.rs:189-236", "src/addition.rs:124-135", "src/scalar_mult.rs:96-103", "src/matrix/common_impl.rs:79-89"]}
{"id": "C98", "title": "The laws of a module hold for expressions with floating-point elements", "statement": "Matrix expressions with f32 or f64 elements obey the laws of a module, as they do over a semiring (C65): sums commute and associate, factors may be collected and distributed, zero multiples dropped. FALSE except: exchanging operands of sums, dropping a factor 1 or two factors -1, writing a + a as 2 * a, and moving a factor -1 past another, anywhere in an expression, changes no element, not even the sign of a zero. a + (-1) * a is +0 where a is finite and NaN elsewhere; a + 0 * b is NaN where b is not finite, and otherwise a, except that a negative zero takes the sign of b.", "quantifier": "all formats, all scalar types that follow IEEE-754, all expressions, memories, positions, both build modes, all pointer widths; witnesses in f64", "why_tests_cant": "C65 is about exact scalars. Which rewritings of an expression are safe bit for bit in floating point is what a user (or a later optimisation of the lazy expressions) needs to know.", "anchors": ["src/addition.rs:124-135", "src/scalar_mult.rs:96-103", "src/matrix/common_impl.rs:79-89"]}
{"id": "C99", "title": "Multiplying a complex matrix by 1 changes nothing; NaN and infinities in the parts of complex elements", "statement": "With c32 or c64 elements, 1 * a has the elements of a. FALSE: exactly the elements are kept whose parts are both NaN, or both finite with a real part -0 only beside an imaginary part that is not negative and an imaginary part -0 only beside a negative real part; an infinite part makes the other part NaN. A real factor s + 0i multiplies the parts separately (up to the sign of a zero) where the other part is finite, and gives NaN where it is not. Exchanging operands of sums changes nothing. A part of an element of an expression is NaN if anything that goes into it is, and finite only if all that goes into it is: sums keep the parts apart, scalars mix them. In a product a NaN in any part of anything used makes both parts NaN, and one finite part means that all parts of everything used were finite.", "quantifier": "all formats, all scalar types that follow IEEE-754, all expressions, memories, positions, matrices with honest strides, alpha and beta, all kernels that use both parts of all numbers, both build modes, all pointer widths; witnesses in f64", "why_tests_cant": "c32 and c64 scalars may be multiplied with any matrix and there is no way to multiply a complex matrix by a real scalar, so 2.0 * a has to be written with a complex 2 and loses infinities and signs of zeros.", "anchors": ["src/scalar_mult.rs:96-103", "src/addition.rs:124-135", "src/matrix/common_impl.rs:79-89", "src/matrix_multiply.rs:34-58", "src/matrix_multiply.rs:189-236"]}
{"id": "C100", "title": "Signs in floating-point products, sums and scalings", "statement": "With IEEE-754 scalars signs follow the rule of signs through rounding, underflow and overflow, in whatever order the kernel sums and with or without fused multiply-adds. If all terms alpha*a*b of an element of a product, and beta*c unless beta is 0, have the same sign, the element has that sign, or is a zero, or NaN; if alpha and these products are positive and there is at least one term, it is not a negative zero either. So products of non-negative matrices are non-negative. In expressions whose sums have operands of the same sign every element, also after eval, has exactly the sign that the rule says, or is NaN. The sign of a zero that this leaves open depends on the kernel.", "quantifier": "all formats, all scalar types that follow IEEE-754, all kernels that sum in any order, all matrices with honest strides, alpha and beta, all expressions, memories and positions, both build modes, all pointer widths", "why_tests_cant": "Code downstream takes square roots of sums of squares (norms) and divides by results; a negative rounded sum of squares or a zero of the wrong sign gives NaN or an infinity of the wrong sign.", "anchors": ["src/matrix_multiply.rs:34-58", "src/matrix_multiply.rs:189-236", "src/scalar_mult.rs:96-103", "src/addition.rs:124-135", "src/matrix/common_impl.rs:79-89"]}
{"id": "C101", "title": "Floating-point products, sums and scalings are monotone", "statement": "With IEEE-754 scalars and a kernel that always does the same sums, products and fused multiply-adds for the same shape (it may skip the old element if beta is 0), matmul and dot of non-negative operands are monotone through all roundings, underflow and overflow: if no operand becomes smaller, no element of the result does, unless it is NaN. In expressions every element, also after eval, grows or falls with its operands as the signs of the scale factors say. A kernel that computes in the allowed orders but chooses the order from the data need not be monotone.", "quantifier": "all formats, all scalar types that follow IEEE-754, all kernels with fixed operations, all matrices with honest strides, alpha and beta, all expressions, memories and positions, both build modes, all pointer widths", "why_tests_cant": "Interval bounds and comparisons of computed norms rely on rounding never reversing an order; a kernel that picks its summation order from the data breaks this.", "anchors": ["src/matrix_multiply.rs:34-58", "src/matrix_multiply.rs:189-236", "src/scalar_mult.rs:96-103", "src/addition.rs:124-135", "src/matrix/common_impl.rs:79-89"]}
{"id": "C102", "title": "Panic messages tell the truth", "statement": "Every panic message of the accessors, slices, from_data, from_dimension, the zeros constructors, block, sums, products, dot and eval shows the numbers of the call that failed, and what it says of them is so.", "quantifier": "all calls of these functions with all arguments, layouts, expressions, memories and kernels, both build modes, all pointer widths", "why_tests_cant": "A message that blames the wrong dimension or shows wrong numbers sends the user to the wrong place.", "anchors": ["src/traits/random_access.rs:60-121", "src/base_matrix.rs:38-51", "src/data_container.rs:23-76", "src/layouts/column_vector.rs:65-72", "src/layouts/row_vector.rs:65-72", "src/layouts/upper_triangular.rs:40-84", "src/matrix/constructors.rs:70-128", "src/matrix/matrix_slices.rs:19-69", "src/addition.rs:50-74", "src/matrix_multiply.rs:189-236"]}
{"id": "C103", "title": "Changing the signs of floating-point operands changes the signs of the results and nothing else", "statement": "With IEEE-754 scalars and a kernel that decides what to do by alpha, beta, the shape and the position but not by the elements, and adds nothing but terms: if the elements of a (or of b) are replaced by their opposites and those of c too, every element of matmul's result is replaced by its opposite; if those of a and b are and c stays, the result stays. The same for dot and, when the elements of all matrices are replaced, for expressions and eval. This holds through all roundings, underflow, overflow, infinities and NaN; only the signs of zeros are left open. A kernel that computes in the allowed orders but chooses the order from the elements need not do this.", "quantifier": "all formats, all scalar types that follow IEEE-754, all such kernels, all matrices with honest strides, alpha and beta, all expressions, memories and positions, both build modes, all pointer widths", "why_tests_cant": "Reflections multiply by vectors whose sign is a convention; results must not depend on it beyond their own sign.", "anchors": ["src/matrix_multiply.rs:34-58", "src/matrix_multiply.rs:189-236", "src/scalar_mult.rs:96-103", "src/addition.rs:124-135", "src/matrix/common_impl.rs:79-89"]}
{"id": "C104", "title": "Multiplying floating-point operands by powers of two multiplies the results by powers of two, exactly", "statement": "With IEEE-754 scalars and a kernel whose order of operations does not depend on the elements: if the elements of a are multiplied by 2^m, those of b by 2^n and those of c by 2^(m+n), every element of matmul's result is multiplied by exactly 2^(m+n), roundings included, unless one of the two results is not finite or a product on the way loses digits to underflow. The same for the reference product, for dot and, when the elements of all matrices are multiplied by the same power of two, for expressions and eval. Sums never lose digits to underflow. With underflow it can fail.", "quantifier": "all formats, all scalar types that follow IEEE-754, all such kernels, all powers of two, all matrices with honest strides, alpha and beta, all expressions, memories and positions, both build modes, all pointer widths", "why_tests_cant": "Scaling vectors by powers of two before computing norms or reflections is the usual way to avoid overflow; it is only harmless if it changes no digit of the result.", "anchors": ["src/matrix_multiply.rs:34-58", "src/matrix_multiply.rs:189-236", "src/scalar_mult.rs:96-103", "src/addition.rs:124-135", "src/matrix/common_impl.rs:79-89"]}
{"id": "C105", "title": "An element of a product depends on its row, its column and the old element only", "statement": "Two calls of matmul, with any matrices, layouts and memories, whose rows i and i' of a, columns j and j' of b and old elements (i, j) and (i', j') are the same, leave the same scalar at these positions, to the last bit, if the kernel treats the two positions alike. So NaN or garbage in other rows and columns never matters, permuting rows permutes the result, a panel of a product is the product of panels, and the layout of the operands is irrelevant. The same for dot, across its three implementations, and without any condition for the reference product.", "quantifier": "all scalar types, kernels, alpha and beta, all pairs of products of matrices with honest strides in any memories, all positions, both build modes, all pointer widths", "why_tests_cant": "Blocked and parallel algorithms multiply panels separately and rely on getting what the whole product would give.", "anchors": ["src/matrix_multiply.rs:34-58", "src/matrix_multiply.rs:61-155", "src/matrix_multiply.rs:189-236", "src/matrix_multiply.rs:364-398"]}
