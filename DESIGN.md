# DESIGN — a Lean 4 model of UCL-ARC/householder

## 1. What is modelled

The model is a function-by-function transcription of the crate's Rust source
into total, computable Lean functions. Every definition under
`lean/Verif/Model/` carries the file and lines it models, and says where it
simplifies.

* **Outcomes.** A Rust call returns, panics, or has undefined behaviour (UB).
  `Out α = ok a | panic | ub` is the result type of every modelled function.
  A failed `assert!`, an arithmetic overflow with overflow checks on, a division
  by zero, `unimplemented!` and "capacity overflow" are `panic`. An access of
  `get_unchecked` outside the slice, a pointer moved outside its provenance, a
  `from_raw_parts` outside its provenance, and a violated precondition of the
  external `gemm` kernel are `ub`.
* **Machine integers.** `usize` is a `Nat` with arithmetic modulo `W`, which is `2^16`,
  `2^32` or `2^64` (`Target`). Theorems and refutations hold for every target, except
  that C09 is false exactly on 64-bit ones (C09_targets); `example`s are for 64 bits.
  Every `+ - *` of the Rust code goes through `Cfg.add/sub/mul`, which panic on
  overflow when `cfg.overflowChecks` (debug builds) and wrap otherwise (release
  builds, and this project's own CI, which passes `-Coverflow-checks=off`).
  Theorems range over both modes unless they say otherwise.
* **Memory.** `Mem` is a list of allocations. A container (`VectorContainer`,
  `ArrayContainer`, `SliceContainer`, `SliceContainerMut`) is a window
  `(buf, off, len)` of an allocation; `&mut Item` is a place `(buf, idx)`.
  Views share the parent's allocation, so write-through is observable.
  Allocations hold at most `isize::MAX` bytes. Nothing is
  freed in the model itself; `Spec/Lifetimes.lean` adds moves, borrows and drops (C76).
* **Scalars.** `Item` is an arbitrary type with `+`, `*`, `0` and no laws, so
  results about addition, scaling and `eval` hold for f32/f64/c32/c64 bit for
  bit (the operations are uninterpreted and their order is preserved).
  The exact matmul theorems specialise to a semiring; C67 covers rounding.
* **Generics and traits.** The nine `LayoutType` implementations are nine
  structures with their own functions; `Layout` is the sum type and trait
  dispatch is pattern matching. Size identifiers are an enumeration. What the
  Rust type checker rules out appears as an explicit typing predicate
  (`Ex.Typed`, `Layout.isStrided`, `matmulImpl`, ...).
* **f64 in UpperTriangular::convert_1d_2d.** Modelled by exact computation on rationals
  (`Model/F64.lean`). C09_binary64 proves that the result is the one of IEEE-754, stated
  declaratively in `Spec/Binary64.lean` (nearest value, ties to even, subnormals, overflow,
  saturating cast).
* **gemm.** `matrixmultiply::{s,d,c,z}gemm` is external: it is modelled by its
  documented contract (C := alpha A B + beta C on strided addresses; C's addresses
  distinct; C disjoint from A and B; every address valid). A violated
  precondition is `ub`. The arithmetic of one element is a parameter (`Kern`).
* **Random numbers.** An `Rng` plus distribution is a state machine
  `ρ → Real × ρ`.

| source | model |
|---|---|
| `src/layouts/*.rs`, `src/traits/layout.rs` | `Model/Layouts.lean` (f64 part: `Model/F64.lean`) |
| `src/data_container.rs` | `Model/Memory.lean` |
| `src/base_matrix.rs`, `src/matrix.rs`, `src/matrix_ref.rs`, `src/addition.rs`, `src/scalar_mult.rs`, `src/traits/random_access.rs` | `Model/Matrix.lean`, `Model/RefMut.lean` |
| `src/matrix/constructors.rs`, `common_impl.rs`, `base_methods.rs`, `matrix_slices.rs`, `random.rs`, `src/tools.rs`, `src/macros.rs` | `Model/Constructors.lean`, `Model/MacroArgs.lean` |
| `src/matrix_multiply.rs` (and the test helper `matmul_expect`) | `Model/MatMul.lean`, `Model/RefMut.lean` |
| references made by `split_in_four_mut`, `block`, `block_mut` and the accessors, under Stacked Borrows and Tree Borrows | `Model/Borrow.lean` (C68–C70), `Model/Guards.lean`, `Model/GuardsSplit.lean`, `Model/GuardsMul.lean` with protectors (C87–C90), `Model/Inline.lean`, `Model/InlineMul.lean` for matrices that hold their elements inside themselves (C96) |
| the generic code over other implementations of the public traits | `Model/Traits.lean`, `Model/TraitsMul.lean` (C74, C75), `Model/Stateful.lean` (C86), `Model/StatefulMemory.lean` (implementations that share the memory of the matrices, C86) |
| lifetimes in the signatures, moves, drops, exclusive borrows | `Spec/Lifetimes.lean`, `Spec/Exclusive.lean` (C76, C77) |
| what is left in memory when `for_each`, the fill functions, `eval` or `matmul` is left by a panic | `Model/Unwind.lean`, `Spec/Unwind.lean` (C78) |
| the messages of panics | `Model/Messages.lean`, `Spec/Messages.lean` (C102) |
| the same functions one memory access at a time, for threads that are interrupted inside them | `Model/Steps.lean`, `Spec/Interleave.lean` (C91), `Spec/OutOfMemory.lean` (C92), `Spec/WeakMemory.lean` (C93), `Spec/ForkJoin.lean` (C94), `Spec/Races.lean` (C95) |
| the same evaluation with a record of accesses, operations and allocations | `Model/Trace.lean` (C82) |
| `HScalar::atan2` (`src/types.rs`) | `Model/Scalar.lean` (C83) |
| unit tests, `src/examples.rs` | `Props/Tests.lean` (C63) |

### Not modelled

Compilation errors/type inference, the borrow checker (histories are allowed to
use any handle at any time, a superset of legal programs, except where stated; moves and
shared borrows in C76, exclusive borrows in C77),
Rust's aliasing rules other than for views and accessors (C33, C47, C68–C70, C87–C90; protectors only
in C87–C90; two-phase borrows are not modelled, but nothing in the crate depends on them: the only calls whose arguments are computed while such a borrow waits are src/base_matrix.rs:172-173, 178-179, and their arguments read another field), memory running
out other than in C92, performance, threads other than in C71, C91 (interleavings of accesses in one memory) and C93 (stores that reach other threads late, out of order or early; not: values that no thread computes, allocations that are not at once known to all), which order of
floating-point operations gemm chooses (C80 covers every order for real scalars, C81 every algorithm
that adds the right terms, real or complex), signs of those zeros in products that depend on the kernel (C100),
`src/matrix/vector_impl.rs` (not part of the crate: no `mod` declares it),
rounding of `HScalar::atan2`, what `assert_eq!` prints around the message (the messages themselves are in
`Model/Messages.lean`, C102; the calls that the messages
make of the program's own implementations are modelled in `Model/Stateful.lean`).

### How the files are organised

`Model/` the code; `Spec/` what the properties mean, without the code's index
arithmetic (positions, orders and memory maps of layouts; which cell is which
element; abstract arrays; expressions and their values; products; programs; the
abstract machine of documented meanings; related runs; rounded arithmetic);
`Lemmas/` proofs of intermediate facts; `Props/` the claims `Cnn_*` with concrete
cases (`example`) beside them.

## 2. Plan per property

| id | modelled by | proof idea |
|---|---|---|
| C01, C02 | layout functions of the four `*Major` layouts | div/mod algebra; order by list induction against explicit nested lists |
| C03 | vector layouts | false of the code (unit coordinate is reported as 1): refuted; partial on the free coordinate |
| C04–C06 | all layouts | case analysis, monotonicity of the linear forms, packing via division |
| C07 | `stride` | false for the two ArbitraryStride*Major layouts: refuted; exact characterisation |
| C08 | upper triangular | triangular numbers, induction |
| C09 | f64 model | exact rounding lemmas; holds below index 2^53+2^26-1, fails there: refuted + partial; outcome at every index by error bounds of rounding and square root against a whole-number test (`Spec/Triangle.lean`) |
| C10 | upper triangular | direct |
| C11, C12 | `index_layout`, `from_dimension` | case analysis; C12 false for ColumnVector: refuted + partial |
| C13 | every layout function | compare with unbounded formulas |
| C14–C16 | containers, BaseMatrix::new | list/window lemmas |
| C17–C20 | random access | window lemmas; C18 false for arbitrary strides: refuted + exact partial; C20 by induction on histories (refinement) |
| C21–C23 | constructors | loop/allocation lemmas; finite table for C23 |
| C24, C25 | for_each, random fill | loop invariant |
| C26–C33 | block, split | linear arithmetic on strides; C27, C28, C29, C32, C33 false in part: refuted + partial |
| C34–C41 | expression trees | structural induction; loop invariant for eval; C41 false for ColumnVector: refuted + partial |
| C42–C49 | matmul, dot | double loop invariant over the gemm contract, Mathlib `Matrix`; C45, C46, C47 false: refuted + partial |
| C50 | state machine over handles | inductive invariant over all programs |
| C51 | constructors in wrapping mode | false without overflow checks: refuted + partial |
| C52–C57 | macros, layouts, slices, views | corollaries, refinement for C57; C53, C54, C56 false in part |
| C58 | whole programs in both build modes | simulation: the checked build panics or agrees, operation by operation |
| C59 | abstract machine (`Spec/Machine.lean`) | simulation relation between states, one lemma per operation |
| C60–C62 | MatrixRefMut, unsafe accessors, `matmul_expect` | refinement through any nesting; exact outcome outside the bounds; triple loop invariant |
| C63 | unit tests and examples | computation in the kernel with symbolic scalars |
| C64 | two runs of programs | logical relation, one lemma per model function |
| C65, C66 | expressions, eval, dot | linear algebra over `Ex.coeff`; C37 + C48 |
| C67 | rounded arithmetic | standard error analysis by induction |
| C68–C70 | borrow stacks and borrow trees | invariants over all sequences of accesses; C68, C69 false: refuted + exact partial |
| C71 | threads with an adaptive program each, schedules | simulation by one abstract array per thread, induction on the schedule |
| C72 | exchanging rows and columns in layouts, matrices, expressions, products | equations between two runs, by cases on the layout; extensionality of memory for products |
| C73 | which operations allocate, write, create values | frame lemma for every loop and write, cases on the operation, induction on the program |
| C74 | generic code over arbitrary implementations of the traits | refuted by four witnesses; contract on the implemented functions, induction on the expression, loop invariant for eval; exact conditions by tracking what each computation reaches for |
| C75 | products and views over arbitrary implementations | refuted by witnesses; contract on strides and pointers, then the kernel's contract; simulation of views by slices; exact conditions on the answers |
| C76 | drops | moves, borrows and drops over the histories of C50; ownership invariant; frame theorem for every operation, from which results are unchanged by drops |
| C77 | exclusive borrows | mutable and shared borrows over C76; invariant: two live values that show the same element are related by a borrow, or are parts of one split; refuted for parts of splits by three programs |
| C78 | caught panics | the loops with the memory at the crash point; specification: a list traversed until the callable panics; programs that go on, by the invariant of C50 |
| C79 | macro arguments | arguments as state transformers; equations between the expansion and a single evaluation; refuted by a counter |
| C80 | IEEE-754 | declarative formats and correct rounding; error, finiteness and exactness of trees of rounded operations, for every order of computing a product |
| C81 | Any algorithm, complex scalars | terms of a tree as a multiset; `num_complex` arithmetic over any scalars, instantiated with numbers, trees and terms |
| C82 | single pass, no temporaries | second model with a record of accesses, operations and allocations; erasure to the first model; the record of `eval` computed from the expression tree |
| C83 | `HScalar::atan2` | real numbers for f32, f64; refuted for complex scalars by all values |
| C84 | random matrices | samples as random variables on a probability space; which sample goes where is injective; independence is inherited |
| C85 | causes of undefined behaviour | per operation the list of unchecked accesses; undefined exactly if the first failing access leaves its container or the kernel's contract is broken; invariant: containers are windows of allocations |
| C86 | implementations that change | trait functions as actions on a state kept by the program; the library's calls in the order of the source; contract at every moment, under an invariant of the state |
| C87 | views of views, protectors | Stacked Borrows and Tree Borrows with protectors as two instances of one record of rules; a chain of mutable references and the shared ones above it; programs as lists of deeds |
| C88 | parts of a split, protectors | the parts made and used as in C87, from the reference of the matrix; exact conditions by following which cells of which part are still usable |
| C89 | products, protectors | C87 for several matrices, each with a state of its own; the kernel as a list of accesses in any order at the addresses it computes |
| C90 | products of parts, protectors | pointers to three parts of one allocation, and the kernel's accesses in any order; exact conditions; equivalence with the aliasing condition of C47 |
| C91 | functions as trees of memory accesses, threads, schedules | each thread is followed by its run alone up to a renaming of allocations; a relational proof that no function depends on the number of an allocation; footprints of every function |
| C92 | functions as trees of memory accesses, run with an allocator that may refuse | every operation is an allocation followed by a computation without any, or such a computation; exact size of the request; programs by induction |
| C93 | a view of the memory per thread, stores that arrive late, out of order or early | the views of the other threads may differ at places a thread does not use; each thread is followed by its run alone, as in C91 |
| C94 | fork and join over the views of C93 | the sequential run is a schedule of C91; finished threads agree; a thread sees old values where it has not stored |
| C95 | the accesses of each thread's run alone | one thread is led to its first write to a place of another, then the other to that place; conversely the places accessed alone are zones for C91, C93, C94 |
| C96 | nothing but the programs and C87's notion of a ready state | the invariant of C87 holds after every method; a look leaves the raw pointer on the stacks and everything below the protected reference reserved in the tree, so what was got before it is still good |
| C97 | C80's trees of operations | data with NaN, infinities and signed zeros; induction over the orders of `SumOf` and `ProductOf` |
| C98 | C97's data | uniqueness of rounding; congruence of expressions |
| C99 | C81's complex arithmetic on C97's data | case analysis of `s * z` for a factor without imaginary part; operands used by trees of operations |
| C100 | orders of C80 on C97's data | induction over `SumOf` and `ProductOf`: rounding keeps signs, zeros of the other sign are absorbed |
| C101 | kernels as fixed trees of operations over the operands | induction over the tree: rounding is monotone, so are sums and products of non-negative data |
| C102 | a second model of every function that can panic, with messages; a predicate that a message describes its call | the second model without messages is the first; composition of what each statement can say |
| C103 | kernels as trees over the operands in which only numbers of the same kind (row, column, term) are added | induction over the tree: rounding commutes with the change of sign |
| C104 | the trees of C103; a number retains its digits if it is a multiple of the smallest positive number or has a full significand | rounding with unbounded exponents commutes with powers of two and equals rounding in the format where digits are retained |
| C105 | two products in two memories, compared through `get` only | the kernel is given the same list of terms |

None of the properties is inexpressible. How gemm orders and rounds its sums is a parameter of the model; C80 and C81 speak about all choices.

## 3. What the proofs found in the code

Statements that are false of the code, each refuted by a concrete witness
(`Cnn_false…`) and proved as far as it is true (`Cnn…_partial`):

* **C03** `convert_1d_2d` of vectors reports 1 for the unit coordinate
  (RowVector gives `(1, index)`), a position outside the vector.
* **C07, C28, C45** `ArbitraryStrideRowMajor/ColumnMajor::stride()` reports the strides of a
  contiguous matrix of the same shape. Blocks of blocks therefore show other elements (C28), and
  products of blocks multiply other elements (C45). Evaluating blocks first is right (C66).
  `test_double_slice` passes nevertheless (C63_double_slice_missed).
* **C09** the f64 square root in `UpperTriangular::convert_1d_2d` is wrong from index
  `2^53 + 2^26 - 1` on, and right for every smaller index, hence always
  on 16-bit and 32-bit targets (C09_small_targets, C09_targets). Which larger indices are wrong is
  decided by `RowKept` (C09_exact); wrong results are never positions of stored elements.
* **C12, C41** `ColumnVector::from_dimension` asserts that the number of *rows* is 1; so `eval` of a
  Dynamic × Dynamic column vector layout panics, and `MatrixD<_, ColumnVector>` can only be 1 × 1.
* **C16, C17, C46, C51** without overflow checks the element count wraps, so a 2^32 × 2^32 matrix
  is accepted over an empty container and safe `get` reads out of bounds.
* **C18** `from_data` compares the element count, not the extent, of strided layouts with the
  container: safe accesses are then out of bounds. Strided vectors make even `matmul` undefined.
* **C27, C29, C32, C50** an empty block at the lower edge moves a pointer beyond the allocation before
  it panics (both build modes); `top_left + dim` and the split point wrap without overflow checks.
* **C33, C47** the four mutable containers returned by `split_in_four_mut` overlap
  (horizontal neighbours interleave), although their elements do not; because of C07 a product with
  two neighbouring quadrants makes the kernel's operands alias, undefined even in debug builds.
* **C68, C69** because their slices overlap, the views of `split_in_four_mut` break Rust's aliasing rules under
  both published models: making the right view invalidates the left one (Stacked Borrows), or a write
  through one makes the next use of the other undefined (Tree Borrows). The crate's own
  `test_disjoint_slices` is undefined in both. Blocks and accessors without a split are fine (C70).
* **C48** `dot` allocates before it checks dimensions; without overflow checks a product
  (2^32 × 0)·(0 × 2^32) is undefined (C48_release_undefined).
* **C53** position (0,0) of an upper triangular layout is not at raw index 0 (the last row comes first).
* **C54** the extent computed in `from_pointer` wraps without overflow checks. For C16, C17, C27,
  C46, C51 and C54, `Props/Release.lean` states exactly what happens in builds without overflow
  checks; for C32 see C32_release and C32_release_outside. One consequence:
  `block((1, usize::MAX), (1, 2))` of a 3 × 4 matrix returns the last element of row 0 and the first
  of row 1 instead of panicking. C85 lists all causes of undefined behaviour in whole programs, for
  every build and every layout.
* **C56** `BaseMatrix::length` returns the container's length, not the vector's.
* **C74** `LayoutType` and `DataContainer` are safe traits that unsafe code relies on: an implementation
  without any `unsafe` makes `get`, `get1d` of a sum, `eval` or `get_slice` undefined.
* **C75** likewise for `matmul` and `dot` (strides that are not where the elements are, although every
  access is inside the container) and for blocks and splits (a container that overstates its length).
* **C77** the borrow checker does not protect the parts of `split_in_four_mut` from each other: accepted
  programs multiply parts into parts (undefined behaviour), and write elements of one part through
  `get_slice_mut` or a `block_mut` of another. For all other values it does.
* **C79** `mat!` and `rand_mat!` evaluate the dimension argument twice and combine the rows of the first
  value with the columns of the second.
* **C98** in floating point the laws of algebra fail for expressions, as they must; C98 says which rewritings
  are exact. Also, whether a NaN in the old matrix survives `matmul` with `beta = 0` depends on the kernel (C97).
* **C99** `1 * a` is not `a` for complex elements with infinite parts or negative zeros: the multiplication of
  `num_complex` computes `0 * inf`. C99 says exactly which elements are kept.
* **C83** `HScalar::atan2` is `unimplemented!()` for complex scalars, although the trait offers it for all scalars.

Further observations: `from_data` does
not check size identifiers; `mat * s` computes `s * element` (it shows for scalars that do not
commute); `dot` exists for f64 only; a block's `get_slice` reaches the cells between its rows;
unchecked access beyond the end of a row reads the next row (C61).

**Readings.** Assignments evaluate the right side before the place (`eval`); compound assignments on a
generic scalar evaluate the place first. C02, C04, C05, C06 quantify over shapes whose element count fits in usize (others
cannot be backed by memory). Programs (C50, C58, C59, C64) cover every modelled safe operation.
C59 gives every operation its documented meaning on an abstract machine; `Op.Allowed` lists the uses
left out, each of which is refuted above.

## 4. Trusted base

* The Lean 4.33 kernel. No `sorry`, no own axioms, no `native_decide`/`bv_decide`; `kernel_rfl`
  (Props/Tests.lean) only hands `Eq.refl` to the kernel.
* The axioms `propext`, `Classical.choice`, `Quot.sound` at most; per theorem in section 5
  (P = propext, Q = Quot.sound, C = Classical.choice).
* The reading of the Rust source that each definition cites; the contract of
  `matrixmultiply`; IEEE-754 binary64 semantics as stated in `Spec/Binary64.lean`.

Theorems were tested against edited models (`seeded/LOG.jsonl`): each line names the definition,
the edit, the claim it should break and the theorems that no longer prove.

## 5. Claims, theorems, axioms

| id | property | status | theorems (axioms) |
|---|---|---|---|
| C01 | 1D and 2D logical indices are inverse bijections (row-/column-major) | proved | `C01_bijection` (PQC) |
| C02 | 1D traversal order is the documented logical order | proved | `C02_order` (PQC) |
| C03 | 1D to 2D conversion on vectors yields a valid position | partial | `C03_false` (PQC), `C03_false_everywhere` (PQC), `C03_partial` (PQC) |
| C04 | 1D and 2D access name the same memory cell | proved | `C04_access` (PQC), `C04_same_cell` (PQC) |
| C05 | Distinct matrix positions never share a memory cell | proved | `C05_no_sharing` (PQC) |
| C06 | Contiguous layouts are packed without holes | proved | `C06_packed` (PQC) |
| C07 | stride() reports the memory distance between neighbours | partial | `C07_false` (PQ), `C07_partial` (PQC) |
| C08 | Upper triangular packing is a bijection | proved | `C08_triangular_bijection` (PQC) |
| C09 | Upper triangular 1D to 2D conversion inverts 2D to 1D | partial | `C09_binary64` (PQC), `C09_exact` (PQC), `C09_false` (PQC), `C09_false_at` (PQC), `C09_never_another_element` (PQC), `C09_outcome` (PQC), `C09_partial` (PQC), `C09_places_partial` (PQC), `C09_small_targets` (PQC), `C09_targets` (PQC) |
| C10 | Access below the diagonal of an upper triangular matrix always panics | proved | `C10_below_diagonal_panics` (PQ) |
| C11 | The index layout has the same shape and logical indexing | proved | `C11_index_layout` (PQC) |
| C12 | from_dimension yields a layout of exactly the requested dimension, or panics when the shape is impossible | partial | `C12_false` (P), `C12_partial` (P) |
| C13 | With overflow checks every index computation is exact or panics | proved | `C13_checked_exact` (PQC), `C13_fits_exact` (PQC) |
| C14 | get_slice returns exactly the requested raw range | proved | `C14_get_slice` (PQC) |
| C15 | get_slice_mut writes through exactly the requested range | proved | `C15_get_slice_mut` (PQC) |
| C16 | from_data accepts exactly the containers that are large enough | partial | `C16_acceptance` (PQC), `C16_acceptance_own_count` (PQ), `C16_acceptance_release` (PQ), `C16_exact` (PQC), `C16_false` (PQ), `C16_partial` (PQC) |
| C17 | Bounds-checked access is exact | partial | `C17_exact` (PQC), `C17_false` (P), `C17_partial` (PQC) |
| C18 | Safe element access never leaves the container, for any layout | partial | `C18_false` (P), `C18_partial` (PQC) |
| C19 | Read your writes, and only your writes | proved | `C19_read_your_writes` (PQC) |
| C20 | A matrix behaves like an abstract array under any operation sequence | proved | `C20_abstract_array` (PQC) |
| C21 | zeros_from_dim yields a zero matrix of the requested shape | proved | `C21_zeros_from_dim` (PQC) |
| C22 | Vector constructors: shape, length, zeros and argument check | proved | `C22_vectors` (PQC) |
| C23 | Fixed-size constructors always succeed with their static shape | proved | `C23_fixed_size` (PQC) |
| C24 | for_each applies the callable once to each element in 1D order | proved | `C24_for_each` (PQC) |
| C25 | Random fill assigns successive samples in 1D order | proved | `C25_fill_complex` (PQC), `C25_fill_real` (PQC), `C25_layout_independent` (PQC) |
| C26 | A block is the requested submatrix | proved | `C26_block_is_submatrix` (PQC) |
| C27 | block rejects exactly the blocks that do not fit | partial | `C27_empty` (PQC), `C27_false` (PQC), `C27_partial` (PQC), `C27_release` (PQ), `C27_release_empty` (PQC), `C27_release_empty_column` (PQC), `C27_release_inside` (PQ) |
| C28 | A block of a block is the corresponding block of the parent | partial | `C28_false` (PQC), `C28_partial` (PQC) |
| C29 | Blocks nested to any depth stay inside the parent's memory | partial | `C29_exact` (PQC), `C29_false` (PQC), `C29_partial` (PQC) |
| C30 | Writes through a mutable block update exactly the parent's element | proved | `C30_block_write` (PQC) |
| C31 | split_in_four_mut partitions the matrix | proved | `C31_split_partition` (PQC) |
| C32 | split_in_four_mut rejects invalid split points | partial | `C32_false` (PQC), `C32_partial` (PQC), `C32_release` (PQC), `C32_release_outside` (PQC) |
| C33 | The four views of split_in_four_mut own disjoint memory | partial | `C33_false` (PQC), `C33_partial` (PQC) |
| C34 | Matrix addition is elementwise and rejects different dimensions | proved | `C34_addition` (PQ), `C34_expressions` (PQC) |
| C35 | 1D and 2D access agree on every expression | proved | `C35_get1d_get` (PQC) |
| C36 | Scalar multiplication is elementwise for all operand forms | proved | `C36_scalar` (PQ) |
| C37 | eval computes the expression | proved | `C37_eval` (PQC) |
| C38 | eval has no side effects | proved | `C38_no_side_effects` (PQC) |
| C39 | Results do not depend on operands' physical layout | proved | `C39_layout_independent` (PQC) |
| C40 | References behave like the matrices they refer to | proved | `C40_from_ref` (PQ), `C40_references` (PQ) |
| C41 | eval succeeds for every dynamic matrix | partial | `C41_false` (PQC), `C41_partial` (PQC) |
| C42 | matmul rejects incompatible dimensions and accepts all compatible ones | proved | `C42_dimensions` (PQ), `C42_types` (PQ) |
| C43 | matmul computes alpha*A*B + beta*C | proved | `C43_matmul` (PQC), `C43_matrix` (PQC) |
| C44 | matmul changes nothing but C | proved | `C44_only_c` (PQC) |
| C45 | matmul works on block views | partial | `C45_blocks_partial` (PQC), `C45_false` (PQC), `C45_partial` (PQC) |
| C46 | matmul never accesses memory outside its operands' containers | partial | `C46_defined_partial` (PQC), `C46_exact` (PQC), `C46_false` (P), `C46_partial` (PQC) |
| C47 | matmul on the blocks of one split matrix does not alias | partial | `C47_false` (PQC), `C47_partial` (PQC) |
| C48 | dot returns the matrix product in fresh storage | proved | `C48_dot` (PQC), `C48_release_undefined` (PQC), `C48_types` (PQC), `C48_unallocatable` (PQ) |
| C49 | dot is associative and distributes over sums and scalars | proved | `C49_assoc` (PQC), `C49_distrib` (PQC), `C49_scalar` (PQC) |
| C50 | No safe program reaches undefined behaviour (overflow checks on, no arbitrary-stride from_data) | partial | `C50_exact` (PQC), `C50_false` (PQ), `C50_no_wrap_partial` (PQC), `C50_partial` (PQC) |
| C51 | Oversized dimensions are rejected in every build mode | partial | `C51_bytes` (PQC), `C51_exact` (PQC), `C51_false` (P), `C51_false_witness` (P), `C51_partial` (PQ) |
| C52 | mat! and vector! macros build zero matrices of the requested shape and layout | proved | `C52_macros` (PQC), `C52_random_macros` (PQC) |
| C53 | The first entry is at raw index 0 | partial | `C53_false` (PQ), `C53_partial` (PQC) |
| C54 | from_pointer claims exactly the memory its positions need | partial | `C54_exact` (PQC), `C54_false` (PQ), `C54_partial` (PQC) |
| C55 | Raw slices and element access agree | proved | `C55_slice_element` (PQC) |
| C56 | length() of a vector is its logical dimension | partial | `C56_false` (–), `C56_partial` (P) |
| C57 | Views stay coherent under any interleaving of writes | proved | `C57_views_coherent` (PQC) |
| C58 | Overflow checks only ever add panics | proved | `C58_layouts` (PQC), `C58_operations` (PQ), `C58_programs` (PQ) |
| C59 | Programs do what the documentation says: simulation by an abstract machine | proved | `C59_programs` (PQC), `C59_release` (PQC) |
| C60 | A mutable reference is transparent | proved | `C60_mutable_references` (PQC), `C60_shape` (PQ) |
| C61 | Contract of the unsafe accessors | proved | `C61_triangular` (PQ), `C61_unchecked_1d` (PQ), `C61_unchecked_anywhere` (PQ), `C61_unchecked_inside` (PQC), `C61_wraps_around` (PQC) |
| C62 | The reference product of the unit tests agrees with matmul | proved | `C62_agreement` (PQC), `C62_reference_product` (PQC) |
| C63 | The crate's unit tests and documented examples hold for all scalars | proved | `C63_addition` (PQ), `C63_disjoint_slices` (PQ), `C63_double_slice` (PQ), `C63_double_slice_missed` (PQ), `C63_example_access` (PQ), `C63_example_block` (PQ), `C63_example_constructors` (PQ), `C63_example_dot` (PQ), `C63_example_rand_mat` (P), `C63_example_sum` (PQ), `C63_example_unchecked` (P), `C63_macros` (PQC), `C63_scalar_mult` (PQ), `C63_simple_slice` (PQ), `C63_upper_triangular_indexing` (PQC) |
| C64 | Scalars never decide where the library goes | proved | `C64_data_independence` (PQC), `C64_exact_kernel` (PQ), `C64_homomorphism` (PQC), `C64_relational` (PQC) |
| C65 | Expressions are linear combinations: the module laws | proved | `C65_linear_combination` (PQC), `C65_module_laws` (PQC) |
| C66 | eval makes contiguous copies that can be multiplied | proved | `C66_eval_twice` (PQC), `C66_product_of_blocks` (PQC), `C66_product_of_evaluated` (PQC) |
| C67 | Rounding errors stay within the standard bounds | proved | `C67_expressions` (PQC), `C67_matmul` (PQC), `C67_reference_product` (PQC) |
| C68 | The four views of split_in_four_mut may be used in any order (Stacked Borrows) | partial | `C68_stacked_borrows_false` (PQC), `C68_stacked_borrows_partial` (PQC) |
| C69 | The four views of split_in_four_mut may be used in any order (Tree Borrows) | partial | `C69_tree_borrows_false` (PQC), `C69_tree_borrows_partial` (PQC) |
| C70 | Blocks and element accessors obey the aliasing rules | proved | `C70_blocks` (PQC) |
| C71 | Threads that own different views do not interfere | proved | `C71_any_schedule` (PQC), `C71_footprint` (PQC), `C71_race_free` (PQC), `C71_schedules_agree` (PQC), `C71_split` (PQC) |
| C72 | Row-major and column-major code are mirror images | proved | `C72_blocks` (PQC), `C72_expressions` (PQC), `C72_histories` (PQC), `C72_layouts` (PQC), `C72_products` (PQC) |
| C73 | Only owning operations allocate; lazy ones share storage | proved | `C73_operation` (PQC), `C73_programs` (PQC) |
| C74 | Safe code stays defined with other implementations of the public traits | partial | `C74_agreement` (PQC), `C74_construction` (PQC), `C74_contract` (PQC), `C74_crate_expressions` (PQC), `C74_crate_layouts` (PQC), `C74_crate_matrices` (PQC), `C74_eval_partial` (PQC), `C74_exact` (PQC), `C74_exact_any` (PQC), `C74_exact_reads` (PQC), `C74_exact_slices` (PQ), `C74_false` (P), `C74_false_eval` (PQ), `C74_false_slice` (P), `C74_false_sum` (PQ), `C74_fit` (PQC), `C74_reads_partial` (PQ), `C74_writes_partial` (PQC) |
| C75 | Products and views stay defined with other implementations of the public traits | partial | `C75_crate_products` (PQC), `C75_dot_partial` (PQC), `C75_dot_wraps` (PQC), `C75_exact_any` (PQC), `C75_exact_block` (PQC), `C75_exact_dot` (PQC), `C75_exact_product` (PQC), `C75_exact_split` (PQC), `C75_false` (P), `C75_false_product` (PQC), `C75_false_views` (PQC), `C75_product_agreement` (PQC), `C75_product_partial` (PQC), `C75_views_agreement` (PQC), `C75_views_partial` (PQC) |
| C76 | Every allocation is freed exactly once and never used afterwards | proved | `C76_every_build` (PQC), `C76_no_leak` (PQC), `C76_no_leak_every_build` (PQC), `C76_no_use_after_free` (PQC), `C76_same_results` (PQC), `C76_same_results_every_build` (PQC) |
| C77 | Shared or mutable: what the borrow checker promises about programs using the library | partial | `C77_blocks_false` (PQC), `C77_every_build` (PQC), `C77_exact` (PQC), `C77_exclusive_every_build_partial` (PQC), `C77_exclusive_false` (PQC), `C77_exclusive_partial` (PQC), `C77_no_undefined_behaviour_partial` (PQC), `C77_undefined_false` (PQC) |
| C78 | Panics that are caught: what the matrices hold after an operation was left by unwinding | proved | `C78_crash_point` (PQC), `C78_eval` (PQC), `C78_fill` (PQC), `C78_for_each` (PQC), `C78_matmul` (PQ), `C78_no_panic` (PQC), `C78_programs` (PQC) |
| C79 | Macro arguments are evaluated once | partial | `C79_count` (PQ), `C79_exact` (PQC), `C79_false` (P), `C79_partial` (P), `C79_random_shape` (PQC), `C79_shape` (PQC), `C79_vectors` (P) |
| C80 | Results in f32 and f64 are within the standard bounds, in any order of summation, or are not finite | proved | `C80_binary64` (PQC), `C80_dot` (PQC), `C80_expressions` (PQC), `C80_matmul` (PQC) |
| C81 | Products by any algorithm that adds the right terms, and complex scalars (c32, c64) | proved | `C81_complex_dot` (PQC), `C81_complex_expressions` (PQC), `C81_complex_products` (PQC), `C81_orders` (PQC), `C81_products` (PQC) |
| C82 | Expressions are evaluated in a single pass without temporaries | proved | `C82_access` (PQC), `C82_cost` (PQC), `C82_for_each` (PQC), `C82_once` (PQC), `C82_same_results` (PQ), `C82_single_pass` (PQC) |
| C83 | atan2 returns the angle of a point for every scalar type | partial | `C83_false` (PQC), `C83_partial` (PQC) |
| C84 | Random matrices hold independent samples of the distribution | proved | `C84_complex` (PQC), `C84_macros` (PQC), `C84_real` (PQC) |
| C85 | Where undefined behaviour comes from, in every build and for every layout | proved | `C85_exact` (PQC), `C85_harmless` (PQC) |
| C86 | Safe code stays defined with implementations that change their answers | partial | `C86_agreement` (PQ), `C86_agreement_base` (PQ), `C86_agreement_dot` (PQC), `C86_apart` (PQC), `C86_blocks` (PQ), `C86_contract` (PQC), `C86_crate` (PQC), `C86_dot_partial` (PQC), `C86_eval_partial` (PQC), `C86_exact` (PQC), `C86_exact_dot` (PQC), `C86_exact_dot_here` (PQC), `C86_exact_each` (PQC), `C86_exact_eval` (PQ), `C86_exact_here` (PQ), `C86_exact_kernel` (PQC), `C86_exact_new` (PQ), `C86_exact_product` (PQC), `C86_exact_reads` (PQ), `C86_exact_slices` (PQ), `C86_exact_sums` (PQ), `C86_exact_views` (PQC), `C86_false` (PQ), `C86_false_each` (P), `C86_product_partial` (PQC), `C86_reads_partial` (PQ), `C86_split` (PQ), `C86_still` (P), `C86_writes_partial` (PQC) |
| C87 | Views of views obey the aliasing rules, with protectors | proved | `C87_stacked_borrows` (PQC), `C87_stacked_strict` (PQ), `C87_tree_borrows` (PQC), `C87_tree_strict` (PQ) |
| C88 | Protectors change nothing for the four parts of a split | proved | `C88_no_difference` (PQC), `C88_stacked_borrows` (PQC), `C88_test_undefined` (PQC), `C88_tree_borrows` (PQC) |
| C89 | Products obey the aliasing rules | proved | `C89_stacked_borrows` (PQC), `C89_tree_borrows` (PQC) |
| C90 | Products of parts under the aliasing rules | proved | `C90_stacked_borrows` (PQC), `C90_tree_borrows` (PQC), `C90_tree_borrows_and_aliasing` (PQC) |
| C91 | Threads that run whole functions, interrupted between any two memory accesses | partial | `C91_any_schedule` (PQC), `C91_false` (PQC), `C91_operations` (PQ), `C91_own_windows` (PQC), `C91_plainKernel` (PQ), `C91_readers` (PQC), `C91_schedules_agree` (PQ), `C91_split_partial` (PQC), `C91_windows` (PQC), `C91_zones` (PQC) |
| C92 | When memory runs out | partial | `C92_asks` (PQ), `C92_eval_order` (PQC), `C92_false` (PQ), `C92_intact` (PQ), `C92_more` (PQ), `C92_order_partial` (PQC), `C92_plainKernel` (PQ), `C92_program` (PQ), `C92_room` (PQC), `C92_same_or_aborted` (PQ), `C92_used` (PQC), `C92_without` (PQ) |
| C93 | Threads on machines and compilers with weak memory ordering | proved | `C93_agrees` (PQ), `C93_any_order` (PQC), `C93_includes` (PQC), `C93_own_windows` (PQC), `C93_readers` (PQC), `C93_split` (PQC), `C93_windows` (PQC), `C93_zones` (PQC) |
| C94 | Starting threads and waiting for them is running their programs one after the other | proved | `C94_finishes` (PQC), `C94_fork_join` (PQC), `C94_join_unique` (PQC), `C94_own_windows` (PQC), `C94_readers` (PQC), `C94_split` (PQC) |
| C95 | Which threads race can be told from each thread alone, and threads that do not race behave as alone | proved | `C95_any_order` (PQC), `C95_fork_join` (PQC), `C95_free_of_races` (PQC), `C95_listed` (PQ), `C95_races` (PQC), `C95_weak_races` (PQC) |
| C96 | Matrices that hold their elements inside themselves obey the aliasing rules as the others do | proved | `C96_parts_stacked` (PQC), `C96_parts_tree` (PQC), `C96_product_stacked` (PQC), `C96_product_tree` (PQC), `C96_split_stacked` (PQC), `C96_split_tree` (PQC), `C96_stacked_borrows` (PQC), `C96_tree_borrows` (PQC) |
| C97 | Infinities and NaN are carried by sums, scalings and products, whatever the order of summation | proved | `C97_dot` (PQC), `C97_expressions` (PQC), `C97_matmul` (PQC) |
| C98 | The laws of a module hold for expressions with floating-point elements | partial | `C98_false` (PQC), `C98_opposites` (PQC), `C98_partial` (PQC), `C98_whole` (PQC), `C98_zeros` (PQC) |
| C99 | Multiplying a complex matrix by 1 changes nothing; NaN and infinities in the parts of complex elements | partial | `C99_dot` (PQC), `C99_expressions` (PQC), `C99_false` (PQC), `C99_matmul` (PQC), `C99_order` (PQC), `C99_partial` (PQC), `C99_real` (PQC) |
| C100 | Signs in floating-point products, sums and scalings | proved | `C100_dot` (PQC), `C100_expressions` (PQC), `C100_matmul` (PQC), `C100_open` (PQC) |
| C101 | Floating-point products, sums and scalings are monotone | proved | `C101_choice` (PQC), `C101_dot` (PQC), `C101_expressions` (PQC), `C101_matmul` (PQC) |
| C102 | Panic messages tell the truth | partial | `C102_block` (PQ), `C102_eval` (PQC), `C102_false` (P), `C102_partial` (PQC), `C102_read` (PQC), `C102_same` (PQ), `C102_slices` (PQ) |
| C103 | Changing the signs of floating-point operands changes the signs of the results and nothing else | proved | `C103_choice` (PQC), `C103_dot` (PQC), `C103_expressions` (PQC), `C103_matmul` (PQC) |
| C104 | Multiplying floating-point operands by powers of two multiplies the results by powers of two, exactly | proved | `C104_dot` (PQC), `C104_expressions` (PQC), `C104_matmul` (PQC), `C104_reference` (PQC), `C104_sums` (PQC), `C104_underflow` (PQC) |
| C105 | An element of a product depends on its row, its column and the old element only | proved | `C105_dot` (PQC), `C105_matmul` (PQC), `C105_position` (PQC), `C105_reference` (PQC) |
