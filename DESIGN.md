# Formal model of minikalman-rs in Lean 4

## Layout

* `lean/Verif/Model/` – the model of the Rust code, function by function; every definition cites file and lines in `/repo`.
  * `Basic` – panics, slices with bounds checks, loops, element types (`matrix/data_type.rs`).
  * `Matrix` – all functions of `matrix/traits.rs`, and `matrix/row_major.rs`.
  * `Filter` – `kalman/regular.rs`, `kalman/extended.rs`, `controls.rs`, `observations/regular.rs`, `observations/extended.rs`; a `World`
    (one filter, any number of controls and observations) and the API calls on it (`Op`).
  * `ExtendedWorld` – the same for the extended filter, whose calls take closures.
  * `Builder` – storages (`matrix/data/*`), typed buffers (`buffers/types/*`), `buffers/builder.rs`, `kalman_builder/*`, size macros
    (`buffers/macros.rs`, `static_macros.rs`), `matrix/nalgebra_support.rs`.
  * `Aliasing` – `correct` with temporaries that share memory (the `static_macros.rs`/documentation contract).
  * `FixedPoint` – the element types `I16F16`, `I32F32`.
  * `Float` – the element types `f32`, `f64` (IEEE 754 binary arithmetic of any format).
  * `Crash` – steps as sequences of kernel calls that may be interrupted by a caught panic.
  * `Examples` – the programs `tests/gravity.rs`, `tests/gravity_q_tuned.rs`, `examples/gravity.rs`, `examples/gravity_fixed.rs`, `examples/radar_2d.rs`;
    `Car` – `examples/car_1d.rs`.
  * `Simple` – `tests/simple.rs`; `Checked`, `CheckedPrograms` – the filters with scalar operations that may panic (debug builds);
    `ExtendedCrash`, `ExtendedShared` – interruption and shared temporaries of the extended filter.
  * `Storage` – the same filters and programs written against the public storage traits (`matrix/row_major.rs`) instead of slices, and the storages
    and wrappers of the crate as implementations of the traits.
  * `Firmware` – `predict_gravity` of `xbuild-tests/stm32/src` on its static buffers.
* `lean/Verif/Spec/` – the specifications: what it means for a buffer to hold a matrix, textbook Kalman equations on
  `Matrix (Fin n) (Fin m) T`, the textbook filter as a transition system, a random system observed by the filter, error models. No kernel or step
  of the model is used there.
* `lean/Verif/Proofs/` – lemmas.
* `lean/Verif/Props/` – the property theorems `Cxx_…`, with examples showing that the hypotheses can be met.

## Model

* A Rust panic is `Except.error` (`Res α := Except Panic α`). Every slice access is bounds checked (`rd`/`wr`), every `usize` subtraction is checked
  (in release builds the wrapped index is out of bounds in all occurrences, so it panics as well).
* A matrix is its backing slice: `structure Mat (R C : Nat) (T)` with one field `data : List T`. The const generics are the type indices; the
  length of the list is independent of them (the Rust storages may be over- or undersized). That other storages (also of users) behave like their
  slice, if they keep the contract of the traits, is C101.
* `&mut` parameters become returned values. Rust's borrow rules exclude aliasing of `&mut` with anything else, so this is faithful; temporaries that
  alias through the documented `unsafe` route are modelled in `Aliasing`.
* Loops keep the code's order, counters and accumulation order: `forUp lo hi`, `forDown n`, `while` loops by their (explicit) iteration count or as
  recursion on the loop counter.
* Element types: `0 1 + - * neg` are arbitrary total functions without any law (class `MDT`); `recip` and `square_root` may panic (fixed point types
  do); comparison is an arbitrary Boolean relation; `Sum::sum` is an arbitrary function on the list of terms. Theorems that say "any element type" or
  "any arithmetic" are proved at this level, hence cover IEEE floats with rounding, NaN and infinities. Theorems about exact values assume a
  ring/field or the reals, with the law `recip x = x⁻¹` for `x ≠ 0` only and `square_root x = √x` for `x ≥ 0` only; nothing is assumed about `recip 0`.
  The rounding theorems assume only an error bound per operation.
* The build configuration (`debug_assertions`, feature `no_assert`) is a parameter `Build` of the functions containing assertions that are not
  trivially true.
* Closures given to the extended filter are arbitrary functions `state → input → old output → Res (state × output)`: they may have state, panic, and
  read the old output buffer.

## Trusted base

* Lean's kernel and the axioms `propext`, `Classical.choice`, `Quot.sound`. Every theorem of the manifest uses a subset of these three (the
  any-arithmetic theorems about kernels often only `propext`); no axiom is added, nothing rests on compiled evaluation.
* The transcription of the Rust code into `Model/`, checked by reading and by the seeded-bug experiments in `seeded/LOG.jsonl`.
* Rust's semantics as far as used: evaluation order, bounds checks, borrow rules.

## Not modelled

* `usize` overflow of `row * COLS + column` and `ROWS * COLS` for astronomically large arguments.
* In `Model/` except `Model/Checked` the fixed point operations `+ - *` wrap (release builds). `Model/Checked` is the same code with operations that may
  panic (debug builds; C93 relates the two); what such a panic can leave behind is covered by `Crash` (it may interrupt any kernel anywhere).
  `Watched` numbers tell whether an operation whose result is used overflowed (C87, C88, C92).
* NaN payloads, signalling NaN, and the flush-to-zero or x87 modes of some targets. Any-arithmetic theorems transfer to floats directly, exact theorems
  are about ℝ; the distance between the two is bounded by C59, C60, C74 under an error model per operation, which the float model satisfies (C77).
  That the hardware and `libm` implement IEEE 754 (`sqrt` correctly rounded, `recip` as `1.0 / x`) is trusted.
* The crate `fixed` (its documented behaviour is the model `FixedPoint`), `micromath`, `libm`, `nalgebra`, `num-traits`.
* Partially overlapping temporaries (regions in `Aliasing` coincide or are disjoint).
* User-written implementations of the storage traits are modelled as far as C101 goes (cell-wise reads and writes that may violate the contract); elsewhere
  `AsRef`/`Index` are slice access as in all storages of the crate.
* Trait plumbing (`kalman/matrix_types.rs`, `kalman/filter_trait.rs`: forwarding impls), `unsafe` statics beyond sizes and aliasing, threads (the API
  takes `&mut`, so there is no concurrent access to one object in safe Rust).

## Findings

* C10: `get_row_copy` returns the wrong cells for every row but the first (unless there is one column).
* C25: `correct` ignores the result of the Cholesky decomposition; with an indefinite innovation covariance the filter is silently corrupted.
* C15: the decomposition returns false for singular positive semi-definite input, although the documentation says "false if the matrix is not positive
  semi-definite"; NaN passes its check.
* C47: out-of-range columns alias the next row.
* C58: with fixed point types a failed decomposition makes `correct` panic in `recip`.
* C67: `predict_tuned` moves the state before it can panic in `recip(λ²)`; with `I16F16` it panics for all `|λ| < 2⁻⁸` (`I32F32`: `2⁻¹⁶`).
* C81: repeating a noise-free measurement (or two such sensors for one quantity) makes the whole `f32`/`f64` state and covariance infinite or NaN,
  without any error.
* C73: `examples/radar_2d.rs` supplies a wrong observation Jacobian: `x / norm` instead of `(x - rx) / norm` in the distance and velocity rows, and
  wrong derivatives of the velocity with respect to the position. (In exact arithmetic the model divides by zero with result 0 if the object is at the
  radar, where the `f32` program gets NaN or infinity.)
* C93: the decomposition multiplies each diagonal sum with the previous reciprocal pivot and then overwrites the product. In `I16F16` builds with
  overflow checks this unused product can overflow and panic, for example for independent measurements with variances `2⁻¹⁴` and `512` in this order.
* C104: with `f32`, a variance can become negative in a correction (7 measured with noise variance `2⁻²⁴` gives `-2⁻²⁰`), after which the next
  correction makes state and covariance infinite; symmetry of the covariance is lost in ordinary corrections (`[5, 9; 9, 17]`). With `I16F16`, the
  second such correction panics.
* `STATES = 0` or `OBSERVATIONS = 0` make steps panic (loop bound `- 1`).

## Properties

| id | property | model | proof | file in `Props/` | status |
|----|----------|-------|-------|------|--------|
| C01 | mult computes the matrix product | kernels of `matrix/traits.rs` on arbitrary buffers (`Model/Matrix`) | loop invariants give the cell-wise result in any arithmetic; bridge to `Matrix.mul` etc. in a semiring | MatrixOps | proved |
| C02 | mult_buffered agrees with mult bit for bit | kernels of `matrix/traits.rs` on arbitrary buffers (`Model/Matrix`) | loop invariants give the cell-wise result in any arithmetic; bridge to `Matrix.mul` etc. in a semiring | MatrixOps | proved |
| C03 | mult_rowvector computes A*x | kernels of `matrix/traits.rs` on arbitrary buffers (`Model/Matrix`) | loop invariants give the cell-wise result in any arithmetic; bridge to `Matrix.mul` etc. in a semiring | MatrixOps | proved |
| C04 | multadd_rowvector adds A*x to the target | kernels of `matrix/traits.rs` on arbitrary buffers (`Model/Matrix`) | loop invariants give the cell-wise result in any arithmetic; bridge to `Matrix.mul` etc. in a semiring | MatrixOps | proved |
| C05 | mult_transb computes A*B^T | kernels of `matrix/traits.rs` on arbitrary buffers (`Model/Matrix`) | loop invariants give the cell-wise result in any arithmetic; bridge to `Matrix.mul` etc. in a semiring | MatrixOps | proved |
| C06 | multadd_transb and multscale_transb | kernels of `matrix/traits.rs` on arbitrary buffers (`Model/Matrix`) | loop invariants give the cell-wise result in any arithmetic; bridge to `Matrix.mul` etc. in a semiring | MatrixOps | proved |
| C07 | element-wise add and subtract keep the operand order | kernels of `matrix/traits.rs` on arbitrary buffers (`Model/Matrix`) | loop invariants give the cell-wise result in any arithmetic; bridge to `Matrix.mul` etc. in a semiring | MatrixOps | proved |
| C08 | copy_to and copy_from copy exactly the matrix | kernels of `matrix/traits.rs` on arbitrary buffers (`Model/Matrix`) | loop invariants give the cell-wise result in any arithmetic; bridge to `Matrix.mul` etc. in a semiring | MatrixOps | proved |
| C09 | get_column_copy copies the requested column | kernels of `matrix/traits.rs` on arbitrary buffers (`Model/Matrix`) | loop invariants give the cell-wise result in any arithmetic; bridge to `Matrix.mul` etc. in a semiring | MatrixOps | proved |
| C10 | get_row_copy copies the requested row | `get_row_copy` as written | false of the code for `row > 0`: exact characterisation, row 0 correct (`_partial`), refutation witness | MatrixOps | partial |
| C11 | get/set round trip and non-interference | accessors and fills | injectivity of `r*C+c`, loop invariants | MatrixOps | proved |
| C12 | make_identity, make_scalar, make_comatrix, set_diagonal_to_scalar | accessors and fills | injectivity of `r*C+c`, loop invariants | MatrixOps | proved |
| C13 | set_all, set_zero, clear overwrite the whole backing buffer | accessors and fills | injectivity of `r*C+c`, loop invariants | MatrixOps | proved |
| C14 | successful Cholesky yields the Cholesky factor | `cholesky_decompose_lower` | invariant over (i,j): computed columns satisfy `∑ L L = A`; completeness through Schur complements; two-run proof for C16 | Decomposition | proved |
| C15 | Cholesky returns true exactly for positive definite input | `cholesky_decompose_lower` | invariant over (i,j): computed columns satisfy `∑ L L = A`; completeness through Schur complements; two-run proof for C16 | Decomposition | proved |
| C16 | Cholesky depends only on the upper triangle | `cholesky_decompose_lower` | invariant over (i,j): computed columns satisfy `∑ L L = A`; completeness through Schur complements; two-run proof for C16 | Decomposition | proved |
| C17 | invert_l_cholesky after a successful Cholesky is the inverse | `invert_l_cholesky` | two phases: `M L = 1`, then `Lᵀ X = M`; symmetry in any arithmetic; two-run proof for C19 | Decomposition | proved |
| C18 | the computed inverse is exactly symmetric | `invert_l_cholesky` | two phases: `M L = 1`, then `Lᵀ X = M`; symmetry in any arithmetic; two-run proof for C19 | Decomposition | proved |
| C19 | invert_l_cholesky ignores old output contents and the strict upper triangle of its input | `invert_l_cholesky` | two phases: `M L = 1`, then `Lᵀ X = M`; symmetry in any arithmetic; two-run proof for C19 | Decomposition | proved |
| C20 | no kernel panics on valid buffers | all kernels | total correctness on valid buffers, bounds-checked reads on the others | Safety | proved |
| C21 | predict performs x = A x, P = A P A^T + Q | filter steps (`Model/Filter`) | composition of the kernel lemmas; frame conditions | Steps | proved |
| C22 | predict_tuned performs P = A P A^T / lambda^2 + Q | filter steps (`Model/Filter`) | composition of the kernel lemmas; frame conditions | Steps | proved |
| C23 | control performs x += B u, P += B Q B^T | filter steps (`Model/Filter`) | composition of the kernel lemmas; frame conditions | Steps | proved |
| C24 | correct performs the Kalman measurement update | filter steps (`Model/Filter`) | composition of the kernel lemmas; frame conditions | Steps | proved |
| C25 | a measurement update with indefinite S is signalled or leaves the filter alone | `correct` with `S = diag(4,-1)` | false of the code: the result of the decomposition is ignored; concrete execution, positive part as `_partial` | Steps | partial |
| C26 | steps never modify the user supplied model matrices | filter steps (`Model/Filter`) | composition of the kernel lemmas; frame conditions | Steps | proved |
| C27 | temporaries do not leak between steps | filter steps (`Model/Filter`) | composition of the kernel lemmas; frame conditions | Steps | proved |
| C28 | covariance stays symmetric | histories: `World` = filter, controls, observations; `Op` = any API call | induction over the history; refinement to the textbook filter `Spec.State` (C51), from which C28, C29 follow; two-run induction for C35, C36 | History | proved |
| C29 | covariance stays positive semi-definite | histories: `World` = filter, controls, observations; `Op` = any API call | induction over the history; refinement to the textbook filter `Spec.State` (C51), from which C28, C29 follow; two-run induction for C35, C36 | History | proved |
| C30 | a measurement never increases uncertainty | the steps over ℝ | matrix algebra with Mathlib's `PosSemidef`, transported to the steps by C21–C24 | Riccati | proved |
| C31 | the update equals the Joseph form | the steps over ℝ | matrix algebra with Mathlib's `PosSemidef`, transported to the steps by C21–C24 | Riccati | proved |
| C32 | the gain is optimal | the steps over ℝ | matrix algebra with Mathlib's `PosSemidef`, transported to the steps by C21–C24 | Riccati | proved |
| C33 | the update equals the information form | the steps over ℝ | matrix algebra with Mathlib's `PosSemidef`, transported to the steps by C21–C24 | Riccati | proved |
| C34 | a perfectly predicted measurement leaves the state alone | the steps over ℝ | matrix algebra with Mathlib's `PosSemidef`, transported to the steps by C21–C24 | Riccati | proved |
| C35 | the covariance trajectory does not depend on the data | histories: `World` = filter, controls, observations; `Op` = any API call | induction over the history; refinement to the textbook filter `Spec.State` (C51), from which C28, C29 follow; two-run induction for C35, C36 | History | proved |
| C36 | the estimate is linear in the data | histories: `World` = filter, controls, observations; `Op` = any API call | induction over the history; refinement to the textbook filter `Spec.State` (C51), from which C28, C29 follow; two-run induction for C35, C36 | History | proved |
| C37 | the extended filter with linear functions is the regular filter | extended filter (`Model/Filter`, `Model/ExtendedWorld`) with closures as state-passing functions that may panic | equality of programs (C37, C38); refinement over histories (C52); two-run induction (C54) | Extended | proved |
| C38 | nonlinear closures are called exactly once with the current state | extended filter (`Model/Filter`, `Model/ExtendedWorld`) with closures as state-passing functions that may panic | equality of programs (C37, C38); refinement over histories (C52); two-run induction (C54) | Extended | proved |
| C39 | builders create consistent zero filters | `Model/Builder`: constructors, typed buffers, builders, size macros | computation of lengths for all dimensions | Builder | proved |
| C40 | a filter made by the builders never panics | histories: `World` = filter, controls, observations; `Op` = any API call | induction over the history; refinement to the textbook filter `Spec.State` (C51), from which C28, C29 follow; two-run induction for C35, C36 | Builder, History | proved |
| C41 | buffer constructors and is_valid | `Model/Builder`: constructors, typed buffers, builders, size macros | computation of lengths for all dimensions | Builder | proved |
| C42 | filter steps never touch surplus buffer cells | filter steps (`Model/Filter`) | composition of the kernel lemmas; frame conditions | Steps | proved |
| C43 | sequential and batch measurement updates agree | the steps over ℝ | matrix algebra with Mathlib's `PosSemidef`, transported to the steps by C21–C24 | Riccati | proved |
| C44 | predict_tuned with 0 < lambda <= 1 inflates | the steps over ℝ | matrix algebra with Mathlib's `PosSemidef`, transported to the steps by C21–C24 | Riccati | proved |
| C45 | control steps commute | the steps over ℝ | matrix algebra with Mathlib's `PosSemidef`, transported to the steps by C21–C24 | Riccati | proved |
| C46 | buffer size macros match what the filter needs | `Model/Builder`: constructors, typed buffers, builders, size macros | computation of lengths for all dimensions | Builder | proved |
| C47 | out-of-range columns silently alias | accessors and fills | injectivity of `r*C+c`, loop invariants | MatrixOps | proved |
| C48 | nalgebra view agrees with get | `matrix/nalgebra_support.rs` | index arithmetic | Builder | proved |
| C49 | after correct the observation buffers hold innovation, Cholesky factor, inverse and gain | filter steps (`Model/Filter`) | composition of the kernel lemmas; frame conditions | Steps | proved |
| C50 | the Riccati update is monotone | the steps over ℝ | matrix algebra with Mathlib's `PosSemidef`, transported to the steps by C21–C24 | Riccati | proved |
| C51 | the program refines the textbook filter over whole histories | histories: `World` = filter, controls, observations; `Op` = any API call | induction over the history; refinement to the textbook filter `Spec.State` (C51), from which C28, C29 follow; two-run induction for C35, C36 | History | proved |
| C52 | the program refines the textbook extended filter over whole histories | extended filter (`Model/Filter`, `Model/ExtendedWorld`) with closures as state-passing functions that may panic | equality of programs (C37, C38); refinement over histories (C52); two-run induction (C54) | ExtendedHistory | proved |
| C53 | the extended filter keeps the covariance symmetric and positive semi-definite | extended filter (`Model/Filter`, `Model/ExtendedWorld`) with closures as state-passing functions that may panic | equality of programs (C37, C38); refinement over histories (C52); two-run induction (C54) | ExtendedHistory | proved |
| C54 | the extended covariance depends on the Jacobians only | extended filter (`Model/Filter`, `Model/ExtendedWorld`) with closures as state-passing functions that may panic | equality of programs (C37, C38); refinement over histories (C52); two-run induction (C54) | ExtendedHistory | proved |
| C55 | the extended filter adds no panics of its own | extended filter (`Model/Filter`, `Model/ExtendedWorld`) with closures as state-passing functions that may panic | equality of programs (C37, C38); refinement over histories (C52); two-run induction (C54) | ExtendedHistory | proved |
| C56 | the documented aliasing of temporaries is harmless, and the two prohibitions are necessary | `Model/Aliasing`: `correct` on temporaries placed in named regions of a memory; scribbling between calls | relational proof against `correct` with separate temporaries | Aliasing | proved |
| C57 | temporaries may be shared between objects | `Model/Aliasing`: `correct` on temporaries placed in named regions of a memory; scribbling between calls | relational proof against `correct` with separate temporaries | Aliasing | proved |
| C58 | the decomposition uses no unsafe scalar operation; a failed one can panic later | `Model/FixedPoint` and any element type | invariant: roots only of positive numbers, reciprocals only of such roots | FixedPoint | proved |
| C59 | rounding errors of kernels, predict, control and the state update are bounded | kernels and steps in any arithmetic with `|fl(a∘b) - a∘b| ≤ ε|a∘b| + η` | induction over the accumulation order, absolute and relative error models | Rounding | proved |
| C60 | the Cholesky decomposition computes its recurrences and is backward stable | `cholesky_decompose_lower` in any arithmetic | computed factor satisfies the recurrences literally; from these the backward error bound | RoundingChol | proved |
| C61 | Reported covariance is the true error covariance | histories run jointly with a random true system (`Spec/Stochastic`) | invariant on `E[e eᵀ]` and on the uncorrelatedness with all past innovations, induction over the history | Stochastic | proved |
| C62 | Pessimistic noise models give pessimistic covariances | histories run jointly with a random true system (`Spec/Stochastic`) | invariant on `E[e eᵀ]` and on the uncorrelatedness with all past innovations, induction over the history | Stochastic | proved |
| C63 | Innovations are white | histories run jointly with a random true system (`Spec/Stochastic`) | invariant on `E[e eᵀ]` and on the uncorrelatedness with all past innovations, induction over the history | Stochastic | proved |
| C64 | Best linear unbiased estimate | histories run jointly with a random true system (`Spec/Stochastic`) | invariant on `E[e eᵀ]` and on the uncorrelatedness with all past innovations, induction over the history | Stochastic | proved |
| C65 | Exact tracking without noise | histories run jointly with a random true system (`Spec/Stochastic`) | invariant on `E[e eᵀ]` and on the uncorrelatedness with all past innovations, induction over the history | Stochastic | proved |
| C66 | A step interrupted anywhere can be undone by restoring x and P | `Model/Crash`: every step as its sequence of kernel calls, each of which may be interrupted and leave garbage in its destination | invariants of all calls; the relational theorem of C57; case analysis of the panic point | Crash | proved |
| C67 | A failed correction leaves the filter untouched; a failed predict_tuned does not | `Model/Crash`: every step as its sequence of kernel calls, each of which may be interrupted and leave garbage in its destination | invariants of all calls; the relational theorem of C57; case analysis of the panic point | Crash | proved |
| C68 | The choice of units and coordinates does not matter | two programs in different coordinates (`Spec/Coordinates`) | simulation relation between the two textbook filters, both refined by C51 | Coordinates | proved |
| C69 | The estimate solves the least squares problem of the whole history | histories against the set of all scenarios (`Spec/LeastSquares`) | invariant: the value function of the least squares problem is described by x, P and the least cost (dual lower bound and attainment), induction over the history; textbook filter by C51 | LeastSquares | proved |
| C70 | Less noise and more measurements never enlarge the reported covariance | World.run for two programs; relations State.Below and OpsBelow between two histories (Spec/Monotone) | both runs refined to textbook filters (run_refines), then induction over the pair of histories with the monotonicity of predP, predPTuned, ctlP, corrP | Monotone | proved |
| C71 | The shipped gravity programs find the gravitational acceleration, whatever the measurement errors are | the test and example programs themselves (`Model/Examples`), measurement errors as parameters | the gains do not depend on the data: each run is an affine function of the errors with rational coefficients (symmetric 3x3 covariances computed exactly, 15 and 100 steps); refinement of predict, control and correct (C21-C24), then interval bounds on the coefficients evaluated by the kernel | Examples | proved |
| C72 | What one step of the extended filter computes | the calls predict_nonlinear, predict_tuned_nonlinear, correct_nonlinear for whatever the closure wrote | decomposition of the steps into closure call, copy/subtraction and the shared update; kernel specifications, Cholesky and inverse exactness (C14-C17) | ExtendedSteps | proved |
| C73 | The radar example supplies the Jacobians of its functions and runs for all measurements | examples/radar_2d.rs over the reals (`Model/Examples`), atan2 as the argument of a complex number; partial derivatives by Mathlib's HasDerivAt (`Spec/Radar`) | derivatives of square root, quotient and complex logarithm; comparison of the computed matrix with the true Jacobian entry by entry; invariant of the loop by C72 and the Riccati lemmas | Radar | partial |
| C74 | Rounding errors of the inversion and of the whole correction | invert_l_cholesky and the complete correct / correct_nonlinear for any element type; rounding as in C59/C60 plus exact one, exact negation and left-to-right sums (`Spec/RoundingInv`, which also states the bounds) | loop invariants that give the substitutions literally in any arithmetic, bound of one substitution step (sum, then product with the reciprocal), residuals, forward error through the inverse of the triangular factor, perturbation of the inverse by the backward error of the decomposition (C60), triangle inequalities for gain, state and covariance | RoundingCorrect | proved |
| C75 | Independent calls may be reordered | World.run with the touched data of each call listed in `Spec/Order`; reorderings as the closure under adjacent exchanges | frame lemma for assignments in the program itself (any arithmetic); in exact arithmetic two corrections commute because both equal the batch correction up to a block permutation, lifted to histories through the refinement of C51 | Order | proved |
| C76 | Information adds up, repeated measurements average | World.run on runs of corrections and assignments; gathered information defined by recursion in `Spec/Fusion` | induction with the information form (C33); the fused gain satisfies the defining equation of the gain, which has one solution; averaging by induction on the number of repetitions | Order | proved |
| C77 | Floating point: correctly rounded, within the error bounds, never a panic | binary floating point numbers of any format, `Model/Float` (finite numbers as integers in units of the smallest number, signed zeros, infinities, NaN); correct rounding stated over the reals in `Spec/Float` | the two neighbours of an exact result are found by integer division, the comparison with the midpoint decides; relative error from the spacing; instance of the error model of C59/C60/C74 and of the panic-free element types of C40 | Float | proved |
| C78 | Overflow and NaN cannot be absorbed | World.run in any rounded arithmetic; what must have been finite is listed per call in `Spec/Poison` | a finite sum or product has finite operands, through the literal any-arithmetic forms of all kernels; backward induction over the history | Float | proved |
| C79 | Infinite measurement noise switches a sensor off | `correct` on the floating point model | induction over the columns of the factor (infinite pivots, zeros below; a failure would need a finite pivot), over the rows of the substitutions, then zero gain; a rounded result that is representable is exact | Float | proved |
| C80 | What remains of the difference between measurement and estimate | `correct` on real numbers | `H K = 1 - R S⁻¹` from `H P Hᵀ = S - R`, inserted in the exact equations of C24 | Residual | proved |
| C81 | A singular innovation covariance silently destroys the whole estimate | `correct` on the floating point model | the cell a failing decomposition leaves at its pivot (strengthened C60), its reciprocal is not finite, spreads through the substitution to the inverse, the gain and every entry of the results | Residual | proved |
| C82 | The estimation error is bounded by the reported covariance times the energy of the disturbances | histories on real numbers, with an inductive description of what happened in reality (`Spec/WorstCase`) | each step keeps the quadratic bound `(yᵀe)² ≤ c yᵀPy`: Cauchy-Schwarz for the sum of two bounds, the Joseph form for corrections; induction over the history | WorstCase | proved |
| C83 | Independent subsystems in one filter do not disturb each other | pairs of histories on real numbers (`Spec/Apart`) | block structure is closed under products, sums and the inverse of S seen through `H`; corrections of the rest have no gain in the part; simultaneous induction over both histories | Apart | proved |
| C84 | Operated periodically, the filter settles down | periodic histories on real numbers (`Spec/Steady`) | the covariance map of a cycle is monotone, continuous and grows at most proportionally (closed under composition); monotone sequences of positive semi-definite matrices converge; strict subhomogeneity of a prediction with positive definite `Q` makes the fixed point unique, squeezing between the sequences from 0 and from a multiple of the bound | Steady | proved |
| C85 | The initial guess is forgotten exponentially | the same | a prediction with `A P Aᵀ ≤ b Q` shrinks the normalised difference by `b / (1 + b)`, uniformly because the covariances are bounded (C84), no other step enlarges it (C82) | Steady | proved |
| C86 | the element type is a parameter: corresponding arithmetics give corresponding programs | pairs of element types (`Spec/Parametric`) | relational (logical relation) proof through every kernel, step and builder | Parametric | proved |
| C87 | fixed point filters: explicit bounds exclude overflow, errors are a few units of the resolution | `Model/FixedPoint`; numbers with an overflow mark (`Spec/FixedPoint`) | integer arithmetic of the operations; forgetting the mark is a homomorphism (C86); marked numbers instantiate the rounding interface; magnitude induction for sums of products | Fixed | proved |
| C88 | the fixed point gravity program finds the acceleration in its own arithmetic, whatever the measurement errors are | the program itself (`Model/Examples`) over the fixed point type and over fixed point numbers with overflow marks | the gains do not depend on the data, so they are computed once by the kernel; the run is a linear recursion with these gains and rounding errors below 2^-16 per product; pull-back of a linear functional through the rounds bounds every component in every round (no overflow) and the final acceleration; transfer to unmarked numbers by C86 | GravityFixed | proved |
| C89 | gains recorded in one run serve any other data | whole histories of the model (`World.run`), and a recursion on plain vectors with recorded matrices (`Spec/Schedule`) | step by step: covariance data of the two runs agree (C35), the state of a call is a function of the matrices used and of the data; induction over the calls | Schedule | proved |
| C90 | the shipped floating point programs keep their promises whatever the measurement errors are | the programs themselves (`Model/Examples`, `Model/Car`) over the model of IEEE numbers | gains of the nominal run are computed by the kernel; by C89 every other run is a linear recursion with these gains; a certificate checker (interval pull-back with an absolute rounding error per operation, `Proofs/Certificate*`), proved sound for any arithmetic with bounded absolute error, bounds every intermediate number and the result; the checker is evaluated by the kernel | FloatPrograms | proved |
| C91 | the build configuration does not change any result | whole histories of the model in two build configurations | only the decomposition, the inversion and the builders look at the configuration; step by step, a call with a result in one configuration has the same result in the other (relational induction over the calls) | Builds | proved |
| C92 | with enough precision the program computes the textbook filter | whole histories of the model over families of element types (`Bin fmt`, `FixedPoint f`, real numbers, any rounded arithmetics); `XWorld.run` for the extended filter with closures that approximate continuous functions; `Spec/Limit`, `Spec/LimitExtended` say what it means that programs are near, or tend to, a textbook filter | continuity of every kernel: a logic for families of computations that eventually succeed and whose results tend to the result over the real numbers (`Proofs/Limit`), through loops, decomposition (pivots tend to positive numbers) and inversion; induction over the calls; the tolerances by contradiction with a sequence of worse and worse programs | Limit, LimitExtended | proved |
| C93 | builds with overflow checks | `Model/Checked`: all kernels, steps and histories again, with operators each of which may panic, in the order in which the code performs them; `FixedPoint.debugOps` are the operators of builds with overflow checks; `Model/CheckedPrograms`: `examples/gravity_fixed.rs` with these operators | simulation: a generic theorem (`Proofs/CheckedSim`) that related operators give related runs, instantiated with equality (without checks), 'same or arithmetic panic' (with checks) and 'eventually close to the real numbers' (enough bits); the panic of the discarded product by kernel evaluation; the operators themselves are compared with real arithmetic (`CheckedArithmetic`); no overflow in runs without panic by simulation with marked numbers; `gravity_fixed` for all measurement errors by affine forms (`Proofs/Affine`), whose certificate the kernel evaluates | Checked, CheckedGravity, CheckedLimit, CheckedOps | proved |
| C94 | the extended filter is the regular filter of the linearised system | `XWorld.run` (extended) and `World.run` (regular, with one more control); `Spec/Linearised` gives the calls for the linearised system and says what can have happened in reality | step by step: both refine the textbook filters, whose states agree up to the additional control; induction over the history; the error bound is that of C82 for the linearised system, with the linearisation errors as disturbances | Linearised | proved |
| C95 | between measurements: predictions compose | `World.run`; `Model/Simple`: the test filter of `tests/simple.rs` and `src/test_filter.rs`; `Spec/OpenLoop` | induction over the stretch on the textbook filter (affine maps compose), carried over by C51; closed forms by induction over the number of calls | OpenLoop | proved |
| C96 | a filter at rest stays at rest | `World.run`, `XWorld.run` over any element type; `Model/Simple`; `Spec/Rest` says what a program at rest is | the values computed by each step in any arithmetic (`predict_any`, `update_any`, …) are sums of products with a zero factor; induction over the history; zeros absorb in rings, in wrapping fixed point and, up to NaN, in floating point arithmetic | Rest | proved |
| C97 | the extended filter converges locally | `XWorld.run`; `Spec/Convergence` says what happened in reality and which bounds hold | in units of the reported standard deviation the error obeys two scalar recursions: a prediction forgets the factor sqrt(1 - q/p), curvature and disturbances add terms of second and zeroth order; invariants of the recursions by induction over the history, carried over to programs by C52 | Convergence | proved |
| C98 | what a nonlinear correction means | `ExtendedKalman.correctNonlinear` over ℝ; `Spec/GaussNewton` defines cost and Jacobian | C72 gives the result of the call; completing the square with the information form; chain rule for the slope; examples are evaluated in the kernel over ℚ | GaussNewton | proved |
| C99 | temporaries of extended filters may be shared | `Model/ExtendedShared`: extended correction with temporaries in memory regions, runs with interference | relational reasoning about two runs, step by step, as for C56 and C57; induction over histories | ExtendedShared | proved |
| C100 | Interrupted calls of the extended filter can be rolled back; calls can be used as transactions | `Model/ExtendedCrash` (the calls of `predict_tuned_nonlinear` as a sequence of kernel and closure calls, each of which can be interrupted with any garbage in its destination; programs that catch), on top of `Model/Crash`; `Spec/ExtendedCrash` (`restore`, programs that use calls as transactions) | invariants of every kernel call, completed or not (model untouched, lengths kept); then the simulation of C99 (programs whose temporaries differ) for the rest of the program; transactions by induction over their derivation; counterexamples show that the captured state must be restored and that closures must not read their output | ExtendedCrash | proved |
| C101 | Results do not depend on where the matrices are stored | `Model/Storage` (the traits as a class over families of types, with overridable methods; kernels, filters and programs written against the methods; the storages and wrappers of the crate), `Spec/Storage` (the contract, contents of a program) | kernels keep the number of elements, so writing back and reading is the identity; then one functional simulation lemma per kernel and step, induction over histories; laws checked for every storage of the crate; counterexamples per clause | Storage | proved |
| C102 | Repeated calls of the firmware routine | Model/Firmware (predict_gravity on static buffers as a state transformer; successive calls) | the loop is a run of the call model, so Limit.run_inputs (only inputs matter) applies; initialised buffers computed symbolically for arbitrary contents; fixed point of the leftovers by induction over the number of calls; concrete sequences by kernel evaluation of five (f32) and three (I16F16) calls plus the fixed point theorem | Firmware, FirmwareCalls | proved |
| C103 | What a correction does when the innovation covariance is not positive definite | Model/Cholesky (failing branch included), Model/Filter; Spec/FailedCorrection (a non-recursive description of the matrix a failed decomposition leaves) | chol_any_fail gives the cells written before giving up; the description is shown to determine pivot and matrix uniquely, the inversion and update lemmas are reused for an arbitrary lower triangular factor | FailedCorrection | proved |
| C104 | Which covariance guarantees survive rounding | `correct`/`correct_nonlinear` with one measured component in `Bin fmt` (any format), `Watched` fixed point; `World` histories with one state | `scalar_update`: the new covariance as a formula in any arithmetic; sign-bit argument for "never grows"; relative error analysis plus monotonicity of rounding for "stays non-negative"; invariant over histories for averaging; `C104_not_without_conditions` shows by kernel evaluation what fails without the conditions | Variance | proved |
| C105 | What the measurements determine is known, whatever the filter started with | histories of `World`s over exact reals; noise-free courses of the textbook state (`Spec/Observer`) | every combination of measurements gives an upper bound of the final variance (backward induction with free weights, `run_quad_le`); determined quantities are such combinations (orthogonal complement); unseen deviations are carried into the covariance unchanged (`unseen_grows`) for the converse; bounded monotone iteration for the periodic case, then C84 and C85 | Observer | proved |
| C106 | Covariance results carry over to the extended filter | extended and regular programs (`XWorld`, `World`) side by side, in any arithmetic and over exact reals | an extended call with any function relates to the regular call through a call with the linear function (C37) and C54's relational step; the exact-arithmetic parts then apply the covariance recursions of C70, C84, C105 to the linearised calls (`Spec.XOp.linear`) | ExtendedCovariance | proved |
| C107 | fixed point corrections with one measured component: explicit bounds exclude panics and overflow, errors are explicit | `correct` with one measured component over `FixedPoint f` and over `Watched f` (numbers that remember an overflow) | the result in any arithmetic is a closed formula in the root and its reciprocal (as in C104); each operation is followed with a bound for the error and for the magnitude; totality by C58 and the positive variance | CorrectFixed | proved |
| C108 | a filter with one state in floating point runs forever | `World.run` of a filter with one state over `Bin fmt` (IEEE arithmetic) | an invariant with the number of predictions since the last correction; the rounded gain is between 0 and 1 (C104) and at least nearly p/(p+r), so the corrected variance is at most 2r; rounding is monotone, so a correction moves the state towards the measurement and hardly beyond it | Forever | proved |
| C109 | a filter with one state on fixed point numbers runs forever | `World.run` of a filter with one state over `FixedPoint f` and over `Watched f` (numbers that remember overflows) | an invariant with the number of predictions since the last correction: all numbers of state, variance and measurements are clean and bounded; truncated products with |A| <= 1 do not grow; the gain is between 0 and 1 (error of the inverse from C107), so a correction moves the state at most as far as the measurement; transferred to plain numbers by C87 | ForeverFixed | proved |
| C110 | an extended filter with one state runs forever | `XWorld.run` of a filter with one state over `Bin fmt` and `FixedPoint f`, closures as arbitrary functions with a captured state | the invariants of C108 and C109 for the extended program: the covariance does what the regular one does, the predicted state is bounded by assumption, and the correction of the state is that of a regular filter with a measurement that is off by at most D; variance bounds for arbitrary closures from C106 and the any-data theorems of C108 and C109; fixed point results transferred from overflow-watching numbers by C86 | ForeverExtended | proved |
| C111 | the estimate of a single state stays within the range of the measurements | `World.run` of a filter with one state over `Bin fmt`, `FixedPoint f` and the reals | the rounded gain is at most 1 - 8u (float) respectively 1 (fixed point); a small innovation is exact and a large one has a relative error of u, so the rounded product is at most the true difference in magnitude, and rounding is monotone, so the sum does not pass the measurement; induction over the history with the invariants of C108 and C109; exact arithmetic by refinement to the textbook filter (a convex combination) | Range | proved |
| C112 | a filter for several things is several filters, bit for bit | `World.run` of two filters of different sizes over any arithmetic with `Spec.ZeroExact` | every fold over the states of the large filter skips the terms that are zero and is the fold over the states of the small one; block structure is preserved by every matrix operation the calls use; simulation between the two worlds (a relation on textbook states, calls that do not concern the part are stuttering steps), then induction over the history; fixed point numbers have a neutral zero by computation with bit vectors | Parts | proved |
| C113 | an extended filter for several things is several extended filters, bit for bit | XWorld.run for two programs whose functions agree on the part; relations XOp.Part, XOp.Other, XOp.Parts (Spec/PartsExtended) on top of Spec/Parts | as C112: simulation of the textbook filters, which both programs refine (C51); the functions are replaced by their values, then the linear steps of C112 apply; induction over the history | PartsExtended | proved |
| C114 | the choice of units, origins and coordinates does not matter to the extended filter | two programs with extended filters in different coordinates; relations State.Moved and XOpMoved (Spec/CoordinatesExtended) | as C68: simulation relation between the two textbook extended filters, both refined by C52, now with offsets, which cancel in z - h(x); Jacobians by the chain rule | CoordinatesExtended | proved |
| C115 | an extended filter with one state does not overshoot if the supplied slopes are not too small | XWorld.run with one state; conditions on functions, ranges and slopes per call in the state in which it happens (Spec/Overshoot) | refinement of the textbook extended filter (C52), the gain times the slope is between 0 and 1, induction over the history; overshooting by a concrete program | Overshoot | proved |
| C116 | a measurement that arrives late can be processed late if process noise does not affect it | two programs with regular filters, World.run; calls allowed in between Op.LeavesOut, motion of the true state State.evolved, disturbances State.Displaces and State.Unaffected (Spec/Late) | refinement of both by the textbook filter (C51), then an invariant: one filter is the other one corrected by the measurement in terms of the present state; exchange with a prediction by computing with the gain, with another correction as in C75; process noise by concrete programs | Late | proved |
| C117 | with a copy of the former state a late measurement is as good as a timely one | a program with a filter and one with a larger filter of which the first one is a part (State.Changed of C68), World.run; the copy described by a matrix D, left alone in the sense of Spec/Late | the correction of the copy equals the correction of the present state when both are equal; it is postponed by the invariant of C116; the large filter that corrects in time is related to the small one as in C68 | Clone | proved |
| C118 | what is known exactly stays known exactly, and nothing else ever is | World.run; motion of the true state State.evolved, disturbances State.Displaces and State.Unaffected (Spec/Late) | refinement of the textbook filter (C51); one call at a time: the kernel of a sum of positive semi-definite matrices is the intersection of the kernels, a correction with positive definite noise does not change the kernel; induction over the history | Known | proved |
