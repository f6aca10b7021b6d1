{"id": "C01", "title": "mult computes the matrix product", "statement": "a.mult(&b, &mut c) on buffers that hold at least ROWS*COLS values never panics and leaves c[i,j] = sum over k of a[i,k]*b[k,j] (summed in ascending k from zero) for every cell, whatever c held before; cells of c behind ROWS*U and the length of c are untouched.", "quantifier": "all dimensions ROWS, COLS, U (including 0), all element types and contents, all buffer lengths >= the matrix size", "why_tests_cant": "index arithmetic (running index_a, column-descending loop) must be right for every shape; tests use a handful of shapes", "anchors": ["crates/minikalman/src/matrix/traits.rs::Matrix::mult"]}
{"id": "C02", "title": "mult_buffered agrees with mult bit for bit", "statement": "With an auxiliary slice of exactly COLS elements, mult_buffered leaves exactly the same c as mult in any arithmetic (same operations in the same order), and the previous contents of the auxiliary slice are irrelevant; with debug assertions on, any other auxiliary length panics.", "quantifier": "all dimensions (COLS >= 1), all contents of a, b, c, aux, any (even non-associative, rounding) arithmetic", "why_tests_cant": "bit-for-bit agreement has to hold for every rounding behaviour; floating tests compare with a tolerance", "anchors": ["crates/minikalman/src/matrix/traits.rs::Matrix::mult_buffered", "crates/minikalman/src/matrix/traits.rs::Matrix::get_column_copy"]}
{"id": "C03", "title": "mult_rowvector computes A*x", "statement": "a.mult_rowvector(&x, &mut c) leaves c[i] = sum over j of a[i,j]*x[j] in ascending j starting from the first product, for COLS >= 1, without panicking, and touches nothing else; with COLS = 0 and an exactly sized x it panics instead of yielding the zero vector.", "quantifier": "all ROWS, all COLS >= 1, all contents and buffer lengths (plus the COLS = 0 edge)", "why_tests_cant": "needs every shape and every arithmetic; the empty edge is untested", "anchors": ["crates/minikalman/src/matrix/traits.rs::Matrix::mult_rowvector"]}
{"id": "C04", "title": "multadd_rowvector adds A*x to the target", "statement": "a.multadd_rowvector(&x, &mut c) leaves c[i] = old c[i] + (A*x)[i] for COLS >= 1 and touches nothing else.", "quantifier": "all ROWS, COLS >= 1, all contents", "why_tests_cant": "every shape and old content of c", "anchors": ["crates/minikalman/src/matrix/traits.rs::Matrix::multadd_rowvector"]}
{"id": "C05", "title": "mult_transb computes A*B^T", "statement": "a.mult_transb(&b, &mut c) leaves c = A*B^T for every shape, and is bit-for-bit what mult returns when handed an explicitly transposed copy of B.", "quantifier": "all ROWS, COLS, U, all contents, any arithmetic", "why_tests_cant": "running indices (index_b not reset between rows of B) must line up for all shapes", "anchors": ["crates/minikalman/src/matrix/traits.rs::Matrix::mult_transb"]}
{"id": "C06", "title": "multadd_transb and multscale_transb", "statement": "multadd_transb leaves c = old c + A*B^T and multscale_transb leaves c = (A*B^T) scaled by scale (each finished sum multiplied by scale on the right), for every shape.", "quantifier": "all ROWS, COLS, U, all contents, all scale values, any arithmetic", "why_tests_cant": "every shape, every old content", "anchors": ["crates/minikalman/src/matrix/traits.rs::Matrix::multadd_transb", "crates/minikalman/src/matrix/traits.rs::Matrix::multscale_transb"]}
{"id": "C07", "title": "element-wise add and subtract keep the operand order", "statement": "sub leaves c = a-b; add_inplace_b leaves b = b+a; sub_inplace_b leaves b = a-b (not b-a); add_inplace_a leaves a = a+b; sub_inplace_a leaves a = a-b; only the first ROWS*COLS cells change.", "quantifier": "all shapes, all contents, any arithmetic", "why_tests_cant": "operand order and range for every shape; subtraction is not commutative", "anchors": ["crates/minikalman/src/matrix/traits.rs::Matrix::sub", "crates/minikalman/src/matrix/traits.rs::Matrix::add_inplace_b", "crates/minikalman/src/matrix/traits.rs::Matrix::sub_inplace_b", "crates/minikalman/src/matrix/traits.rs::MatrixMut::add_inplace_a", "crates/minikalman/src/matrix/traits.rs::MatrixMut::sub_inplace_a"]}
{"id": "C08", "title": "copy_to and copy_from copy exactly the matrix", "statement": "copy_to (copy, copy_from) makes the target hold the same matrix as the source whenever ROWS*COLS >= 1, leaves surplus cells alone, and panics for an empty matrix.", "quantifier": "all shapes, contents, buffer lengths", "why_tests_cant": "all shapes; the empty edge underflows", "anchors": ["crates/minikalman/src/matrix/traits.rs::Matrix::copy_to", "crates/minikalman/src/matrix/traits.rs::Matrix::copy", "crates/minikalman/src/matrix/traits.rs::Matrix::copy_from"]}
{"id": "C09", "title": "get_column_copy copies the requested column", "statement": "For ROWS >= 1 and column < COLS, get_column_copy fills col_data[r] = m[r,column] for all r and leaves surplus cells of col_data alone.", "quantifier": "all shapes, all columns, all contents", "why_tests_cant": "strided descending walk must be right for all shapes and columns", "anchors": ["crates/minikalman/src/matrix/traits.rs::Matrix::get_column_copy"]}
{"id": "C10", "title": "get_row_copy copies the requested row", "statement": "For COLS >= 1 and row < ROWS, get_row_copy fills row_data[c] = m[row,c] for all c. (FALSE of the code for row >= 1: it copies cell row*(COLS-1)+c; the model proves the exact behaviour, correctness for row 0, and a refutation.)", "quantifier": "all shapes, all rows, all contents", "why_tests_cant": "no test in the crate calls it; the claim ranges over all rows and shapes", "anchors": ["crates/minikalman/src/matrix/traits.rs::Matrix::get_row_copy"]}
{"id": "C11", "title": "get/set round trip and non-interference", "statement": "After set(r,c,v) with r<ROWS, c<COLS, get(r,c) is v and every other cell is unchanged; set_symmetric sets both mirrored cells and nothing else; flat indexing m[r*COLS+c] and get(r,c) always agree; typed accessors (scalar, row, column vector) agree with get/set.", "quantifier": "all shapes, all in-range cell pairs, all values", "why_tests_cant": "injectivity of the row-major map for all shapes", "anchors": ["crates/minikalman/src/matrix/traits.rs::MatrixMut::set", "crates/minikalman/src/matrix/traits.rs::MatrixMut::set_symmetric", "crates/minikalman/src/matrix/traits.rs::Matrix::get", "crates/minikalman/src/matrix/row_major.rs::RowMajorSequentialData::get_at", "crates/minikalman/src/matrix/row_major.rs::RowMajorSequentialDataMut::set_at"]}
{"id": "C12", "title": "make_identity, make_scalar, make_comatrix, set_diagonal_to_scalar", "statement": "make_comatrix(d,o) yields d on the diagonal and o elsewhere, make_identity yields the identity, make_scalar(d) yields d*I, set_diagonal_to_scalar(v) changes the diagonal only.", "quantifier": "all N, all values, all previous contents", "why_tests_cant": "all sizes", "anchors": ["crates/minikalman/src/matrix/traits.rs::SquareMatrixMut::make_identity", "crates/minikalman/src/matrix/traits.rs::SquareMatrixMut::make_scalar", "crates/minikalman/src/matrix/traits.rs::SquareMatrixMut::make_comatrix", "crates/minikalman/src/matrix/traits.rs::SquareMatrixMut::set_diagonal_to_scalar"]}
{"id": "C13", "title": "set_all, set_zero, clear overwrite the whole backing buffer", "statement": "set_all(v) makes every matrix cell v; set_zero and clear make it the zero matrix; unlike all other operations they also overwrite surplus cells of an oversized buffer (length unchanged).", "quantifier": "all shapes, all buffer lengths", "why_tests_cant": "the surplus effect shows only for oversized buffers", "anchors": ["crates/minikalman/src/matrix/traits.rs::MatrixMut::set_all", "crates/minikalman/src/matrix/traits.rs::MatrixMut::clear", "crates/minikalman/src/matrix/traits.rs::MatrixMut::set_zero"]}
{"id": "C14", "title": "successful Cholesky yields the Cholesky factor", "statement": "If cholesky_decompose_lower returns true in exact real arithmetic then the buffer holds a lower triangular L with strictly positive diagonal and L*L^T equals the symmetric matrix given by the upper triangle of the input.", "quantifier": "all N >= 1, all real symmetric matrices", "why_tests_cant": "holds for all sizes by induction over columns; tests check one 3x3 matrix", "anchors": ["crates/minikalman/src/matrix/traits.rs::MatrixMut::cholesky_decompose_lower"]}
{"id": "C15", "title": "Cholesky returns true exactly for positive definite input", "statement": "In exact real arithmetic cholesky_decompose_lower returns true if and only if the symmetric input matrix is positive definite (strictly: positive semi-definite singular matrices yield false, contrary to the doc comment).", "quantifier": "all N >= 1, all real symmetric matrices", "why_tests_cant": "a characterisation over an infinite set of matrices", "anchors": ["crates/minikalman/src/matrix/traits.rs::MatrixMut::cholesky_decompose_lower"]}
{"id": "C16", "title": "Cholesky depends only on the upper triangle", "statement": "Two inputs that agree on and above the diagonal give the same return value, and on success the same factor, in any arithmetic.", "quantifier": "all N, all contents, any arithmetic", "why_tests_cant": "relational property over pairs of inputs", "anchors": ["crates/minikalman/src/matrix/traits.rs::MatrixMut::cholesky_decompose_lower"]}
{"id": "C17", "title": "invert_l_cholesky after a successful Cholesky is the inverse", "statement": "If cholesky_decompose_lower succeeded on a symmetric real A, then invert_l_cholesky writes A^-1; more generally for any lower triangular L with nonzero diagonal over any field it writes (L*L^T)^-1.", "quantifier": "all N >= 1, all L with nonzero diagonal", "why_tests_cant": "two triangular solves in place sharing one buffer; correct for all N only by induction", "anchors": ["crates/minikalman/src/matrix/traits.rs::SquareMatrix::invert_l_cholesky"]}
{"id": "C18", "title": "the computed inverse is exactly symmetric", "statement": "The output of invert_l_cholesky is bit-for-bit symmetric in any arithmetic, even when rounding.", "quantifier": "all N, all inputs, any arithmetic", "why_tests_cant": "exact symmetry under rounding is not testable by tolerance", "anchors": ["crates/minikalman/src/matrix/traits.rs::SquareMatrix::invert_l_cholesky"]}
{"id": "C19", "title": "invert_l_cholesky ignores old output contents and the strict upper triangle of its input", "statement": "Two runs whose inputs agree on and below the diagonal give the same output, whatever the output buffers held before, in any arithmetic.", "quantifier": "all N, pairs of inputs, any arithmetic", "why_tests_cant": "relational property", "anchors": ["crates/minikalman/src/matrix/traits.rs::SquareMatrix::invert_l_cholesky"]}
{"id": "C20", "title": "no kernel panics on valid buffers", "statement": "Every matrix operation on buffers that are is_valid() and nonempty dimensions never panics (recip/square_root of the element type aside), whatever the contents; on undersized buffers the out-of-range access is a panic, never a silent wrong read or write.", "quantifier": "all shapes, contents, lengths", "why_tests_cant": "absence of out-of-bounds for all shapes", "anchors": ["crates/minikalman/src/matrix/traits.rs", "crates/minikalman/src/matrix/row_major.rs"]}
{"id": "C21", "title": "predict performs x = A x, P = A P A^T + Q", "statement": "After filter.predict() state and covariance are exactly A*x and A*P*A^T+Q of the old values, for every number of states >= 1.", "quantifier": "all STATES >= 1, all x, A, P, Q over any commutative ring", "why_tests_cant": "all sizes, all values", "anchors": ["crates/minikalman/src/kalman/regular.rs::RegularKalman::predict", "crates/minikalman/src/kalman/regular.rs::RegularKalman::predict_x", "crates/minikalman/src/kalman/regular.rs::RegularKalman::predict_P"]}
{"id": "C22", "title": "predict_tuned performs P = A P A^T / lambda^2 + Q", "statement": "predict_tuned(lambda) with lambda != 0 sets x = A*x and P = (1/lambda^2) A P A^T + Q, and with lambda = 1 it equals predict.", "quantifier": "all STATES >= 1, all values, all lambda != 0", "why_tests_cant": "all sizes, all lambda", "anchors": ["crates/minikalman/src/kalman/regular.rs::RegularKalman::predict_tuned", "crates/minikalman/src/kalman/regular.rs::RegularKalman::predict_P_tuned"]}
{"id": "C23", "title": "control performs x += B u, P += B Q B^T", "statement": "filter.control(&mut c) adds B*u to the state and B*Q*B^T to the covariance; with zero controls it is a no-op on filter and control.", "quantifier": "all STATES, CONTROLS, all values", "why_tests_cant": "all sizes", "anchors": ["crates/minikalman/src/controls.rs::Control::apply_control", "crates/minikalman/src/kalman/regular.rs::RegularKalman::control"]}
{"id": "C24", "title": "correct performs the Kalman measurement update", "statement": "If S = H P H^T + R is positive definite, filter.correct(&mut m) sets x = x + K(z - Hx) and P = P - K H P with K = P H^T S^-1.", "quantifier": "all STATES >= 1, OBSERVATIONS >= 1, all real values with S positive definite", "why_tests_cant": "composition of eleven kernels over all sizes", "anchors": ["crates/minikalman/src/observations/regular.rs::RegularObservation::correct", "crates/minikalman/src/observations/regular.rs::RegularObservation::update_with_innovation"]}
{"id": "C25", "title": "a measurement update with indefinite S is signalled or leaves the filter alone", "statement": "When the innovation covariance is not positive definite (Cholesky fails), correct either reports it or does not corrupt the estimate. (FALSE of the code: the boolean is dropped and a wrong gain is used; the model proves a concrete reachable counterexample with the exact values.)", "quantifier": "all filters, all measurements with S not positive definite", "why_tests_cant": "tests never exercise a failing decomposition inside correct", "anchors": ["crates/minikalman/src/observations/regular.rs::RegularObservation::update_with_innovation", "crates/minikalman/src/matrix/traits.rs::MatrixMut::cholesky_decompose_lower"]}
{"id": "C26", "title": "steps never modify the user supplied model matrices", "statement": "predict/predict_tuned leave A and Q, control leaves u, B and Q, correct leaves z, H and R exactly as they were.", "quantifier": "all sizes, contents, any arithmetic", "why_tests_cant": "frame condition over all inputs", "anchors": ["crates/minikalman/src/kalman/regular.rs", "crates/minikalman/src/controls.rs", "crates/minikalman/src/observations/regular.rs", "crates/minikalman/src/observations/extended.rs"]}
{"id": "C27", "title": "temporaries do not leak between steps", "statement": "The state, covariance and model matrices after any step do not depend on the previous contents of any temporary buffer (predicted x, temp P, temp BQ, y, S, K, S_inv, temp HP, temp PHt, temp KHP).", "quantifier": "all sizes, all pairs of temporaries contents, any arithmetic", "why_tests_cant": "relational property over pairs of runs; stale-data bugs show only for particular histories", "anchors": ["crates/minikalman/src/kalman/regular.rs", "crates/minikalman/src/controls.rs", "crates/minikalman/src/observations/regular.rs"]}
{"id": "C28", "title": "covariance stays symmetric", "statement": "If P, Q, R (and control Q) are symmetric then P is symmetric after every sequence of predict, predict_tuned, control and correct steps with S positive definite.", "quantifier": "all sizes, all finite histories, exact arithmetic", "why_tests_cant": "invariant over histories", "anchors": ["crates/minikalman/src/kalman/regular.rs", "crates/minikalman/src/controls.rs", "crates/minikalman/src/observations/regular.rs"]}
{"id": "C29", "title": "covariance stays positive semi-definite", "statement": "If P, Q, control Q are positive semi-definite and every R is positive definite then after any history of steps P is positive semi-definite, every S met on the way is positive definite (so Cholesky always succeeds), and no step panics.", "quantifier": "all sizes, all finite histories with arbitrary measurements, controls, lambda != 0", "why_tests_cant": "invariant over unbounded histories", "anchors": ["crates/minikalman/src/kalman/regular.rs", "crates/minikalman/src/controls.rs", "crates/minikalman/src/observations/regular.rs"]}
{"id": "C30", "title": "a measurement never increases uncertainty", "statement": "P_before - P_after is positive semi-definite for every correct step; in particular no diagonal entry of P grows, and H P_after H^T <= R.", "quantifier": "all sizes, P >= 0, R > 0, all H, z", "why_tests_cant": "Loewner order statement", "anchors": ["crates/minikalman/src/observations/regular.rs::RegularObservation::correct"]}
{"id": "C31", "title": "the update equals the Joseph form", "statement": "P_after = (I-KH) P (I-KH)^T + K R K^T for symmetric P.", "quantifier": "all sizes, symmetric P, R with S positive definite", "why_tests_cant": "algebraic identity for all sizes", "anchors": ["crates/minikalman/src/observations/regular.rs::RegularObservation::correct"]}
{"id": "C32", "title": "the gain is optimal", "statement": "For every other gain G the error covariance (I-GH)P(I-GH)^T + G R G^T is at least P_after in the Loewner order; with equality only for G = K.", "quantifier": "all sizes, all gains G", "why_tests_cant": "quantifies over all gains", "anchors": ["crates/minikalman/src/observations/regular.rs::RegularObservation::correct"]}
{"id": "C33", "title": "the update equals the information form", "statement": "If P and R are positive definite then P_after^-1 = P^-1 + H^T R^-1 H.", "quantifier": "all sizes, positive definite P and R", "why_tests_cant": "matrix inversion lemma for all sizes", "anchors": ["crates/minikalman/src/observations/regular.rs::RegularObservation::correct"]}
{"id": "C34", "title": "a perfectly predicted measurement leaves the state alone", "statement": "If z = H x then correct leaves x unchanged while P shrinks as usual; if H = 0 both x and P are unchanged.", "quantifier": "all sizes, all values with S positive definite", "why_tests_cant": "all sizes, all values", "anchors": ["crates/minikalman/src/observations/regular.rs::RegularObservation::correct"]}
{"id": "C35", "title": "the covariance trajectory does not depend on the data", "statement": "The sequence of covariances (and gains, and whether a step panics) does not depend on the state, the measurements or the control inputs: two histories that differ only in x, z and u have identical P after every step, in any arithmetic.", "quantifier": "all sizes, all pairs of histories, any arithmetic", "why_tests_cant": "relational property over pairs of histories", "anchors": ["crates/minikalman/src/kalman/regular.rs", "crates/minikalman/src/controls.rs", "crates/minikalman/src/observations/regular.rs"]}
{"id": "C36", "title": "the estimate is linear in the data", "statement": "For a fixed history of covariances the final state is a linear function of the initial state, the measurements and the control inputs.", "quantifier": "all sizes, all histories, exact arithmetic", "why_tests_cant": "superposition over all histories", "anchors": ["crates/minikalman/src/kalman/regular.rs", "crates/minikalman/src/controls.rs", "crates/minikalman/src/observations/regular.rs"]}
{"id": "C37", "title": "the extended filter with linear functions is the regular filter", "statement": "predict_nonlinear/predict_tuned_nonlinear with the closure x -> A x and correct_nonlinear with the closure x -> H x give bit-for-bit the same state, covariance and buffers as predict/predict_tuned/correct.", "quantifier": "all sizes, all contents, any arithmetic, all histories", "why_tests_cant": "equivalence of two code paths on all inputs", "anchors": ["crates/minikalman/src/kalman/extended.rs", "crates/minikalman/src/observations/extended.rs", "crates/minikalman/src/kalman/regular.rs", "crates/minikalman/src/observations/regular.rs"]}
{"id": "C38", "title": "nonlinear closures are called exactly once with the current state", "statement": "predict_nonlinear calls its closure exactly once, with the pre-step state, and the new state is exactly what the closure wrote; correct_nonlinear likewise and y = z - h(x). Cells the closure does not write keep the value of the previous use of the buffer.", "quantifier": "all closures (stateful), all sizes", "why_tests_cant": "quantifies over all closures", "anchors": ["crates/minikalman/src/kalman/extended.rs::ExtendedKalman::predict_nonlinear", "crates/minikalman/src/observations/extended.rs::ExtendedObservation::correct_nonlinear"]}
{"id": "C39", "title": "builders create consistent zero filters", "statement": "KalmanFilterBuilder/ControlBuilder/ObservationBuilder (regular and extended) yield buffers of exactly the matrix size, all cells the default value, each in the right role. The constructors that take the user's own buffers (RegularKalmanBuilder::new etc.) use each buffer in the role it is passed for.", "quantifier": "all STATES, CONTROLS, OBSERVATIONS", "why_tests_cant": "all dimensions", "anchors": ["crates/minikalman/src/kalman_builder/regular.rs", "crates/minikalman/src/kalman_builder/extended.rs", "crates/minikalman/src/buffers/builder.rs"]}
{"id": "C40", "title": "a filter made by the builders never panics", "statement": "Any sequence of predict, predict_tuned, control, correct and any overwriting of x, A, P, Q, u, B, z, H, R between them on builder-made objects with STATES >= 1 and OBSERVATIONS >= 1 never panics when the element type has total recip/square_root (floats).", "quantifier": "all dimensions, all histories, all contents (NaN included)", "why_tests_cant": "unbounded histories, all contents", "anchors": ["crates/minikalman/src/kalman_builder/regular.rs", "crates/minikalman/src/kalman/regular.rs", "crates/minikalman/src/controls.rs", "crates/minikalman/src/observations/regular.rs"]}
{"id": "C41", "title": "buffer constructors and is_valid", "statement": "is_valid() is true exactly if the backing buffer has at least ROWS*COLS elements; with assertions on, constructing a typed buffer from a too short slice or array panics, from any other succeeds and is valid; MatrixDataArray::new and MatrixDataBoxed::new accept exactly the matching length.", "quantifier": "all dimensions, all lengths", "why_tests_cant": "all lengths", "anchors": ["crates/minikalman/src/buffers/macros.rs", "crates/minikalman/src/buffers/types", "crates/minikalman/src/matrix/data", "crates/minikalman/src/matrix/row_major.rs"]}
{"id": "C42", "title": "filter steps never touch surplus buffer cells", "statement": "With oversized backing buffers no filter, control or observation step changes any cell behind the matrix size nor any buffer length.", "quantifier": "all sizes, all buffer lengths, any arithmetic", "why_tests_cant": "frame condition for all lengths", "anchors": ["crates/minikalman/src/kalman/regular.rs", "crates/minikalman/src/controls.rs", "crates/minikalman/src/observations/regular.rs"]}
{"id": "C43", "title": "sequential and batch measurement updates agree", "statement": "Correcting with two independent measurements one after the other gives the same x and P as one correction with the stacked measurement (block diagonal R), hence the order of independent measurements does not matter.", "quantifier": "all sizes, P >= 0, R1,R2 > 0", "why_tests_cant": "algebraic identity for all sizes", "anchors": ["crates/minikalman/src/observations/regular.rs::RegularObservation::correct"]}
{"id": "C44", "title": "predict_tuned with 0 < lambda <= 1 inflates", "statement": "For 0 < |lambda| <= 1 and P >= 0, predict_tuned yields at least the covariance of predict in the Loewner order, and is antitone in lambda.", "quantifier": "all sizes, all lambda", "why_tests_cant": "order statement", "anchors": ["crates/minikalman/src/kalman/regular.rs::RegularKalman::predict_tuned"]}
{"id": "C45", "title": "control steps commute", "statement": "Applying two controls in either order gives the same x and P (exact arithmetic).", "quantifier": "all sizes, all control dimensions", "why_tests_cant": "all sizes", "anchors": ["crates/minikalman/src/controls.rs::Control::apply_control"]}
{"id": "C46", "title": "buffer size macros match what the filter needs", "statement": "size_buffer_A/P/x/Q/u/B/z/H/R/y/S/K/temp_* yield exactly ROWS*COLS of the role they are used for, and the impl_buffer_* statics built from them form a filter that is valid in every role.", "quantifier": "all dimensions", "why_tests_cant": "all dimensions", "anchors": ["crates/minikalman/src/lib.rs", "crates/minikalman/src/static_macros.rs"]}
{"id": "C47", "title": "out-of-range columns silently alias", "statement": "get(r,c)/set(r,c) with c >= COLS do not necessarily panic: they access cell (r + c/COLS, c mod COLS) when that lies in the buffer and panic otherwise; no access outside the buffer ever succeeds.", "quantifier": "all shapes, all row/column arguments", "why_tests_cant": "all arguments", "anchors": ["crates/minikalman/src/matrix/row_major.rs", "crates/minikalman/src/matrix/traits.rs"]}
{"id": "C48", "title": "nalgebra view agrees with get", "statement": "The RawStorage offset of (r,c) (r*RStride + c*CStride) addresses the same element as get(r,c), for all in-range cells; the ROWS*COLS elements exposed by as_slice_unchecked are inside the buffer exactly if the buffer is valid (FALSE for arrays made by the unchecked constructor).", "quantifier": "all shapes, all lengths", "why_tests_cant": "unsafe code: soundness must hold for all shapes", "anchors": ["crates/minikalman/src/matrix/nalgebra_support.rs", "crates/minikalman/src/matrix/data/matrix_data_array.rs"]}
{"id": "C49", "title": "after correct the observation buffers hold innovation, Cholesky factor, inverse and gain", "statement": "After a successful correct: y = z - H x_old, the S buffer holds the lower Cholesky factor of H P H^T + R (not S itself), the S_inv buffer its inverse, K the Kalman gain.", "quantifier": "all sizes, S positive definite", "why_tests_cant": "all sizes, values", "anchors": ["crates/minikalman/src/observations/regular.rs::RegularObservation::update_with_innovation"]}
{"id": "C50", "title": "the Riccati update is monotone", "statement": "If P <= P' in the Loewner order (both PSD) then after the same predict, control or correct step the covariances are ordered the same way.", "quantifier": "all sizes, all pairs of covariances", "why_tests_cant": "order statement over pairs of runs", "anchors": ["crates/minikalman/src/kalman/regular.rs", "crates/minikalman/src/observations/regular.rs"]}
{"id": "C51", "title": "the program refines the textbook filter over whole histories", "statement": "For every list of API calls (steps and overwriting of any user supplied buffer) on any number of controls and observations sharing one filter, in exact arithmetic, the state and covariance at the end are those of the textbook filter run on the same calls, provided every innovation covariance met on the way is positive definite and predict_tuned(0) is not called.", "quantifier": "all sizes, numbers of objects, all finite histories", "why_tests_cant": "unbounded histories; state carried over in shared buffers", "anchors": ["crates/minikalman/src/kalman/regular.rs", "crates/minikalman/src/controls.rs", "crates/minikalman/src/observations/regular.rs"]}
{"id": "C52", "title": "the program refines the textbook extended filter over whole histories", "statement": "For every list of predict_nonlinear, predict_tuned_nonlinear, correct_nonlinear calls with closures computing arbitrary functions, and overwriting of any user supplied buffer (Jacobians included), in exact arithmetic, the state and covariance at the end are those of the textbook extended filter, provided every innovation covariance met is positive definite and lambda is not 0.", "quantifier": "all sizes, all functions, all finite histories", "why_tests_cant": "unbounded histories, all functions", "anchors": ["crates/minikalman/src/kalman/extended.rs", "crates/minikalman/src/observations/extended.rs"]}
{"id": "C53", "title": "the extended filter keeps the covariance symmetric and positive semi-definite", "statement": "Whatever the nonlinear functions and Jacobians, symmetric covariances stay symmetric; positive semi-definite P, Q with positive definite R stay positive semi-definite over every history, with every innovation covariance positive definite and no panic.", "quantifier": "all sizes, functions, Jacobians, finite histories, exact arithmetic", "why_tests_cant": "invariant over unbounded histories", "anchors": ["crates/minikalman/src/kalman/extended.rs", "crates/minikalman/src/observations/extended.rs"]}
{"id": "C54", "title": "the extended covariance depends on the Jacobians only", "statement": "Two histories of the extended filter with the same matrices (A, P, Q, H, R) but different closures, states and measurements end with identical covariances (or panic alike), in any arithmetic.", "quantifier": "all sizes, all pairs of histories and closures, any arithmetic", "why_tests_cant": "relational property over pairs of histories and closures", "anchors": ["crates/minikalman/src/kalman/extended.rs", "crates/minikalman/src/observations/extended.rs"]}
{"id": "C55", "title": "the extended filter adds no panics of its own", "statement": "A history on valid extended filter objects can only panic because a closure panics or recip/square_root of the element type panics.", "quantifier": "all sizes, histories, closures that keep the output buffer length", "why_tests_cant": "unbounded histories", "anchors": ["crates/minikalman/src/kalman/extended.rs", "crates/minikalman/src/observations/extended.rs"]}
{"id": "C56", "title": "the documented aliasing of temporaries is harmless, and the two prohibitions are necessary", "statement": "The documentation of an observation says temp_S_inv must not share memory with temp_PHt, temp_HP must not share memory with temp_KHP, and everything else may. Under exactly these rules correct returns bit for bit the same x, P, y, S, K as with separate buffers (or panics alike); breaking either rule gives wrong results.", "quantifier": "all sizes, all buffers and contents, all ways to place the four temporaries, any arithmetic", "why_tests_cant": "all aliasing patterns and contents", "anchors": ["crates/minikalman/src/observations/regular.rs: temp_S_inv, temp_HP, temp_PHt, temp_KHP, update_with_innovation", "crates/minikalman/src/observations/extended.rs"]}
{"id": "C57", "title": "temporaries may be shared between objects", "statement": "If temporaries (and y, S, K) of a filter, its controls and observations are overwritten arbitrarily between any calls of any history, because other objects share the memory, then x, P and all model inputs are bit for bit what they are without the interference (or the program panics alike).", "quantifier": "all sizes, histories, interference patterns, any arithmetic", "why_tests_cant": "all schedules of interference over unbounded histories", "anchors": ["crates/minikalman/src/kalman/regular.rs: temp_P", "crates/minikalman/src/controls.rs: temp_BQ", "crates/minikalman/src/observations/regular.rs"]}
{"id": "C58", "title": "the decomposition uses no unsafe scalar operation; a failed one can panic later", "statement": "With an element type whose roots of positive numbers and reciprocals of such roots exist (floats; I16F16, I32F32), cholesky_decompose_lower never panics, invert_l_cholesky never panics after success, and correct panics only if the ignored Boolean was false. Conversely a non-positive first innovation variance makes correct panic when 1/0 panics; in particular correct on a freshly built (all zero) fixed point filter always panics.", "quantifier": "all sizes, buffer contents, element types with the stated scalar laws; all values of the fixed point types", "why_tests_cant": "all contents and all element types", "anchors": ["crates/minikalman/src/matrix/traits.rs: cholesky_decompose_lower, invert_l_cholesky", "crates/minikalman/src/matrix/data_type.rs: I16F16", "crates/minikalman/src/observations/regular.rs: update_with_innovation"]}
{"id": "C59", "title": "rounding errors of kernels, predict, control and the state update are bounded", "statement": "For every arithmetic with relative rounding error u per operation and absolute error eta per product (IEEE floats with overflow to infinity, fixed point with overflow detection), every finite number computed by mult, mult_transb, mult_rowvector, multadd_rowvector, predict, control and the state part of correct differs from the exact result on the same inputs by at most a stated bound of the form ((1+u)^k - 1)|A||B| + O(k eta); in particular the asymmetry of the predicted covariance is bounded.", "quantifier": "all sizes, all finite inputs, all roundings within the model", "why_tests_cant": "all roundings and all inputs; tests compare a few values to a tolerance", "anchors": ["crates/minikalman/src/matrix/traits.rs: mult, mult_transb, mult_rowvector, multadd_rowvector, multadd_transb", "crates/minikalman/src/kalman/regular.rs: predict, control, correct"]}
{"id": "C60", "title": "the Cholesky decomposition computes its recurrences and is backward stable", "statement": "In any arithmetic, a reported success of cholesky_decompose_lower means the factor satisfies the textbook recurrences operation by operation, with no pivot found <= 0. With rounded arithmetic (relative error u, absolute error eta per operation) and a finite factor, L times its transpose differs from the input, entry by entry, by at most ((1+u)^(n+3) - 1)(|A| + |L||L|^T) plus stated absolute errors of order eta.", "quantifier": "all sizes, all inputs, all arithmetics, all roundings within the model", "why_tests_cant": "all roundings and all matrices", "anchors": ["crates/minikalman/src/matrix/traits.rs: cholesky_decompose_lower"]}
{"id": "C61", "title": "Reported covariance is the true error covariance", "statement": "Run the filter in a random world: a true state moves by the same matrices as the filter's, disturbed by random noise in predict, in the control inputs and in the measurements. If the noises are uncorrelated with each other and with the initial error and have exactly the covariances Q, R, and control noise covariance given to the program, and the initial covariance is that of the initial error, then after any sequence of predict, control, correct (any mix of observations) and changes of model matrices, the covariance matrix the program reports equals E[(x - x_est)(x - x_est)^T], in exact arithmetic. If the initial error and the noises have mean zero, the estimate is unbiased, even if the covariances told are wrong.", "quantifier": "All measure spaces, true dynamics, noise processes (no distribution assumed), state/measurement/control dimensions, matrices, buffer sizes, arbitrarily long histories.", "why_tests_cant": "It is a statement about expectations over all outcomes of arbitrary random processes and all histories.", "anchors": ["crates/minikalman/src/kalman/regular.rs: predict, control, correct", "crates/minikalman/src/observations/regular.rs: correct", "crates/minikalman/src/control.rs: apply_control"]}
{"id": "C62", "title": "Pessimistic noise models give pessimistic covariances", "statement": "If the covariances told to the filter are at least the true ones (in the positive semidefinite order) then after any history, also with predict_tuned (0 < |lambda| <= 1), the reported covariance is at least the true error covariance.", "quantifier": "All measure spaces, noise processes with covariance at most the one told, histories including predict_tuned.", "why_tests_cant": "Expectation over arbitrary random processes and all histories.", "anchors": ["crates/minikalman/src/kalman/regular.rs: predict, predict_tuned, control, correct"]}
{"id": "C63", "title": "Innovations are white", "statement": "Under the assumptions of C61 the innovation vector y left in the observation's innovation buffer by a correction has second moment matrix L L^T where L is the lower triangular matrix left in the residual covariance buffer, innovations of different corrections (of any observations, with any steps in between) are uncorrelated, and the estimation error is uncorrelated with all earlier innovations.", "quantifier": "All measure spaces, noise processes, histories before, between and after the two corrections.", "why_tests_cant": "Expectation over arbitrary random processes and all histories.", "anchors": ["crates/minikalman/src/observations/regular.rs: correct", "crates/minikalman/src/kalman/regular.rs: correct"]}
{"id": "C64", "title": "Best linear unbiased estimate", "statement": "Under the assumptions of C61 with zero means, the estimate after any history is an affine function of the initial estimate and all measurements, and every other affine function of these data has an error covariance at least as large (so mean square error in no component is smaller). Control inputs may be computed from earlier measurements and estimates by linear feedback.", "quantifier": "All measure spaces, noise processes, histories, all competing affine estimators.", "why_tests_cant": "Quantifies over all competing estimators and all random processes.", "anchors": ["crates/minikalman/src/kalman/regular.rs: predict, control, correct", "crates/minikalman/src/observations/regular.rs: correct"]}
{"id": "C65", "title": "Exact tracking without noise", "statement": "If the estimate is exact, the true state moves without noise and measurements are exact, the estimate stays exact in every outcome after any history, whatever covariances the filter is told and also with predict_tuned.", "quantifier": "All models, positive semidefinite covariances, histories.", "why_tests_cant": "All histories and matrices.", "anchors": ["crates/minikalman/src/kalman/regular.rs: predict, predict_tuned, control, correct"]}
{"id": "C66", "title": "A step interrupted anywhere can be undone by restoring x and P", "statement": "Let a panic interrupt predict, predict_tuned, control or correct anywhere, in the middle of any matrix kernel (e.g. an overflow panic of a fixed point type in a debug build), and let the caller catch it. All buffers keep their sizes; A, Q, B, u, H, z, R are untouched; writing a saved state vector and covariance back makes every following program behave (results and panics) bit for bit as if the interrupted call had not been made. A program that catches any number of such panics and goes on panics later only in recip/square_root. predict and correct finish the state vector before they touch the covariance.", "quantifier": "all element types and dimensions, all valid buffers and contents, all programs, all crash points in all calls, all garbage left by the interrupted kernel, all programs run afterwards", "why_tests_cant": "Crash points times histories times garbage contents are unbounded; a test interrupts one kernel of one run.", "anchors": ["crates/minikalman/src/kalman/regular.rs: RegularKalman::predict, predict_tuned, control, correct", "crates/minikalman/src/observations/regular.rs: correct, update_with_innovation", "crates/minikalman/src/controls.rs: apply_control"]}
{"id": "C67", "title": "A failed correction leaves the filter untouched; a failed predict_tuned does not", "statement": "If correct panics in recip or square_root, the filter is bit for bit unchanged and the observation keeps H, z and R: the measurement can be skipped. The same holds for correct_nonlinear, also when the user's closure panics; a panicking closure in predict_nonlinear leaves x, A, P, Q unchanged. predict and control cannot fail. predict_tuned can: if recip(lambda^2) panics, the state is already the predicted one while the covariance is the old one; with I16F16 this happens for every |lambda| < 2^-8, with I32F32 for every |lambda| < 2^-16.", "quantifier": "all element types (with panicking recip/square_root), all dimensions, all valid buffers and contents, all closures, all points of failure", "why_tests_cant": "Failure points depend on contents (which pivot is zero); atomicity must hold for all of them.", "anchors": ["crates/minikalman/src/observations/regular.rs: update_with_innovation", "crates/minikalman/src/observations/extended.rs: update_with_innovation, correct_nonlinear", "crates/minikalman/src/kalman/regular.rs: predict_tuned, predict_P_tuned", "crates/minikalman/src/kalman/extended.rs: predict_nonlinear"]}
{"id": "C68", "title": "The choice of units and coordinates does not matter", "statement": "In exact arithmetic, take a program and the same program in other coordinates: state x' = T x, control inputs u' = W u, measurements z' = M z with M invertible, and all matrices converted accordingly (A' T = T A, P' = c T P T^T, H' T = M H, ...; c > 0 is a common scale of all covariances, which changes no estimate). After the same history of calls, with assigned data in the respective coordinates, neither panics and the second holds T x and c T P T^T. T may be a change of units or of basis, a permutation, or the restriction to a part of the state that evolves on its own and is the only part measured: a small filter for that part gives exactly the corresponding entries of the large one.", "quantifier": "all dimensions, all T (rectangular), W, invertible M, all histories whose corrections meet a positive definite innovation covariance", "why_tests_cant": "All linear maps and all histories; a test tries one conversion.", "anchors": ["crates/minikalman/src/kalman/regular.rs: predict, predict_tuned, control, correct", "crates/minikalman/src/observations/regular.rs: correct", "crates/minikalman/src/controls.rs: apply_control"]}
{"id": "C69", "title": "The estimate solves the least squares problem of the whole history", "statement": "Call a scenario of a history a possible course of the true state: true initial state, disturbances w of the predictions (v' = A v + w) and of control inputs (v' = v + B(u+w)), measurement errors z - H v; it costs the sum of the weighted squares (weights: inverses of initial P, Q, control Q, R at that time), where predict_tuned(lambda) discounts all earlier costs by lambda^2. After any history that does not overwrite x or P, in exact arithmetic, the state vector is the end of the cheapest scenario and every scenario ending elsewhere costs strictly more; the cheapest scenario ending in v costs J + (v-x)^T P^-1 (v-x).", "quantifier": "all dimensions, all histories (including overwriting A, Q, B, u, H, z, R and control noise at any time), positive semi-definite covariances (singular allowed), positive definite measurement noises, all competing scenarios", "why_tests_cant": "An optimum over all trajectories for all histories.", "anchors": ["crates/minikalman/src/kalman/regular.rs: predict, predict_tuned, control, correct", "crates/minikalman/src/observations/regular.rs: correct", "crates/minikalman/src/controls.rs: apply_control"]}
{"id": "C70", "title": "Less noise and more measurements never enlarge the reported covariance", "statement": "Run two programs with the same system matrices A, B, H on two histories of which the second has at least as much noise in every covariance (initial P, Q, control Q, R, whether initial or set later), at least as much inflation in every tuned prediction, possibly fewer corrections and possibly more control inputs. In exact arithmetic neither panics, and the covariance the second one ends with is at least that of the first one (difference positive semi-definite, in particular every variance is at least as large), whatever the states, the inputs and the measured values are.", "quantifier": "all dimensions, all pairs of histories that differ in this way, all states, inputs and measurements, positive semi-definite covariances, positive definite measurement noises", "why_tests_cant": "A statement about pairs of unbounded histories.", "anchors": ["crates/minikalman/src/kalman/regular.rs: predict, predict_tuned, control, correct", "crates/minikalman/src/observations/regular.rs: correct", "crates/minikalman/src/controls.rs: apply_control"]}
{"id": "C71", "title": "The shipped gravity programs find the gravitational acceleration, whatever the measurement errors are", "statement": "tests/gravity.rs: in exact arithmetic, with any 15 measurement errors of at most 4 (the test has one series, below 0.9), the program does not panic and its assertion 9 < g < 10 holds. tests/gravity_q_tuned.rs (lambda = 0.5): the same for errors of at most 0.16, and for all errors within 0.045 of those in the test. examples/gravity.rs (with a control input): for every acceleration g of the simulated object and all 100 measurement errors up to d the estimate g' satisfies |g' - g| <= 1.53 d + 1e-20 |g - 6|; in particular the assertion of the example holds for all errors up to 0.12.", "quantifier": "all measurement error sequences within the bounds, all accelerations, all builds; exact arithmetic", "why_tests_cant": "The tests run one series of errors, the example a random one; the assertion must hold for all of them.", "anchors": ["crates/minikalman/tests/gravity.rs: test_gravity_estimation", "crates/minikalman/tests/gravity_q_tuned.rs: test_gravity_estimation_tuned", "crates/minikalman/examples/gravity.rs: main, generate_values"]}
{"id": "C72", "title": "What one step of the extended filter computes", "statement": "predict_nonlinear sets x to the vector the closure left in the prediction buffer and P to A P A^T + Q; predict_tuned_nonlinear likewise with lambda^-2 A P A^T + Q; correct_nonlinear, in exact arithmetic and with positive definite S = H P H^T + R, sets x to x + K (z - h) and P to P - K H P with K = P H^T S^-1, h being what the closure left in the innovation buffer, and leaves z - h, the Cholesky factor of S, S^-1 and K in the observation. Jacobians, noises and the measurement are kept by every step that returns.", "quantifier": "all dimensions, buffers, contents and closures (stateful, partially writing); predictions in every commutative ring or field, corrections over the reals; inputs kept in any arithmetic", "why_tests_cant": "All closures, contents and dimensions.", "anchors": ["crates/minikalman/src/kalman/extended.rs: predict_nonlinear, predict_tuned_nonlinear, correct_nonlinear, predict_P, predict_P_tuned", "crates/minikalman/src/observations/extended.rs: correct_nonlinear, update_with_innovation"]}
{"id": "C73", "title": "The radar example supplies the Jacobians of its functions and runs for all measurements", "statement": "examples/radar_2d.rs: the closures compute motion with constant velocity and the distance, direction and radial speed seen by the radar; the transition Jacobian it sets is the matrix of the partial derivatives of the transition at every state; the observation Jacobian it sets is the matrix of the partial derivatives of the observation (false: only the direction row is right; the distance row is right only if the radar is at the origin, and the velocity row is wrong almost everywhere); for every radar position, time step and sequence of measurements it does not panic and ends with a positive semi-definite covariance.", "quantifier": "all states, radar positions, time steps, measurement sequences and builds; exact arithmetic", "why_tests_cant": "Derivatives at all states; the example is only ever run along one random trajectory and checks nothing.", "anchors": ["crates/minikalman/examples/radar_2d.rs: main"]}
{"id": "C74", "title": "Rounding errors of the inversion and of the whole correction", "statement": "With rounded arithmetic (relative error u and absolute error eta per operation, finite results only from finite operands) everything correct computes is the exact result up to explicit bounds. Whatever the arithmetic, invert_l_cholesky performs forward and backward substitution with sums in ascending order and mirrors the result; with rounding, the residuals L M - 1 and L^T X - M and the error of X against (L L^T)^-1 are bounded. If P and R are symmetric, the exact S is invertible, the decomposition of the computed S succeeds and the factor and the new state are finite, then L L^T, the inverse, the gain, the innovation, the state and the finite entries of the covariance differ from the exact S, S^-1, P H^T S^-1, z - H x, x + K (z - H x) and P - K H P by at most the stated bounds (multiples of u and eta), which vanish without rounding. The same for correct_nonlinear, whatever the observation function wrote.", "quantifier": "all dimensions, buffers, contents, builds and rounded element types (floating or fixed point); all closures for the extended filter", "why_tests_cant": "A bound for all inputs and all rounding behaviours; tests compare a few f32 results.", "anchors": ["crates/minikalman/src/matrix/traits.rs: invert_l_cholesky, cholesky_decompose_lower, mult, mult_transb", "crates/minikalman/src/observations/regular.rs: correct, update_with_innovation", "crates/minikalman/src/observations/extended.rs: correct_nonlinear, update_with_innovation"]}
{"id": "C75", "title": "Independent calls may be reordered", "statement": "In exact arithmetic with positive semi-definite covariances and positive definite measurement noises, exchanging adjacent calls of correct, of control, or an assignment (state_vector_mut, state_transition_mut, estimate_covariance_mut, process noise, control vector / matrix / noise, measurement vector, observation matrix, measurement noise) with a call that does not touch what is assigned leaves the final state, covariance and all model data unchanged; in particular simultaneous measurements may be processed in any order. Moving assignments is even bit-identical in any arithmetic, including panics. All other pairs (predict/correct, predict/control, control/correct, assignment and user) do not commute.", "quantifier": "all histories and all reorderings of them, any number of objects and dimensions, all data", "why_tests_cant": "the set of histories and permutations is infinite; tests check a few orders of a few measurements", "anchors": ["crates/minikalman/src/kalman/regular.rs: correct, control, predict, predict_tuned, *_mut accessors", "crates/minikalman/src/observations/regular.rs: correct, *_mut accessors", "crates/minikalman/src/controls.rs: apply_to, *_mut accessors"]}
{"id": "C76", "title": "Information adds up, repeated measurements average", "statement": "In exact arithmetic, over any run of corrections and assignments (no prediction, control, or overwriting of estimate and covariance) each correct adds exactly H^T R^-1 H to P^-1 and H^T R^-1 z to P^-1 x, so no measurement is lost or counted twice; two sensors for the same quantity equal one with the weighted mean and R^-1 = R1^-1 + R2^-1; k measured values one after the other equal one correction with their mean and R/k (the covariance may be singular).", "quantifier": "all runs of corrections and assignments of any length, all numbers of repetitions, all data with positive (semi-)definite covariances", "why_tests_cant": "quantifies over all lengths of runs and all real data", "anchors": ["crates/minikalman/src/kalman/regular.rs: correct", "crates/minikalman/src/observations/regular.rs: correct, update_with_innovation"]}
{"id": "C77", "title": "Floating point: correctly rounded, within the error bounds, never a panic", "statement": "With f32 and f64 (IEEE 754 binary arithmetic, recip and square_root as with std or libm) every scalar operation the filter uses returns the exact result rounded to nearest, ties to even, with infinities beyond the range; recip(0) is an infinity, the root of a negative number NaN, comparisons with NaN are false. Hence all rounding error bounds for predict, control, correct, Cholesky and inversion hold with u = 2^-24 (f32) or 2^-53 (f64) wherever the result is finite, and no history of calls panics, whatever the numbers (NaN and infinities included).", "quantifier": "all floating point numbers including subnormals, infinities and NaN; all histories, dimensions and contents", "why_tests_cant": "There are 2^64 pairs of f32 numbers alone and infinitely many histories.", "anchors": ["crates/minikalman/src/matrix/data_type.rs: MatrixDataType for f32, MatrixDataType for f64", "crates/minikalman/src/kalman/regular.rs: predict, correct, control"]}
{"id": "C78", "title": "Overflow and NaN cannot be absorbed", "statement": "In floating point (and saturating or poisoned rounded arithmetic in general), if an entry of the state after predict is finite then the whole old state and the row of A were finite; likewise for the covariance, for predict_tuned, control and correct. Over a whole history: if the final state is finite, then at every call since its last assignment the state and all data it was computed from (A, B, u; for corrections H, z and the covariance) were finite; the same for the covariance. So checking the result at the end detects every overflow and every NaN on the way. (Measurement noise and lambda are exempt: an infinite one is turned into zero.)", "quantifier": "all histories of calls, all contents and dimensions, any rounded arithmetic whose sums, differences and products are finite only for finite operands", "why_tests_cant": "Quantifies over histories and over all places where a non-finite number may appear.", "anchors": ["crates/minikalman/src/kalman/regular.rs: predict, predict_tuned, control, correct", "crates/minikalman/src/observations/regular.rs: correct", "crates/minikalman/src/controls.rs: apply_to"]}
{"id": "C79", "title": "Infinite measurement noise switches a sensor off", "statement": "With f32 or f64, if the measurement noise covariance is diagonal with +infinity on its diagonal and z - H x, H P, P H^T, H P H^T do not overflow, correct succeeds, and afterwards all entries of state and covariance are finite and have the values they had before, whatever finite value was measured.", "quantifier": "all dimensions, contents, measurements and builds, any binary floating point format", "why_tests_cant": "All contents and dimensions; infinities are not tested.", "anchors": ["crates/minikalman/src/observations/regular.rs: correct, update_with_innovation", "crates/minikalman/src/matrix/traits.rs: cholesky_decompose_lower, invert_l_cholesky", "crates/minikalman/src/matrix/data_type.rs: recip, square_root"]}
{"id": "C80", "title": "What remains of the difference between measurement and estimate", "statement": "In exact arithmetic with a positive definite innovation covariance S = H P H^T + R, after correct the difference between the measurement and the predicted measurement is R S^-1 times what it was before, and H P is R S^-1 times what it was. With a noise-free sensor (R = 0) the new estimate reproduces the measurement exactly and H P = 0: no uncertainty about the measured quantities and no correlation with them is left.", "quantifier": "all dimensions, states, covariances, observation matrices, noises with positive definite S, all builds", "why_tests_cant": "All real data and all dimensions.", "anchors": ["crates/minikalman/src/kalman/regular.rs: correct", "crates/minikalman/src/observations/regular.rs: correct, update_with_innovation"]}
{"id": "C81", "title": "A singular innovation covariance silently destroys the whole estimate", "statement": "With f32 or f64, if the decomposition of the innovation covariance as computed meets a first pivot that is zero or negative, or a later pivot that is zero (for instance the same noise-free measurement a second time, or two noise-free sensors for one quantity), correct still returns without error or panic, and afterwards no entry of the state and of the estimate covariance is finite.", "quantifier": "all dimensions, contents, measurements and builds, any binary floating point format", "why_tests_cant": "All contents and dimensions; failing decompositions inside correct are not observable through a return value.", "anchors": ["crates/minikalman/src/observations/regular.rs: update_with_innovation (result of cholesky_decompose_lower ignored)", "crates/minikalman/src/matrix/traits.rs: cholesky_decompose_lower, invert_l_cholesky"]}
{"id": "C82", "title": "The estimation error is bounded by the reported covariance times the energy of the disturbances", "statement": "In exact arithmetic and without any assumption on probabilities: if the real system moved, was steered and was measured as modelled, up to disturbances whose total energy (each measured by its noise covariance) is c, and the initial error is within c0 of the initial covariance, then after any history of predict, predict_tuned (|lambda| at most 1), control and correct calls and changes of the model, the error of estimate i is at most sqrt((c0 + c) P_ii), and in every direction correspondingly; with positive definite covariances the Mahalanobis distance of the error grows at most by c. Two filters that start with different guesses and see the same calls stay within the same multiple of their common reported covariance of each other, whatever is measured.", "quantifier": "all histories, dimensions, positive semidefinite models, disturbances, true trajectories, initial guesses, builds", "why_tests_cant": "All disturbance sequences, trajectories and histories of any length.", "anchors": ["crates/minikalman/src/kalman/regular.rs: predict, predict_tuned, control, correct", "crates/minikalman/src/observations/regular.rs: correct"]}
{"id": "C83", "title": "Independent subsystems in one filter do not disturb each other", "statement": "In exact arithmetic, if a part of the state variables is not coupled to the rest (block-diagonal A, P, Q; each control acts on, and each sensor sees, one of the two sides), then the estimates, variances and covariances of this part depend only on its own data and calls: they are the same for any other estimates, models, controls and measurements of the rest, with any additional or missing control and correct calls of the rest, and no correlation between the two sides is ever reported. A single correction leaves every state variable that is uncorrelated with the measured quantity exactly as it was.", "quantifier": "all partitions of the state, pairs of filters and histories that agree on the part, dimensions, builds", "why_tests_cant": "Ranges over all pairs of histories of any length that agree on one part.", "anchors": ["crates/minikalman/src/kalman/regular.rs: predict, predict_tuned, control, correct", "crates/minikalman/src/observations/regular.rs: correct", "crates/minikalman/src/controls.rs: apply_to"]}
{"id": "C84", "title": "Operated periodically, the filter settles down", "statement": "In exact arithmetic, if the same predictions, controls and corrections are repeated again and again (with new states, inputs and measurements each time): the reported covariance stays for ever below a*C, if it starts there, for every covariance C that a cycle does not enlarge and every a at least 1; if the first cycle does not enlarge the covariance it decreases for ever and converges to a covariance that a cycle reproduces; starting from an exactly known state it increases and converges to the smallest such covariance, if there is a bound. If moreover the process noise is positive definite and a cycle contains a prediction (and some covariance is not enlarged by a cycle; C105 says when), there is exactly one covariance that a cycle reproduces, and the reported covariance converges to it from every initial covariance.", "quantifier": "all cycles of calls, data sequences, models, dimensions, initial covariances, numbers of cycles", "why_tests_cant": "Infinite histories and limits.", "anchors": ["crates/minikalman/src/kalman/regular.rs: predict, predict_tuned, control, correct", "crates/minikalman/src/observations/regular.rs: correct"]}
{"id": "C85", "title": "The initial guess is forgotten exponentially", "statement": "In exact arithmetic, under the conditions of the last sentence of C84 and with tuning factors of absolute value at most 1, the estimates of two filters that start with different states and then see the same calls and data differ by at most K theta^k after k cycles, with theta below 1.", "quantifier": "all cycles of calls, data sequences, models, dimensions, pairs of initial states, numbers of cycles", "why_tests_cant": "Infinite histories and all initial guesses.", "anchors": ["crates/minikalman/src/kalman/regular.rs: predict, predict_tuned, control, correct", "crates/minikalman/src/observations/regular.rs: correct"]}
{"id": "C86", "title": "the element type is a parameter: corresponding arithmetics give corresponding programs", "statement": "Let two element types be related by a relation that zero, one, +, -, *, negation, <=, Sum, recip and square_root respect. Then the same program (built by the builders, any history of predict, predict_tuned, control, correct and assignments, regular or extended) on related data panics at the same call with the same kind of panic in both, or succeeds in both with related contents of every cell of every buffer. In particular wrapping the numbers (counting, checked, recorded) never changes results.", "quantifier": "all pairs of element types with a respected relation, all sizes (also undersized buffers and bad indices), all histories, all closures that respect the relation", "why_tests_cant": "quantifies over all element types", "anchors": ["crates/minikalman/src/matrix/data_type.rs: MatrixDataTypeBase, MatrixDataType", "crates/minikalman/src/kalman/regular.rs: predict, predict_tuned, control, correct", "crates/minikalman/src/kalman/extended.rs: predict_nonlinear, correct_nonlinear", "crates/minikalman/src/matrix/traits.rs: all kernels"]}
{"id": "C87", "title": "fixed point filters: explicit bounds exclude overflow, errors are a few units of the resolution", "statement": "For the fixed point types (f fractional bits of 2f; I16F16, I32F32): sums that fit are exact, products and roots are rounded down by less than 2^-f, reciprocals are within 2^-f, roots never overflow; recip panics exactly at zero, square_root exactly below zero. If the entries of A, x, P, Q satisfy explicit bounds then predict (likewise control) does not overflow anywhere, the state is A x up to n 2^-f and the covariance A P A^T + Q up to n 2^-f (1 + sum |A_jk|). Watching all numbers for overflow changes no result of any history, and unmarked cells obey the rounding bounds C59, C60, C74 with relative error 0 and absolute error 2^-f.", "quantifier": "all numbers of the types, all f >= 2, all sizes, all entries within the bounds, all histories", "why_tests_cant": "a test sees single values; overflow wraps silently in release builds", "anchors": ["crates/minikalman/src/matrix/data_type.rs: I16F16, I32F32", "crates/minikalman/src/kalman/regular.rs: predict, control", "crates/minikalman/examples/gravity_fixed.rs"]}
{"id": "C88", "title": "the fixed point gravity program finds the acceleration in its own arithmetic, whatever the measurement errors are", "statement": "examples/gravity_fixed.rs, computed in I16F16 exactly as the program does (rounded products, wrapping overflow), with any 15 measurement errors of at most 4 in magnitude: it does not panic, the final assertion 9 < g < 10 holds, and no operation on the way leaves the range of the type (so builds with overflow checks do not panic either).", "quantifier": "all lists of 15 I16F16 measurement errors up to 4, all build configurations", "why_tests_cant": "the program runs one list of errors; here 2^(19*15) lists are covered", "anchors": ["crates/minikalman/examples/gravity_fixed.rs: main", "crates/minikalman/src/matrix/data_type.rs: I16F16", "crates/minikalman/src/kalman/regular.rs: predict, correct"]}
{"id": "C89", "title": "gains recorded in one run serve any other data", "statement": "Record, in one run of a sequence of calls, the transition and control matrices, the observation matrices and the gains of the corrections. Then every other run of this sequence, from another initial state, with other control inputs and other measurements, succeeds if and only if the recorded run did, and its state is exactly (bit for bit, in any arithmetic) the one that the plain recursion x = A x, x = x + B u, x = x + K (z - H x) computes from the recorded matrices, without propagating a covariance, decomposing or inverting anything.", "quantifier": "all element types, sizes, builds, histories of any length, initial states, inputs and measurements", "why_tests_cant": "ranges over all pairs of histories that differ in the data", "anchors": ["crates/minikalman/src/kalman/regular.rs: predict, predict_tuned, control, correct", "crates/minikalman/src/observations/regular.rs: correct, kalman_gain", "crates/minikalman/src/controls.rs: apply_to"]}
{"id": "C90", "title": "the shipped floating point programs keep their promises whatever the measurement errors are", "statement": "In the arithmetic they are written for, with all roundings: tests/gravity.rs (f32) computes a finite acceleration between 9 and 10 for any 15 measurement errors of at most 4; tests/gravity_q_tuned.rs (f64) does so for any 15 errors of at most 0.16 and for any errors within 0.045 of those in the file; examples/car_1d.rs (f32) fulfils all its assertions for any observations of which those that it uses are within 0.012 of those in the file, while those it skips can be anything, even NaN. None of them panics, in any build configuration.", "quantifier": "all lists of floating point measurement errors within the tolerances, all build configurations", "why_tests_cant": "the programs run one list of measurements each", "anchors": ["crates/minikalman/tests/gravity.rs", "crates/minikalman/tests/gravity_q_tuned.rs", "crates/minikalman/examples/car_1d.rs: main"]}
{"id": "C91", "title": "the build configuration does not change any result", "statement": "Debug assertions and the no_assert feature only add checks: a program that builds a filter with its buffers and performs any sequence of calls computes bit for bit the same result in every build configuration, or a result in none. If every observation has at least one measurement then the panics are the same as well; without measurements they differ (an assertion with debug assertions, an underflow or out of bounds access without).", "quantifier": "all element types, sizes, histories of any length, regular and extended filter, any closures, all pairs of build configurations", "why_tests_cant": "a test suite runs in one configuration; ranges over all histories in two configurations", "anchors": ["crates/minikalman/src/matrix/matrix_trait.rs: cholesky_decompose_lower, invert_l_cholesky", "crates/minikalman/src/matrix/data.rs", "crates/minikalman/Cargo.toml: features"]}
{"id": "C92", "title": "with enough precision the program computes the textbook filter", "statement": "For every history of calls that is meaningful for the textbook filter (innovation covariances positive definite, lambda not 0) and every tolerance there is a precision such that in every binary floating point format, and every fixed point type, with at least that precision and range the program does not panic, nothing overflows, no decomposition fails, and all numbers of the final state, covariance and models are finite and within the tolerance of the exact ones, if the data are those of the textbook filter, rounded, or with any sufficiently small errors. The same holds for the extended filter, if the closures compute functions that are continuous where the textbook filter evaluates them, up to a sufficiently small error near those points. In exact arithmetic the result depends continuously on all data. In general: in any family of arithmetics whose rounding errors tend to zero and whose range tends to infinity the results tend to the exact ones.", "quantifier": "all dimensions, histories of any length, data, tolerances, formats and builds", "why_tests_cant": "a limit statement about all formats and histories; a test runs one format on one history", "anchors": ["crates/minikalman/src/kalman/regular.rs: predict, predict_tuned, control, correct", "crates/minikalman/src/matrix/traits.rs: all kernels, cholesky_decompose_lower, invert_l_cholesky", "crates/minikalman/src/matrix/data_type.rs: f32, f64, I16F16, I32F32", "crates/minikalman/src/kalman/extended.rs: predict_nonlinear, predict_tuned_nonlinear, correct_nonlinear"]}
{"id": "C93", "title": "builds with overflow checks", "statement": "In a build with overflow checks (where any addition, subtraction, multiplication, negation, reciprocal or root of a fixed point type may panic) every program does exactly what it does in a build without them, or panics with an arithmetic overflow; it never gives another result, and with valid buffers and arguments there is no other panic. For every history that is meaningful for the textbook filter and data sufficiently near those of the textbook filter there is a number of bits from which on no operation panics (even none whose result is discarded) and the result is within any given tolerance. (The product on the diagonal of the decomposition, which is computed and then overwritten, can panic on data for which everything that is used is in range, depending on the order in which measurements are listed.) Builds in which no operation panics behave as the release model for all element types. A run that does not panic has had no overflow in any number of any buffer. The example gravity_fixed does not panic in a debug build for any measurement errors of magnitude up to 8000, and for errors up to 4 its estimate of g is between 9 and 10.", "quantifier": "all element types with panicking operators, fixed point types, dimensions, buffers, histories of any length, closures and builds", "why_tests_cant": "a panic may hit any single operation of a history; tests run in one build with a few data", "anchors": ["crates/minikalman/src/matrix/traits.rs: cholesky_decompose_lower, invert_l_cholesky, all kernels", "crates/minikalman/src/kalman/regular.rs: predict, predict_tuned, control, correct", "crates/minikalman/src/kalman/extended.rs: predict_nonlinear, predict_tuned_nonlinear, correct_nonlinear", "crates/minikalman/src/matrix/data_type.rs: I16F16, I32F32"]}
{"id": "C94", "title": "the extended filter is the regular filter of the linearised system", "statement": "In exact arithmetic and whatever the functions are, a history of the extended filter has exactly the state, covariance and model of a regular filter that is used for the system linearised at the current estimate: predict_nonlinear with g is predict with the Jacobian, followed by a control call that adds the known shift g(x) - A x; correct_nonlinear with h is correct with the measurement z - (h(x) - H x). Without any assumption on probabilities the error of the extended filter is bounded by the reported covariance times the energy of everything that is not in the linearised system: if reality differs from the linearisations by disturbances of total energy c (noise, model errors, and the nonlinear part of the functions at the actual error) and the initial error is within c0 of the initial covariance, then estimate i is off by at most sqrt((c0 + c) P_ii).", "quantifier": "all functions, dimensions, histories of any length, initial states, true trajectories and disturbances, builds", "why_tests_cant": "all nonlinear functions, all trajectories and histories", "anchors": ["crates/minikalman/src/kalman/extended.rs: predict_nonlinear, predict_tuned_nonlinear, correct_nonlinear", "crates/minikalman/src/observations/extended.rs: correct_nonlinear", "crates/minikalman/src/kalman/regular.rs: predict, control, correct"]}
{"id": "C95", "title": "between measurements: predictions compose", "statement": "In exact arithmetic any stretch of predictions, tuned predictions, controls and model changes without corrections acts like one prediction and one control: x becomes Phi x + d and P becomes a Phi P Phi^T + V with Phi, d, a, V independent of x and P, and V a covariance. k calls of predict give x = A^k x and P = A^k P (A^k)^T + sum_{i<k} A^i Q (A^i)^T; k calls of predict_tuned weight the terms with lambda^(-2i); k times predict and control with a constant input add sum A^j B u. Two predictions can be merged into one with A2 A1 and A2 Q1 A2^T + Q2. If A belongs to a family with Phi(a+b) = Phi(a) Phi(b) and Q = 0, k predictions with step t are one with step k t. The variance of a combination of states that A multiplies by mu with |mu| >= 1 never decreases without measurement and grows by at least k times that of the process noise. The filter of tests/simple.rs, with any time step and after any number of predictions, has state 0 and the variances the test expects for 10 steps.", "quantifier": "all dimensions, models, states, covariances, numbers of calls, stretches of calls, time steps and builds", "why_tests_cant": "any number of calls; tests/simple.rs checks ten predictions with one time step", "anchors": ["crates/minikalman/src/kalman/regular.rs: predict, predict_tuned, control", "crates/minikalman/tests/simple.rs", "crates/minikalman/src/test_filter.rs: create_test_filter"]}
{"id": "C96", "title": "a filter at rest stays at rest", "statement": "If state, control inputs and measurements are zero, then after any program of predictions, tuned predictions, controls, corrections and assignments that keep them zero the state is zero, whatever the matrices, covariances and tuning factors are and whether decompositions succeed: exactly zero in exact and in fixed point arithmetic, however much of the covariance has overflowed on the way; in floating point arithmetic an entry of the state is a zero or NaN, never an infinity or another number, and nothing panics. The same holds for extended filters whose functions map zero to zero. The filter of tests/simple.rs has this property for every time step, and the states its assertions expect are those computed in single precision.", "quantifier": "all dimensions, matrices, covariances, histories, builds, element types, and closures that map zero to zero", "why_tests_cant": "any matrices and histories, including those that overflow; tests/simple.rs runs one", "anchors": ["crates/minikalman/tests/simple.rs: simple_filter", "crates/minikalman/src/kalman/regular.rs: predict, predict_tuned, control, correct", "crates/minikalman/src/kalman/extended.rs: predict_nonlinear, correct_nonlinear", "crates/minikalman/src/matrix/data_type.rs"]}
{"id": "C97", "title": "the extended filter converges locally", "statement": "If an extended filter is given the functions by which the system really moves and is measured, with Jacobians whose linearisation is off by at most kappa times the squared error, if the process noise is at least q, the measurement noise at least r and the reported covariance stays at most p in every direction, then there are a radius and a rate mu < 1 depending on these bounds only such that a filter started within the radius of the true state has an error of at most a constant times mu^k times the initial error after k predictions (tuned ones included), with any number of corrections up to a bound after each. With bounded disturbances in transitions and measurements the error stays below an explicit bound for ever. The rate and the radii are given explicitly, and for linear functions the bound is proportional to the disturbances.", "quantifier": "all dimensions, nonlinear systems, sensors, schedules and lengths of runs within the bounds", "why_tests_cant": "arbitrarily long runs of arbitrary nonlinear systems; tests run fixed scenarios", "anchors": ["crates/minikalman/src/kalman/extended.rs: predict_nonlinear, predict_tuned_nonlinear, correct_nonlinear", "crates/minikalman/src/observations/extended.rs: correct_nonlinear"]}
{"id": "C98", "title": "what a nonlinear correction means", "statement": "A nonlinear correction with a closure that computes a function g never increases the reported uncertainty, uses the gain that is optimal for the linearised system, adds the information H^T R^-1 H, leaves the estimate alone if the measurement equals g(x), and leaves the part R S^-1 of the linearised residual. It is one Gauss-Newton step: the new estimate is the unique minimum of the cost of prior and measurement with g replaced by its linearisation, with curvature P'^-1. If the supplied matrix is the Jacobian of g at the estimate, the step goes downhill on the true nonlinear cost with slope -2 (x'-x)^T P'^-1 (x'-x), and the estimate stays exactly if it is a critical point. The full step may overshoot, and unlike for the regular filter the order of corrections matters; both are shown by running examples.", "quantifier": "all dimensions, functions, Jacobians, estimates, measurements and covariances (positive definite where inverses are taken)", "why_tests_cant": "statements about all functions and all competing estimates and gains; tests compare single numbers", "anchors": ["crates/minikalman/src/kalman/extended.rs: correct_nonlinear", "crates/minikalman/src/observations/extended.rs: correct_nonlinear, update_with_innovation"]}
{"id": "C99", "title": "temporaries of extended filters may be shared", "statement": "For an extended observation the documented contract (temp_S_inv and temp_PHt separate, temp_HP and temp_KHP separate, everything else may coincide) suffices: correct_nonlinear panics alike and leaves bit for bit the same x, P, y, S, K and captured state of the closure. Anything may overwrite temporaries and y, S, K between any two calls of any history, provided the closures fill their outputs without reading them first; that proviso is necessary, since a closure that accumulates into its output sees what the last correction left there. No step touches surplus cells or model matrices.", "quantifier": "all element types, dimensions, closures, histories, memory layouts within the contract and interference with temporaries", "why_tests_cant": "all layouts, interferences and histories at once; tests use one layout", "anchors": ["crates/minikalman/src/observations/extended.rs: update_with_innovation, correct_nonlinear, documentation of temp_S_inv, temp_HP, temp_PHt, temp_KHP", "crates/minikalman/src/kalman/extended.rs: temp_P, predict_nonlinear, correct_nonlinear"]}
{"id": "C100", "title": "Interrupted calls of the extended filter can be rolled back; calls can be used as transactions", "statement": "If a panic (in the user's closure, in a scalar operation, or by overflow of +, -, * in a debug build) interrupts predict_nonlinear, predict_tuned_nonlinear or correct_nonlinear anywhere and the caller catches it, then all buffers keep their sizes, the Jacobians, noise covariances and the measurement are untouched, and writing back x, P and what the closures capture is a complete rollback: every later program behaves as if the call had not been made. Hence a program (with a regular or an extended filter) that rolls back, retries or gives up interrupted calls ends exactly like one that makes only the completed calls. The new state is complete before the covariance is touched. A panic of predict_tuned_nonlinear leaves either the old estimate (closure) or the new state with the old covariance (recip of lambda squared).", "quantifier": "all sizes, all scalar types, all buffer contents and surplus cells, all closures that fill their output and keep its length, every point at which a call can be interrupted with any garbage left in the interrupted destination, any number of retries, all programs that follow", "why_tests_cant": "A test can make a closure panic at one place; it cannot enumerate every interruption point, every garbage value the interrupted kernel leaves, and every continuation of the program.", "anchors": ["crates/minikalman/src/kalman/extended.rs: predict_nonlinear, predict_tuned_nonlinear, predict_x_nonlinear, predict_P, predict_P_tuned, correct_nonlinear", "crates/minikalman/src/observations/extended.rs: correct_nonlinear, update_with_innovation", "crates/minikalman/src/kalman/regular.rs: predict, predict_tuned, control, correct"]}
{"id": "C101", "title": "Results do not depend on where the matrices are stored", "statement": "The buffers of a filter may be arrays, boxes, references, the wrappers of the crate, or any user type implementing RowMajorSequentialData(Mut), mixed in one filter. If a type keeps the contract (as_mut_slice is the slice of as_slice, what is written is read back, len/is_empty/get_at/set_at agree with their defaults) then every program gets, in every buffer, exactly the contents - or the panic - it would get on plain slices, so all other properties carry over. All storages and wrappers of the crate keep the contract; wrapping with the typed buffers repairs a wrong len/is_empty/get_at/set_at. Storages with one mistake (clearing in as_mut_slice, dropping writes, len = length of the buffer, is_empty = all zero) change the results.", "quantifier": "all storage types (also user-defined and mixed), all sizes, contents and lengths of buffers, all scalar types, all histories of calls of regular and extended filters, all closures", "why_tests_cant": "Tests instantiate a handful of storage types; a user may supply any type implementing the public traits.", "anchors": ["crates/minikalman/src/matrix/row_major.rs: RowMajorSequentialData, RowMajorSequentialDataMut", "crates/minikalman/src/matrix/traits.rs: Matrix, MatrixMut, SquareMatrix", "crates/minikalman/src/matrix/data/*.rs: MatrixDataArray, MatrixDataBoxed, MatrixDataRef, MatrixDataMut, MatrixDataRowMajor, MatrixDataRowMajorMut", "crates/minikalman/src/buffers/types/*.rs", "crates/minikalman/src/kalman/regular.rs", "crates/minikalman/src/kalman/extended.rs", "crates/minikalman/src/controls.rs: apply_control"]}
{"id": "C102", "title": "Repeated calls of the firmware routine", "statement": "The firmware routine predict_gravity works on buffers that live as long as the device. Its first call returns what tests/gravity.rs computes. Later calls see nothing of what earlier calls left in the buffers except the process noise (never written) and the three covariance cells below the diagonal, which the initialisation does not write: the result and the leftovers depend on nothing else, in any arithmetic. As soon as a call leaves these cells as it found them, all further calls return the same number. With the constants of the programs, the single precision routine returns 9.684802, 9.684167, 9.684172 and then 9.684169 for ever; the fixed-point routine 634819/65536 once and then 634774/65536 for ever. If the three cells are cleared before a call, the call returns what the test computes. No call resizes a buffer, and nothing but the element type's recip and square_root can panic.", "quantifier": "all contents of the static buffers, all measurement lists, all numbers of calls, all element types; the concrete values for the shipped constants in f32 and I16F16", "why_tests_cant": "The test calls the routine's code once on fresh buffers; that the leftovers of one call change the next, and that the sequence of results then becomes constant for ever, is a statement about unboundedly many calls and all buffer contents.", "anchors": ["crates/minikalman/src/xbuild-tests/stm32/src/kalman_float_example.rs: predict_gravity, initialize_state_covariance_matrix", "crates/minikalman/src/xbuild-tests/stm32/src/kalman_fixed_example.rs: predict_gravity", "crates/minikalman/src/xbuild-tests/stm32/src/main.rs: main"]}
{"id": "C103", "title": "What a correction does when the innovation covariance is not positive definite", "statement": "correct and correct_nonlinear report nothing if the innovation covariance S = H P H^T + R is not positive definite (C25). What they compute then is determined: the decomposition gives up at the first component p of the measurement at which the leading blocks of S cease to be positive definite and leaves a certain lower triangular matrix W, and the correction is exactly the one a filter with innovation covariance W W^T would make: gain K = P H^T (W W^T)^-1, state x + K y, covariance P - K H P. Since W W^T is positive definite, the new covariance is symmetric and not larger than the old one, so nothing in the result gives the failure away. If W has a zero on its diagonal - always so if the very first pivot fails - the correction panics in arithmetics whose division by zero panics, as in the fixed point types.", "quantifier": "all dimensions, symmetric covariances P and R (definite or not), observation matrices, states and measurements; exact arithmetic; both filters, all closures that compute a function, all builds", "why_tests_cant": "All indefinite covariances and all pivots at which a decomposition can fail; tests never check the result after a failure.", "anchors": ["crates/minikalman/src/matrix/traits.rs: cholesky_decompose_lower, invert_l_cholesky", "crates/minikalman/src/observations/regular.rs: correct, update_with_innovation", "crates/minikalman/src/observations/extended.rs: correct_nonlinear, update_with_innovation"]}
{"id": "C104", "title": "Which covariance guarantees survive rounding", "statement": "In f32 and f64: a correction with one measured component never enlarges a variance (each new diagonal entry is NaN or <= the old one), whatever the numbers, if the covariance was bitwise symmetric; likewise in fixed point without overflow and for correct_nonlinear. If a state is measured directly and the noise variance is at least 12 u times the innovation variance (u the unit roundoff), its variance stays finite and non-negative; with one state, |A| <= 1 and Q = 0 this holds for ever, after any sequence of predictions, corrections and new measurements. Without such conditions the guarantees of exact arithmetic fail: symmetry is lost, a variance becomes negative, the next correction destroys the filter (or panics in fixed point), several components at once can enlarge a variance.", "quantifier": "all formats, dimensions, covariances, observation matrices, noise variances, measurements, closures; all histories of a scalar filter", "why_tests_cant": "Tests try a few well scaled numbers; the guarantee concerns every pattern of roundings, and the failures occur for exact ratios of variances a test does not hit.", "anchors": ["crates/minikalman/src/observations/regular.rs: RegularObservation::update_with_innovation", "crates/minikalman/src/observations/extended.rs: ExtendedObservation::update_with_innovation", "crates/minikalman/src/matrix/traits.rs: cholesky_decompose_lower, invert_l_cholesky"]}
{"id": "C105", "title": "What the measurements determine is known, whatever the filter started with", "statement": "In exact arithmetic, over any history that does not assign the covariance (the model may change), a linear combination of the state variables ends with a variance that is bounded for all initial estimates and covariances if and only if the measurements of the history determine it (noise-free courses with equal measurements end with equal values). If the measurements determine the whole state, one covariance bounds the final covariance of every program with this model. A periodically operated filter whose measurements within N cycles determine the state has a stationary covariance and stays below one bound from cycle N on; with positive definite Q all covariances converge to the same limit and the initial guess is forgotten exponentially.", "quantifier": "all models, histories of any length (predict, predict_tuned with nonzero factor, control, correct, all assignments except of P), all initial estimates and positive semi-definite covariances, all build configurations, all numbers of cycles", "why_tests_cant": "the claim compares infinitely many initial covariances, unboundedly large ones included, over histories of any length; a test sees finitely many and cannot distinguish a large variance from an unbounded one", "anchors": ["crates/minikalman/src/kalman/regular.rs: RegularKalman::predict, predict_tuned, control, correct", "crates/minikalman/src/observations/regular.rs: RegularObservation::correct"]}
{"id": "C106", "title": "Covariance results carry over to the extended filter", "statement": "An extended filter with any functions and a regular filter with the same matrices and covariances that makes the same calls end with bitwise the same covariance (or panic alike), in any arithmetic. Hence in exact arithmetic: less noise and more measurements never make the covariance of an extended filter larger (same Jacobians, any functions); the final variance of a combination of state variables is bounded for all initial guesses and all functions if and only if the measurements of the linearised system determine it; and an extended filter that is operated periodically with the same Jacobians, where N cycles determine the state, stays below one bound from cycle N on and, with positive definite Q, all its covariances converge to the same limit.", "quantifier": "all histories of extended calls and assignments of any length, all functions (stateful, different from call to call), all initial estimates and covariances, all element types (bitwise part), all build configurations, all numbers of cycles", "why_tests_cant": "the functions are arbitrary user code and differ between the compared programs; a test fixes them, and it cannot compare infinitely many functions, initial covariances and cycles", "anchors": ["crates/minikalman/src/kalman/extended.rs: ExtendedKalman::predict_nonlinear, predict_tuned_nonlinear, correct_nonlinear", "crates/minikalman/src/observations/extended.rs: ExtendedObservation::correct_nonlinear", "crates/minikalman/src/kalman/regular.rs: RegularKalman::predict, predict_tuned, correct"]}
{"id": "C107", "title": "fixed point corrections with one measured component: explicit bounds exclude panics and overflow, errors are explicit", "statement": "For the fixed point types, if the data of a correction with one measured component satisfy explicit bounds (the innovation variance is at least s beyond its possible rounding error, s is large enough for the reciprocal of its root and its inverse to be in range, and so are the sums and products), then the correction does not panic, no operation on which the new gain, state and covariance depend leaves the range, and each entry of the gain, of the state and of the covariance is that of the real Kalman filter up to an explicit number of units of the resolution. For I16F16 and up to four states it suffices that the entries of H are at most 1, of a positive semidefinite P at most 25, of x at most 50, the measurement at most 100 and its variance between 2 and 10000; the gain is then off by at most 1/20.", "quantifier": "all f >= 2, all numbers of states, all data within the bounds, all build configurations", "why_tests_cant": "overflow wraps silently in release builds, for data no test has tried", "anchors": ["crates/minikalman/src/kalman/regular.rs: correct", "crates/minikalman/src/observations/regular.rs: correct", "crates/minikalman/src/matrix/data_type.rs: I16F16, I32F32", "crates/minikalman/src/matrix/traits.rs: cholesky_decompose_lower, invert_l_cholesky"]}
{"id": "C108", "title": "a filter with one state in floating point runs forever", "statement": "A filter with one state (|A| <= 1, process noise q >= 0) on f32 or f64 whose sensors measure the state directly and are not too precise for the format (their variance is at least 128 unit roundoffs of the largest variance of the state): if the measurements are at most Z <= X/2, the initial state at most X and the initial variance between 0 and B, then after any number of predictions (at most N in a row), corrections, new measurements, states, variances and A within these bounds nothing has panicked, the state is finite and at most X, and the variance is finite, not negative, at most 2 (B + N q), and at most B after each correction. Rounding errors do not accumulate, and neither infinities nor NaN arise, however long the filter runs. The bounds on the variance hold whatever the states and measurements are (infinities and NaN included).", "quantifier": "all floating point formats with prec >= 10 (f32, f64), all numbers within the bounds, any number of sensors, all histories of any length, all build configurations", "why_tests_cant": "a filter in the field runs for years; a test runs for some thousand steps", "anchors": ["crates/minikalman/src/kalman/regular.rs: predict, correct", "crates/minikalman/src/observations/regular.rs: correct", "crates/minikalman/src/matrix/data_type.rs: f32, f64"]}
{"id": "C109", "title": "a filter with one state on fixed point numbers runs forever", "statement": "A filter with one state (|A| <= 1, process noise q >= 0) on fixed point numbers with as many integer as fractional bits, whose sensors measure the state directly and are not too precise for the type: if measurements are at most Z <= X, the initial state is at most X (twice X being in range) and the initial variance between 0 and B, then after any number of predictions (at most N in a row), corrections, new measurements, states, variances and A within these bounds nothing has panicked, no number that went into the state or the variance has ever overflowed (and in a build with overflow checks no operation panics), the state is at most X, and the variance is not negative, at most B + N q, and at most B after each correction. The bounds on the variance hold whatever the states and measurements are. For I16F16 sensors with a variance between 1 and 20 do, with N q <= 29, X = 16383 and B = 21.", "quantifier": "all fixed point types with f >= 2 fractional bits, all numbers within the bounds, any number of sensors, all histories of any length, all build configurations", "why_tests_cant": "a filter in the field runs for years, and the first overflow destroys the estimate; a test runs for some thousand steps", "anchors": ["crates/minikalman/src/kalman/regular.rs: predict, correct", "crates/minikalman/src/observations/regular.rs: correct", "crates/minikalman/src/matrix/data_type.rs: I16F16"]}
{"id": "C110", "title": "an extended filter with one state runs forever", "statement": "An extended filter with one state (Jacobians |A| <= 1 and H = 1, process noise q >= 0) whose sensors are not too precise for the element type (f32, f64 or fixed point), whose state function maps states of at most X to such states and whose measurement functions differ from the state by at most D (closures may keep and change state of their own): with measurements of at most Z, where Z + D <= X/2 (fixed point: Z + D <= X), and an initial variance between 0 and B, after any number of predictions (at most N in a row), corrections, new measurements, states, variances and Jacobians within the bounds nothing has panicked (on fixed point types not even in a build with overflow checks), the state is at most X and finite, the variance not negative, at most 2 (B + N q) (fixed point: B + N q), and at most B after each correction. The bounds on the variance hold for any closures that do not panic and keep the length of the buffers, and any data.", "quantifier": "all floating point formats with prec >= 10 and all fixed point types with f >= 2 fractional bits, all closures and numbers within the bounds, any number of sensors, all histories of any length, all build configurations", "why_tests_cant": "a filter in the field runs for years with a model that is never exactly linear; a test runs one function for some thousand steps", "anchors": ["crates/minikalman/src/kalman/extended.rs: predict_nonlinear, correct_nonlinear", "crates/minikalman/src/observations/extended.rs: correct_nonlinear", "crates/minikalman/src/matrix/data_type.rs: f32, f64, I16F16"]}
{"id": "C111", "title": "the estimate of a single state stays within the range of the measurements", "statement": "A filter with one state and sensors that measure it directly, on f32, f64 or fixed point numbers, under the conditions of C108 and C109 (the sensors are not too precise for the type): every correction, after any history, leads to a state between the state before it and the measurement, ends included - rounding never makes it overshoot. Hence, if the system matrix is 1, or between 0 and 1 with L <= 0 <= H, and the initial state and all measurements are between L and H, every estimate is between L and H, exactly and for ever; in particular a quantity that cannot be negative never gets a negative estimate. On fixed point numbers this holds also in builds with overflow checks, where nothing panics. In exact arithmetic it holds for any positive noise variances. With a sensor too precise for the type the rounded estimate overshoots.", "quantifier": "all floating point formats with prec >= 10 and all fixed point types with f >= 2 fractional bits, all ranges and numbers within them, any number of sensors, all histories of any length, all build configurations", "why_tests_cant": "the sign or range of the estimate is what users feed into square roots, table lookups and unsigned conversions; one rounding error in one of infinitely many histories would suffice to leave it", "anchors": ["crates/minikalman/src/kalman/regular.rs: predict, correct", "crates/minikalman/src/observations/regular.rs: correct", "crates/minikalman/src/matrix/data_type.rs: f32, f64, I16F16"]}
{"id": "C112", "title": "a filter for several things is several filters, bit for bit", "statement": "One filter may be used for several systems at once (several axes, tanks, channels), with block-diagonal matrices, controls and sensors that concern one system each. On fixed point numbers, of any width and also where they wrap around, and in exact arithmetic (any arithmetic in which zero is neutral), it then computes exactly the numbers that a smaller filter for one of the systems alone computes: after any history of all calls, in which the small filter sees only those that concern it, the estimates and covariances are the same bit for bit, correlations with the other states are exactly zero, and the small filter panics at most if the large one does. What happens to the other systems (their data, matrices, sensors) has no influence on a system. If the filter of no system panics, neither does the large one; hence a fixed point filter for any number of independent quantities runs forever within the bounds of C109.", "quantifier": "all arithmetics in which zero is neutral, all state counts and choices of states, all matrices, controls and sensors, all histories of any length, all build configurations", "why_tests_cant": "one term that leaks from one block into another, in one of infinitely many histories, or a rounding that depends on the size of the filter, would couple systems that have nothing to do with each other", "anchors": ["crates/minikalman/src/kalman/regular.rs: predict, predict_tuned, control, correct", "crates/minikalman/src/observations/regular.rs: correct", "crates/minikalman/src/matrix/traits.rs: mult, mult_rowvector, mult_transb, multadd_transb, multscale_transb"]}
{"id": "C113", "title": "an extended filter for several things is several extended filters, bit for bit", "statement": "One extended filter may be used for several nonlinear systems at once, with functions that treat each system on its own. On fixed point numbers, of any width and also where they wrap around, and in exact arithmetic (any arithmetic in which zero is neutral), it then computes exactly the numbers of a smaller extended filter for one of the systems alone: after any history of all calls, in which the small filter sees only those that concern it, estimates and covariances are the same bit for bit, correlations with the other states are exactly zero, and the small filter panics at most if the large one does. What the functions do to the other states, and what their sensors measure, has no influence. If the filter of no system panics, neither does the large one.", "quantifier": "all arithmetics in which zero is neutral, all state counts and choices of states, all transition and observation functions that treat the system on its own, all matrices and sensors, all histories of any length, all build configurations", "why_tests_cant": "the functions are arbitrary and may do anything to the other states: one term of one history that leaks would couple systems that have nothing to do with each other", "anchors": ["crates/minikalman/src/kalman/extended.rs: predict_nonlinear, predict_tuned_nonlinear, correct_nonlinear", "crates/minikalman/src/observations/extended.rs: correct_nonlinear", "crates/minikalman/src/matrix/traits.rs: mult, multadd_rowvector, mult_transb, multadd_transb, multscale_transb"]}
{"id": "C114", "title": "the choice of units, origins and coordinates does not matter to the extended filter", "statement": "A nonlinear filter may be written in other units, with other origins (degrees Celsius or Fahrenheit, positions relative to another point), in another basis, or for a part of the state that evolves on its own; measurements may be given in other units, with offsets, and all covariances may be scaled by a common factor. In exact arithmetic, after any history of all calls with functions and data written accordingly, neither program panics, and one holds the transformed estimate and covariance of the other. Where the change of coordinates is invertible, the Jacobian of the rewritten function is the matrix that this asks for.", "quantifier": "all state counts, all nonlinear functions, all affine maps of the state (invertible or not), all invertible affine maps of the measurements, all histories of any length with positive definite innovation covariances", "why_tests_cant": "the functions, maps and histories are arbitrary; a step that used z, h(x) or x in other than the right combinations would depend on the origin", "anchors": ["crates/minikalman/src/kalman/extended.rs: predict_nonlinear, predict_tuned_nonlinear, correct_nonlinear", "crates/minikalman/src/observations/extended.rs: correct_nonlinear"]}
{"id": "C115", "title": "an extended filter with one state does not overshoot if the supplied slopes are not too small", "statement": "If all transitions map a range (say, of physically possible values) to itself, every measurement is the value of its function somewhere in the range, and the slope supplied as its Jacobian is at least the steepest slope of the function in the range, then the estimate of an extended filter with one state never leaves the range, whatever the covariances and the history; every correction moves the estimate towards the point that the measurement comes from, and not beyond. With the exact Jacobian at the estimate, which the documentation asks for, this is false: a quadratic sensor makes the filter overshoot.", "quantifier": "all functions, ranges, slopes and covariances, all histories of any length, all build configurations; exact arithmetic", "why_tests_cant": "the functions are arbitrary and histories infinite; overshooting depends on the interplay of covariances and slopes", "anchors": ["crates/minikalman/src/kalman/extended.rs: predict_nonlinear, predict_tuned_nonlinear, correct_nonlinear", "crates/minikalman/src/observations/extended.rs: correct_nonlinear, update_with_innovation"]}
{"id": "C116", "title": "a measurement that arrives late can be processed late if process noise does not affect it", "statement": "In exact arithmetic, a correction may be postponed over predictions, control inputs, corrections with other observation objects, and assignments of transition matrices, process noises, control inputs and other observation objects, if the measurement is expressed in terms of the state at the end, with H' and z' such that H' ξ' - z' = H ξ - z whenever the calls in between carry the true state ξ to ξ', and if no process noise in between (of predictions or control inputs) can change H' ξ'; the latter always holds if there is no process noise. Both programs run without panicking and end with the same state vector, covariance and all other vectors and matrices. If all transition matrices are invertible there is exactly one such H', z'. With process noise that affects what is measured the two programs end with different estimates.", "quantifier": "all dimensions, all lists of such calls in between, all contents with positive semi-definite covariances and positive definite measurement noises, singular transition matrices included", "why_tests_cant": "A test processes one late measurement after one prediction; the claim is about any number of calls of several kinds in between, and no test can show that all estimates agree exactly.", "anchors": ["crates/minikalman/src/kalman/regular.rs: predict, control, correct", "crates/minikalman/src/observations/regular.rs: correct", "crates/minikalman/src/observations/regular.rs: observation_matrix_mut, measurement_vector_mut"]}
{"id": "C117", "title": "with a copy of the former state a late measurement is as good as a timely one", "statement": "With process noise a late measurement cannot be processed exactly by a filter that only knows the present state. If the state also contains a copy of the state at the time of the measurement (a part that is equal to the present one when the copy is made, is not moved by the calls in between and has no process noise), then in exact arithmetic a correction with the observation matrix applied to the copy, made after any number of predictions, control inputs, corrections with other observation objects and assignments, neither panics nor loses anything: the estimate of the present state and its covariance are those of a filter without copy that processed the measurement in time.", "quantifier": "all dimensions, all parts of the state, all lists of such calls in between, all process noises of the other parts, all contents with positive semi-definite covariances and positive definite measurement noises", "why_tests_cant": "A test compares two runs for one model; the claim is about all models, any number and kind of calls in between, and exact agreement.", "anchors": ["crates/minikalman/src/kalman/regular.rs: predict, control, correct", "crates/minikalman/src/observations/regular.rs: correct", "crates/minikalman/src/observations/regular.rs: observation_matrix_mut, measurement_vector_mut"]}
{"id": "C118", "title": "what is known exactly stays known exactly, and nothing else ever is", "statement": "In exact arithmetic, after any history without assignments of the estimate and the covariance, a quantity H ξ of the state has variance zero (H P = 0) if and only if the uncertainty at the beginning does not affect it and no process noise of a prediction or a control input since then affects it. Its estimate is then where the transitions and control inputs carry the initial estimate, whatever was measured. In particular, with a positive definite covariance any number of corrections leaves every quantity with a positive variance.", "quantifier": "all dimensions, all histories of predictions, tuned predictions, control inputs, corrections and assignments of models, noises, inputs and measurements, all positive semi-definite covariances (singular ones included) and positive definite measurement noises, all quantities H", "why_tests_cant": "The claim is an equivalence about the exact rank of a covariance after arbitrary histories; a test sees rounded numbers of one history.", "anchors": ["crates/minikalman/src/kalman/regular.rs: predict, predict_tuned, control, correct", "crates/minikalman/src/observations/regular.rs: correct"]}
