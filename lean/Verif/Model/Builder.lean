import Verif.Model.ExtendedWorld

/-!
# Construction of buffers and filters

Paths are relative to `/repo/crates/minikalman/src`. The storage types `MatrixDataArray`, `MatrixDataBoxed`,
`MatrixDataRef`, `MatrixDataMut` and the typed buffers around them (`buffers/types/*.rs`) are all modelled by `Mat`: a
slice with compile time dimensions. `[T; TOTAL]` is a list of length `TOTAL`. Products of dimensions are natural numbers:
a product that overflows `usize` is a compile time error or the buffer could not be allocated (not modelled).
-/

namespace Minikalman

variable {T : Type} {R C n l m : Nat}

/-! ## Storage -/

/-- `MatrixDataArray::new`, `matrix/data/matrix_data_array.rs:26-33`; `From<[T; TOTAL]>`,
`matrix/data/matrix_data_mut.rs:63-70`. -/
def matrixDataArrayNew (bld : Build) (data : List T) : Res (Mat R C T) := do
  assertUnlessNoAssert bld (R * C == data.length)
  pure ⟨data⟩

/-- `MatrixDataArray::new_unchecked`, `matrix/data/matrix_data_array.rs:36-38`; `MatrixData::new_array`,
`matrix/data.rs:87-91`. -/
def newArray (data : List T) : Mat R C T := ⟨data⟩

/-- `MatrixDataBoxed::new`, `matrix/data/matrix_data_boxed.rs:26-36`; `From<B>`, `:52-60`; `MatrixData::new_boxed`,
`matrix/data.rs:77-84`. -/
def newBoxed (bld : Build) (data : List T) : Res (Mat R C T) := do
  assertUnlessNoAssert bld (R * C == data.length)
  pure ⟨data⟩

/-- `MatrixData::new`, `matrix/data.rs:67-72`. -/
def matrixDataNew (bld : Build) (init : T) : Res (Mat R C T) := newBoxed bld (List.replicate (R * C) init)

/-- `MatrixDataRef::new`, `matrix/data/matrix_data_ref.rs` (`new`, `From<&[T]>`, `From<&mut [T]>`); `MatrixDataMut::new`,
`matrix/data/matrix_data_mut.rs` (`new`, `From<&mut [T]>`); `MatrixData::new_ref`, `new_mut`, `matrix/data.rs:94-105`;
`MatrixDataRowMajor(Mut)::new`, `matrix/data/matrix_data_row_major.rs`, `matrix_data_row_major_mut.rs` (which delegate to
the wrapped storage). -/
def newRef (data : List T) : Mat R C T := ⟨data⟩

/-- `MatrixData::empty`, `matrix/data.rs:32-37`; `Default for MatrixDataArray<0, 0, 0, T>`,
`matrix/data/matrix_data_array.rs:16-21`. -/
def emptyMatrix : Mat 0 0 T := newArray []

/-- `into_inner` of all storages, e.g. `matrix/data/matrix_data_array.rs:41-43`. -/
def intoInner (m : Mat R C T) : List T := m.data

/-! ## Typed buffers

All matrix buffers have the same two conversions, with the dimensions of their role: `From<&mut [T]>` (`From<&[T]>`) with
`debug_assert!(ROWS * COLS <= value.len())` and `From<[T; TOTAL]>` with `debug_assert!(ROWS * COLS <= TOTAL)`, both
unless `no_assert`. They are modelled once for all dimensions. -/

/-- Slices, `buffers/types`: `control_matrix_buffer.rs:72-106`, `control_process_noise_covariance_buffer.rs:83-129`,
`direct_process_noise_covariance_buffer.rs:68-102`, `estimate_covariance_matrix_buffer.rs:34-44`,
`innovation_covariance_matrix_buffer.rs:34-48`, `kalman_gain_matrix_buffer.rs:39-49`,
`measurement_noise_covariance_matrix_buffer.rs:39-53`, `observation_matrix_buffer.rs:100-139`,
`state_transition_matrix_buffer.rs:87-121`, `temporary_bq_matrix_buffer.rs:39-49`, `temporary_hp_matrix_buffer.rs:43-53`,
`temporary_khp_matrix_buffer.rs:36-46`, `temporary_pht_matrix_buffer.rs:43-58`,
`temporary_residual_covariance_inverted_matrix_buffer.rs:40-54`, `temporary_state_matrix_buffer.rs:29-39`; vectors
(`C = 1`): `buffers/macros.rs:62-76`, which compares `ROWS` instead of `ROWS * 1`. -/
def bufferFromSlice (bld : Build) (value : List T) : Res (Mat R C T) := do
  debugAssert bld (decide (R * C ≤ value.length))
  pure (newRef value)

/-- Arrays: the `From<[T; TOTAL]>` of the same files, e.g. `temporary_hp_matrix_buffer.rs:55-71`. -/
def bufferFromArray (bld : Build) (value : List T) : Res (Mat R C T) := do
  debugAssert bld (decide (R * C ≤ value.length))
  pure (newArray value)

/-- Vectors from exactly sized arrays `[T; ROWS]`: `buffers/macros.rs:23-31`. -/
def vectorFromArray (value : { v : List T // v.length = n }) : Mat n 1 T := newArray value.1

/-! ## Buffer builders, `buffers/builder.rs`

`new_with(init)`; vectors are arrays `[init; N]`, matrices boxed slices `vec![init; R * C]`. -/

/-- `StateVectorBufferBuilder::new_with`, `buffers/builder.rs:233-240`. -/
def buildStateVector (init : T) : Mat n 1 T := newArray (List.replicate n init)

/-- `StateTransitionMatrixBufferBuilder::new_with`, `buffers/builder.rs:286-293`. -/
def buildStateTransition (bld : Build) (init : T) : Res (Mat n n T) := newBoxed bld (List.replicate (n * n) init)

/-- `EstimateCovarianceMatrixBufferBuilder::new_with`, `buffers/builder.rs:340-347`. -/
def buildEstimateCovariance (bld : Build) (init : T) : Res (Mat n n T) := newBoxed bld (List.replicate (n * n) init)

/-- `ControlVectorBufferBuilder::new_with`, `buffers/builder.rs:395-405`. -/
def buildControlVector (init : T) : Mat l 1 T := newArray (List.replicate l init)

/-- `ControlTransitionMatrixBufferBuilder::new_with`, `buffers/builder.rs:455-465`. -/
def buildControlMatrix (bld : Build) (init : T) : Res (Mat n l T) := newBoxed bld (List.replicate (n * l) init)

/-- `DirectProcessNoiseCovarianceMatrixBufferBuilder::new_with`, `buffers/builder.rs:517-536`. -/
def buildDirectProcessNoise (bld : Build) (init : T) : Res (Mat n n T) := newBoxed bld (List.replicate (n * n) init)

/-- `ControlProcessNoiseCovarianceMatrixBufferBuilder::new_with`, `buffers/builder.rs:591-610`. -/
def buildControlProcessNoise (bld : Build) (init : T) : Res (Mat l l T) := newBoxed bld (List.replicate (l * l) init)

/-- `ObservationVectorBufferBuilder::new_with`, `buffers/builder.rs:655-662`. -/
def buildMeasurementVector (init : T) : Mat m 1 T := newArray (List.replicate m init)

/-- `ObservationMatrixBufferBuilder::new_with`, `buffers/builder.rs:710-723`. -/
def buildObservationMatrix (bld : Build) (init : T) : Res (Mat m n T) := newBoxed bld (List.replicate (m * n) init)

/-- `MeasurementNoiseCovarianceMatrixBufferBuilder::new_with`, `buffers/builder.rs:772-784`. -/
def buildMeasurementNoise (bld : Build) (init : T) : Res (Mat m m T) := newBoxed bld (List.replicate (m * m) init)

/-- `InnovationVectorBufferBuilder::new_with`, `buffers/builder.rs:830-837`. -/
def buildInnovationVector (init : T) : Mat m 1 T := newArray (List.replicate m init)

/-- `InnovationResidualCovarianceMatrixBufferBuilder::new_with`, `buffers/builder.rs:887-902`. -/
def buildInnovationCovariance (bld : Build) (init : T) : Res (Mat m m T) := newBoxed bld (List.replicate (m * m) init)

/-- `KalmanGainMatrixBufferBuilder::new_with`, `buffers/builder.rs:949-962`. -/
def buildKalmanGain (bld : Build) (init : T) : Res (Mat n m T) := newBoxed bld (List.replicate (n * m) init)

/-- `StatePredictionVectorBufferBuilder::new_with`, `buffers/builder.rs:1007-1014`. -/
def buildTempX (init : T) : Mat n 1 T := newArray (List.replicate n init)

/-- `TemporarySystemCovarianceMatrixBufferBuilder::new_with`, `buffers/builder.rs:1060-1067`. -/
def buildTempP (bld : Build) (init : T) : Res (Mat n n T) := newBoxed bld (List.replicate (n * n) init)

/-- `TemporaryBQMatrixBufferBuilder::new_with`, `buffers/builder.rs:1113-1120`. -/
def buildTempBQ (bld : Build) (init : T) : Res (Mat n l T) := newBoxed bld (List.replicate (n * l) init)

/-- `TemporarySInvMatrixBufferBuilder::new_with`, `buffers/builder.rs:1170-1182`. -/
def buildTempSInv (bld : Build) (init : T) : Res (Mat m m T) := newBoxed bld (List.replicate (m * m) init)

/-- `TemporaryHPMatrixBufferBuilder::new_with`, `buffers/builder.rs:1229-1242`. -/
def buildTempHP (bld : Build) (init : T) : Res (Mat m n T) := newBoxed bld (List.replicate (m * n) init)

/-- `TemporaryPHtMatrixBufferBuilder::new_with`, `buffers/builder.rs:1289-1302`. -/
def buildTempPHt (bld : Build) (init : T) : Res (Mat n m T) := newBoxed bld (List.replicate (n * m) init)

/-- `TemporaryKHPMatrixBufferBuilder::new_with`, `buffers/builder.rs:1347-1354`. -/
def buildTempKHP (bld : Build) (init : T) : Res (Mat n n T) := newBoxed bld (List.replicate (n * n) init)

/-! ## Filter, control and observation builders -/

/-- `RegularKalmanBuilder::new`, `kalman/regular.rs:61-87`. -/
def RegularKalman.mkNew (A : Mat n n T) (x : Mat n 1 T) (P Q : Mat n n T) (predictedX : Mat n 1 T) (tempP : Mat n n T) :
    RegularKalman n T :=
  { x := x, A := A, P := P, Q := Q, predictedX := predictedX, tempP := tempP }

/-- `ExtendedKalmanBuilder::new`, `kalman/extended.rs:61-87`. -/
def ExtendedKalman.mkNew (A : Mat n n T) (x : Mat n 1 T) (P Q : Mat n n T) (predictedX : Mat n 1 T) (tempP : Mat n n T) :
    ExtendedKalman n T :=
  { x := x, A := A, P := P, Q := Q, predictedX := predictedX, tempP := tempP }

/-- `ControlBuilder::new`, `controls.rs:27-47`. -/
def Control.mkNew (B : Mat n l T) (u : Mat l 1 T) (Q : Mat l l T) (tempBQ : Mat n l T) : Control n l T :=
  { B := B, u := u, Q := Q, tempBQ := tempBQ }

/-- `RegularObservationBuilder::new`, `observations/regular.rs:82-134`. -/
def RegularObservation.mkNew (H : Mat m n T) (z : Mat m 1 T) (R : Mat m m T) (y : Mat m 1 T) (S : Mat m m T)
    (K : Mat n m T) (tempSInv : Mat m m T) (tempHP : Mat m n T) (tempPHt : Mat n m T) (tempKHP : Mat n n T) :
    RegularObservation n m T :=
  { z := z, H := H, R := R, y := y, S := S, K := K, tempSInv := tempSInv, tempHP := tempHP, tempPHt := tempPHt,
    tempKHP := tempKHP }

/-- `ExtendedObservationBuilder::new`, `observations/extended.rs:82-134`. -/
def ExtendedObservation.mkNew (H : Mat m n T) (z : Mat m 1 T) (R : Mat m m T) (y : Mat m 1 T) (S : Mat m m T)
    (K : Mat n m T) (tempSInv : Mat m m T) (tempHP : Mat m n T) (tempPHt : Mat n m T) (tempKHP : Mat n n T) :
    ExtendedObservation n m T :=
  { z := z, H := H, R := R, y := y, S := S, K := K, tempSInv := tempSInv, tempHP := tempHP, tempPHt := tempPHt,
    tempKHP := tempKHP }

variable [Inhabited T]

/-- `KalmanFilterBuilder::build` of the regular filter, `kalman_builder/regular.rs:67-90`; the `new()` of each buffer
builder is `new_with(T::default())`, and `T::default()` is `default`. -/
def buildRegularKalman (bld : Build) : Res (RegularKalman n T) := do
  let stateVector := buildStateVector default
  let systemMatrix ← buildStateTransition bld default
  let systemCovariance ← buildEstimateCovariance bld default
  let processNoise ← buildDirectProcessNoise bld default
  let tempX := buildTempX default
  let tempP ← buildTempP bld default
  pure (RegularKalman.mkNew systemMatrix stateVector systemCovariance processNoise tempX tempP)

/-- `KalmanFilterBuilder::build` of the extended filter, `kalman_builder/extended.rs:60-83`. -/
def buildExtendedKalman (bld : Build) : Res (ExtendedKalman n T) := do
  let stateVector := buildStateVector default
  let systemMatrix ← buildStateTransition bld default
  let systemCovariance ← buildEstimateCovariance bld default
  let processNoise ← buildDirectProcessNoise bld default
  let tempX := buildTempX default
  let tempP ← buildTempP bld default
  pure (ExtendedKalman.mkNew systemMatrix stateVector systemCovariance processNoise tempX tempP)

/-- `KalmanFilterControlBuilder::build`, `kalman_builder/regular.rs:142-162`. -/
def buildControl (bld : Build) : Res (Control n l T) := do
  let controlVector := buildControlVector default
  let controlMatrix ← buildControlMatrix bld default
  let controlCovariance ← buildControlProcessNoise bld default
  let tempBQ ← buildTempBQ bld default
  pure (Control.mkNew controlMatrix controlVector controlCovariance tempBQ)

/-- `KalmanFilterObservationBuilder::build` of the regular filter, `kalman_builder/regular.rs:211-249`. -/
def buildRegularObservation (bld : Build) : Res (RegularObservation n m T) := do
  let measurementVector := buildMeasurementVector default
  let observationMatrix ← buildObservationMatrix bld default
  let observationCovariance ← buildMeasurementNoise bld default
  let innovationVector := buildInnovationVector default
  let residualCovariance ← buildInnovationCovariance bld default
  let kalmanGain ← buildKalmanGain bld default
  let tempSInverted ← buildTempSInv bld default
  let tempHP ← buildTempHP bld default
  let tempPHt ← buildTempPHt bld default
  let tempKHP ← buildTempKHP bld default
  pure (RegularObservation.mkNew observationMatrix measurementVector observationCovariance innovationVector
    residualCovariance kalmanGain tempSInverted tempHP tempPHt tempKHP)

/-- `KalmanFilterObservationBuilder::build` of the extended filter, `kalman_builder/extended.rs:137-174`. -/
def buildExtendedObservation (bld : Build) : Res (ExtendedObservation n m T) := do
  let measurementVector := buildMeasurementVector default
  let observationMatrix ← buildObservationMatrix bld default
  let observationCovariance ← buildMeasurementNoise bld default
  let innovationVector := buildInnovationVector default
  let residualCovariance ← buildInnovationCovariance bld default
  let kalmanGain ← buildKalmanGain bld default
  let tempSInverted ← buildTempSInv bld default
  let tempHP ← buildTempHP bld default
  let tempPHt ← buildTempPHt bld default
  let tempKHP ← buildTempKHP bld default
  pure (ExtendedObservation.mkNew observationMatrix measurementVector observationCovariance innovationVector
    residualCovariance kalmanGain tempSInverted tempHP tempPHt tempKHP)

/-- A program that builds a filter, one control for each entry of `ctls` and one observation for each entry of `obs`
(the README's way of using the crate). -/
def buildWorld (bld : Build) (ctls obs : List Nat) : Res (World n T) := do
  let kf ← buildRegularKalman bld
  let ctl ← ctls.mapM fun l => do
    let c ← buildControl (n := n) (l := l) bld
    pure (⟨l, c⟩ : (l : Nat) × Control n l T)
  let obs ← obs.mapM fun m => do
    let o ← buildRegularObservation (n := n) (m := m) bld
    pure (⟨m, o⟩ : (m : Nat) × RegularObservation n m T)
  pure ⟨kf, ctl, obs⟩

/-- The same for the extended filter; `env` is the initial state captured by closures. -/
def buildXWorld {σ : Type} (bld : Build) (obs : List Nat) (env : σ) : Res (XWorld n T σ) := do
  let kf ← buildExtendedKalman bld
  let obs ← obs.mapM fun m => do
    let o ← buildExtendedObservation (n := n) (m := m) bld
    pure (⟨m, o⟩ : (m : Nat) × ExtendedObservation n m T)
  pure ⟨kf, obs, env⟩

/-! ## Size macros and statics -/

/-- The buffers of filter, control and observation. -/
inductive Role
  | x | A | P | Q | predictedX | tempP
  | u | B | Qc | tempBQ
  | z | H | R | y | S | K | tempSInv | tempHP | tempPHt | tempKHP
  deriving DecidableEq

/-- `size_buffer_*!`, `lib.rs:294-697`, for `n` states, `l` controls, `m` measurements. Macro by macro: `x` 334, `A` 294,
`P` 314, `Q_direct` 354, `temp_x` 563, `temp_P` 583, `u` 374, `B` 396, `Q_control` 417, `temp_BQ` 605, `z` 437, `H` 459,
`R` 480, `y` 500, `S` 520, `K` 542, `temp_S_inv` 626, `temp_HP` 648, `temp_PHt` 671, `temp_KHP` 692. -/
def sizeBuffer (n l m : Nat) : Role → Nat
  | .x => n * 1
  | .A => n * n
  | .P => n * n
  | .Q => n * n
  | .predictedX => n * 1
  | .tempP => n * n
  | .u => l * 1
  | .B => n * l
  | .Qc => l * l
  | .tempBQ => n * l
  | .z => m * 1
  | .H => m * n
  | .R => m * m
  | .y => m * 1
  | .S => m * m
  | .K => n * m
  | .tempSInv => m * m
  | .tempHP => n * m
  | .tempPHt => n * m
  | .tempKHP => n * n

/-- The arrays in `impl_buffer_*!`, `static_macros.rs`: `[init; { ... }]` at lines 73 (`x`), 157 (`A`), 221 (`P`), 285
(`Q_direct`), 984 (`temp_x`), 1043 (`temp_P`), 349 (`u`), 417 (`B`), 482 (`Q_control`), 1113 (`temp_BQ`), 540 (`z`), 627
(`H`), 703 (`R`), 771 (`y`), 846 (`S`), 926 (`K`), 1190 (`temp_S_inv`), 1271 (`temp_HP`), 1352 (`temp_PHt`), 1418
(`temp_KHP`). -/
def implBuffer (n l m : Nat) (init : T) : Role → List T
  | .x => List.replicate (n * 1) init
  | .A => List.replicate (n * n) init
  | .P => List.replicate (n * n) init
  | .Q => List.replicate (n * n) init
  | .predictedX => List.replicate (n * 1) init
  | .tempP => List.replicate (n * n) init
  | .u => List.replicate (l * 1) init
  | .B => List.replicate (n * l) init
  | .Qc => List.replicate (l * l) init
  | .tempBQ => List.replicate (n * l) init
  | .z => List.replicate (m * 1) init
  | .H => List.replicate (m * n) init
  | .R => List.replicate (m * m) init
  | .y => List.replicate (m * 1) init
  | .S => List.replicate (m * m) init
  | .K => List.replicate (n * m) init
  | .tempSInv => List.replicate (m * m) init
  | .tempHP => List.replicate (m * n) init
  | .tempPHt => List.replicate (n * m) init
  | .tempKHP => List.replicate (n * n) init

/-- A regular filter from `impl_buffer_*!` buffers, as in the examples of `static_macros.rs` and
`/repo/crates/minikalman/examples`. -/
def staticKalman (init : T) : RegularKalman n T :=
  RegularKalman.mkNew (newArray (implBuffer n 0 0 init .A)) (newArray (implBuffer n 0 0 init .x))
    (newArray (implBuffer n 0 0 init .P)) (newArray (implBuffer n 0 0 init .Q))
    (newArray (implBuffer n 0 0 init .predictedX)) (newArray (implBuffer n 0 0 init .tempP))

/-- A control from `impl_buffer_*!` buffers. -/
def staticControl (init : T) : Control n l T :=
  Control.mkNew (newArray (implBuffer n l 0 init .B)) (newArray (implBuffer n l 0 init .u))
    (newArray (implBuffer n l 0 init .Qc)) (newArray (implBuffer n l 0 init .tempBQ))

/-- An observation from `impl_buffer_*!` buffers. -/
def staticObservation (init : T) : RegularObservation n m T :=
  RegularObservation.mkNew (newArray (implBuffer n 0 m init .H)) (newArray (implBuffer n 0 m init .z))
    (newArray (implBuffer n 0 m init .R)) (newArray (implBuffer n 0 m init .y)) (newArray (implBuffer n 0 m init .S))
    (newArray (implBuffer n 0 m init .K)) (newArray (implBuffer n 0 m init .tempSInv))
    (newArray (implBuffer n 0 m init .tempHP)) (newArray (implBuffer n 0 m init .tempPHt))
    (newArray (implBuffer n 0 m init .tempKHP))

/-- A filter whose buffers are arrays `[init; size_buffer_*!(...)]` passed as slices, as in
`/repo/crates/minikalman/examples` and the crate documentation. -/
def slicedKalman (bld : Build) (init : T) : Res (RegularKalman n T) := do
  let A ← bufferFromSlice bld (List.replicate (sizeBuffer n 0 0 .A) init)
  let x ← bufferFromSlice bld (List.replicate (sizeBuffer n 0 0 .x) init)
  let P ← bufferFromSlice bld (List.replicate (sizeBuffer n 0 0 .P) init)
  let Q ← bufferFromSlice bld (List.replicate (sizeBuffer n 0 0 .Q) init)
  let predictedX ← bufferFromSlice bld (List.replicate (sizeBuffer n 0 0 .predictedX) init)
  let tempP ← bufferFromSlice bld (List.replicate (sizeBuffer n 0 0 .tempP) init)
  pure (RegularKalman.mkNew A x P Q predictedX tempP)

/-- A control whose buffers are sliced arrays. -/
def slicedControl (bld : Build) (init : T) : Res (Control n l T) := do
  let B ← bufferFromSlice bld (List.replicate (sizeBuffer n l 0 .B) init)
  let u ← bufferFromSlice bld (List.replicate (sizeBuffer n l 0 .u) init)
  let Q ← bufferFromSlice bld (List.replicate (sizeBuffer n l 0 .Qc) init)
  let tempBQ ← bufferFromSlice bld (List.replicate (sizeBuffer n l 0 .tempBQ) init)
  pure (Control.mkNew B u Q tempBQ)

/-- An observation whose buffers are sliced arrays. -/
def slicedObservation (bld : Build) (init : T) : Res (RegularObservation n m T) := do
  let H ← bufferFromSlice bld (List.replicate (sizeBuffer n 0 m .H) init)
  let z ← bufferFromSlice bld (List.replicate (sizeBuffer n 0 m .z) init)
  let R ← bufferFromSlice bld (List.replicate (sizeBuffer n 0 m .R) init)
  let y ← bufferFromSlice bld (List.replicate (sizeBuffer n 0 m .y) init)
  let S ← bufferFromSlice bld (List.replicate (sizeBuffer n 0 m .S) init)
  let K ← bufferFromSlice bld (List.replicate (sizeBuffer n 0 m .K) init)
  let tempSInv ← bufferFromSlice bld (List.replicate (sizeBuffer n 0 m .tempSInv) init)
  let tempHP ← bufferFromSlice bld (List.replicate (sizeBuffer n 0 m .tempHP) init)
  let tempPHt ← bufferFromSlice bld (List.replicate (sizeBuffer n 0 m .tempPHt) init)
  let tempKHP ← bufferFromSlice bld (List.replicate (sizeBuffer n 0 m .tempKHP) init)
  pure (RegularObservation.mkNew H z R y S K tempSInv tempHP tempPHt tempKHP)

/-! ## nalgebra, `matrix/nalgebra_support.rs` -/

/-- `RStride`, `matrix/nalgebra_support.rs:44`. -/
def nalgebraRStride (_ : Mat R C T) : Nat := C

/-- `CStride`, `matrix/nalgebra_support.rs:45`. -/
def nalgebraCStride (_ : Mat R C T) : Nat := 1

/-- `shape`, `matrix/nalgebra_support.rs:53-55`. -/
def nalgebraShape (_ : Mat R C T) : Nat × Nat := (R, C)

/-- `RawStorage::linear_index` (nalgebra's provided method, not overridden): `irow * RStride + icol * CStride`. -/
def nalgebraLinearIndex (a : Mat R C T) (r c : Nat) : Nat := r * nalgebraRStride a + c * nalgebraCStride a

/-- `RawStorage::get_unchecked` (provided method): an unchecked read at `ptr + linear_index`; `none` is an access outside
the array, that is undefined behaviour. -/
def nalgebraGet (a : Mat R C T) (r c : Nat) : Option T := a.data[nalgebraLinearIndex a r c]?

/-- `as_slice_unchecked`, `matrix/nalgebra_support.rs:68-70`: `from_raw_parts(ptr, ROWS * COLS)`; `none` if this reaches
behind the array, that is undefined behaviour. -/
def nalgebraSlice (a : Mat R C T) : Option (List T) :=
  if R * C ≤ a.data.length then some (a.data.take (R * C)) else none

end Minikalman
