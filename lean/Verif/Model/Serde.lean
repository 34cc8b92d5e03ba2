import Verif.Model.Camera

/-!
# Serialization (`serde-serialize` feature)

serde's data model as a value tree.  Hand-written visitors: `/repo/src/extrinsics.rs:271-360`,
`/repo/src/intrinsics_perspective.rs:272-346`.  Derived implementations:
`/repo/src/intrinsics_perspective.rs:51`, `/repo/src/intrinsics_orthographic.rs:44,68`,
`/repo/src/camera.rs:71`, `/repo/src/lib.rs:204,213,261`, `/repo/src/ray_bundle_types.rs:10,183`.

Simplifications: the format is self-describing (like JSON): structs are written as maps and read
from maps or sequences; map keys are strings.
-/

namespace CamGeom

/-- A serialized value; `S` is the type of serialized scalars. -/
inductive SVal (S : Type)
  | num (s : S)
  | nat (n : ℕ)
  | unit
  | seq (l : List (SVal S))
  | map (l : List (String × SVal S))

/-- serde deserialization errors. -/
inductive DErr
  | duplicateField (f : String)
  | missingField (f : String)
  | unknownField (f : String)
  | invalidLength (n : ℕ)
  | invalidType
  deriving DecidableEq, Repr

/-- Serialization of a scalar type `R` into tokens `S`; `ofNat` is reading an integer token where a
scalar is expected. -/
class SerScalar (R S : Type) where
  ser : R → S
  de : S → Option R
  ofNat : ℕ → Option R

variable {R S : Type} [SerScalar R S]

/-- `Deserialize` for a scalar. -/
def deScalar : SVal S → Except DErr R
  | .num s => match SerScalar.de s with
    | some r => .ok r
    | none => .error .invalidType
  | .nat n => match SerScalar.ofNat S n with
    | some r => .ok r
    | none => .error .invalidType
  | _ => .error .invalidType

/-- `Serialize` of nalgebra array storage: a flat sequence (column-major) of scalars. -/
def serArray {n : ℕ} (x : Fin n → R) : SVal S := .seq (List.ofFn fun i => .num (SerScalar.ser (x i)))

/-- `Deserialize` of nalgebra array storage: exactly `n` scalars.  The elements are read one by one; an
`n + 1`-th element is read and then refused, and the elements after it are not looked at. -/
def deArray (n : ℕ) : SVal S → Except DErr (Fin n → R)
  | .seq l => do
    let xs ← (l.take (n + 1)).mapM deScalar
    if h : xs.length = n then .ok fun i => xs.get (i.cast h.symm)
    else .error (.invalidLength (min xs.length n))
  | _ => .error .invalidType

/-- `Serialize for UnitQuaternion`: coordinates `[i, j, k, w]`. -/
def serQuat (q : Quat R) : SVal S := serArray ![q.i, q.j, q.k, q.w]

/-- `Deserialize for UnitQuaternion`: `Unit<T>` deserializes the inner value without
re-normalizing it. -/
def deQuat (v : SVal S) : Except DErr (Quat R) := do
  let x ← deArray 4 v
  pure ⟨x 3, x 0, x 1, x 2⟩

/-- `Serialize for Point3`/`Vector3`. -/
def serVec3 (p : V3 R) : SVal S := serArray p
/-- `Deserialize for Point3`/`Vector3`. -/
def deVec3 (v : SVal S) : Except DErr (V3 R) := deArray 3 v

/-- Column-major flattening of an `n x 3` matrix. -/
def flatten3 {R : Type} {n : ℕ} (m : Mat n 3 R) : Fin (3 * n) → R :=
  fun k => m ⟨k % n, Nat.mod_lt _ (by have := k.2; rcases n with _ | n <;> omega)⟩
             ⟨k / n, Nat.div_lt_of_lt_mul (lt_of_lt_of_eq k.2 (Nat.mul_comm 3 n))⟩

/-- Inverse of `flatten3`. -/
def unflatten3 {R : Type} {n : ℕ} (x : Fin (3 * n) → R) : Mat n 3 R :=
  fun i j => x ⟨j * n + i, by
    have h1 := i.2; have h2 : (j : ℕ) ≤ 2 := by have := j.2; omega
    calc (j : ℕ) * n + i < j * n + n := by omega
      _ ≤ 2 * n + n := by have := Nat.mul_le_mul_right n h2; omega
      _ = 3 * n := by omega⟩

/-! ### Hand-written visitors -/

section extrinsics
variable [Scalar R]

/-- Derived `Serialize for ExtrinsicParameters` with `cache` skipped
(`/repo/src/extrinsics.rs:19-25`). -/
def serExtrinsics (e : ExtrinsicParameters R) : SVal S :=
  .map [("rquat", serQuat e.rquat), ("camcenter", serVec3 e.camcenter)]

/-- State of `visit_map` (`/repo/src/extrinsics.rs:327-328`). -/
abbrev ExtState (R : Type) := Option (Quat R) × Option (V3 R)

/-- One iteration of the loop of `visit_map` (`/repo/src/extrinsics.rs:329-344`).  `next_key` fails on
a key that is neither `rquat` nor `camcenter` (`field_identifier`, `:283`). -/
def extVisitEntry (st : ExtState R) (kv : String × SVal S) : Except DErr (ExtState R) :=
  if kv.1 = "rquat" then
    if st.1.isSome then .error (.duplicateField "rquat")
    else do
      let q ← deQuat kv.2
      pure (some q, st.2)
  else if kv.1 = "camcenter" then
    if st.2.isSome then .error (.duplicateField "camcenter")
    else do
      let c ← deVec3 kv.2
      pure (st.1, some c)
  else .error (.unknownField kv.1)

/-- `visit_map` (`/repo/src/extrinsics.rs:320-350`). -/
def extVisitMap (entries : List (String × SVal S)) : Except DErr (ExtrinsicParameters R) := do
  let st ← entries.foldlM extVisitEntry ((none, none) : ExtState R)
  let rquat ← match st.1 with
    | some q => pure q
    | none => throw (DErr.missingField "rquat")
  let camcenter ← match st.2 with
    | some c => pure c
    | none => throw (DErr.missingField "camcenter")
  pure (ExtrinsicParameters.fromRotationAndCamcenter rquat camcenter)

/-- `visit_seq` (`/repo/src/extrinsics.rs:302-318`), followed by the format's check that the
sequence has been consumed. -/
def extVisitSeq : List (SVal S) → Except DErr (ExtrinsicParameters R)
  | [] => .error (.invalidLength 0)
  | v0 :: rest => do
    let rquat ← deQuat v0
    match rest with
    | [] => .error (.invalidLength 1)
    | v1 :: rest => do
      let camcenter ← deVec3 v1
      if rest.isEmpty then
        pure (ExtrinsicParameters.fromRotationAndCamcenter rquat camcenter)
      else .error (.invalidLength (2 + rest.length))

/-- `Deserialize for ExtrinsicParameters` (`/repo/src/extrinsics.rs:275-359`). -/
def deExtrinsics : SVal S → Except DErr (ExtrinsicParameters R)
  | .map l => extVisitMap l
  | .seq l => extVisitSeq l
  | _ => .error .invalidType

end extrinsics

/-! ### Derived struct visitors -/

/-- A field of a derived struct: its name, and the reader of its type with the value dropped.  (Readers have no effects,
so reading a value again after this check gives the value that the visitor stores.) -/
abbrev StructField (S : Type) := String × (SVal S → Except DErr Unit)

/-- The field `name` read by `de`. -/
def structField {α : Type} (name : String) (de : SVal S → Except DErr α) : StructField S :=
  (name, fun v => de v *> pure ())

/-- The loop of a derived `visit_map`: an entry whose key is not a field is skipped; a field that has been seen is an
error; otherwise the value is read. -/
def visitEntries (fields : List (StructField S)) : List String → List (String × SVal S) → Except DErr Unit
  | _, [] => .ok ()
  | seen, kv :: l => match fields.lookup kv.1 with
    | none => visitEntries fields seen l
    | some read =>
      if kv.1 ∈ seen then .error (.duplicateField kv.1)
      else do
        read kv.2
        visitEntries fields (kv.1 :: seen) l

/-- After the loop of a derived `visit_map`, a field that has not been seen is an error. -/
def requiredField (entries : List (String × SVal S)) (f : String) : Except DErr (SVal S) :=
  match entries.lookup f with
  | none => .error (.missingField f)
  | some v => .ok v

/-- A derived `visit_seq`: the fields are read in order, and the first that is not there is an error; `n` counts the
elements read.  Then the format refuses further elements. -/
def visitElements : List (StructField S) → ℕ → List (SVal S) → Except DErr Unit
  | [], _, [] => .ok ()
  | [], n, v :: rest => .error (.invalidLength (n + (v :: rest).length))
  | _ :: _, n, [] => .error (.invalidLength n)
  | f :: fields, n, v :: rest => do
    f.2 v
    visitElements fields (n + 1) rest

/-- Fields of a derived struct deserialized from a map or a sequence. -/
def structFields (fields : List (StructField S)) : SVal S → Except DErr (List (SVal S))
  | .map l => do
    visitEntries fields [] l
    fields.mapM fun f => requiredField l f.1
  | .seq l => do
    visitElements fields 0 l
    pure l
  | _ => .error .invalidType

/-- Derived `Serialize for PerspectiveParams` (`/repo/src/intrinsics_perspective.rs:51`). -/
def serPerspectiveParams (p : PerspectiveParams R) : SVal S :=
  .map [("fx", .num (SerScalar.ser p.fx)), ("fy", .num (SerScalar.ser p.fy)),
        ("skew", .num (SerScalar.ser p.skew)), ("cx", .num (SerScalar.ser p.cx)),
        ("cy", .num (SerScalar.ser p.cy))]

/-- Derived `Deserialize for PerspectiveParams` (`/repo/src/intrinsics_perspective.rs:51`). -/
def dePerspectiveParams (v : SVal S) : Except DErr (PerspectiveParams R) := do
  match ← structFields [structField "fx" (deScalar (R := R)), structField "fy" (deScalar (R := R)),
      structField "skew" (deScalar (R := R)), structField "cx" (deScalar (R := R)),
      structField "cy" (deScalar (R := R))] v with
  | [fx, fy, skew, cx, cy] =>
    pure { fx := ← deScalar fx, fy := ← deScalar fy, skew := ← deScalar skew,
           cx := ← deScalar cx, cy := ← deScalar cy }
  | _ => throw .invalidType

/-- Derived `Serialize for IntrinsicParametersPerspective`, `cache_p` skipped
(`/repo/src/intrinsics_perspective.rs:83-88`). -/
def serPerspective (c : IntrinsicParametersPerspective R) : SVal S :=
  .map [("params", serPerspectiveParams c.params)]

section perspective
variable [Scalar R]

/-- One iteration of `visit_map` (`/repo/src/intrinsics_perspective.rs:323-332`). -/
def perspVisitEntry (st : Option (PerspectiveParams R)) (kv : String × SVal S) :
    Except DErr (Option (PerspectiveParams R)) :=
  if kv.1 = "params" then
    if st.isSome then .error (.duplicateField "params")
    else do
      let p ← dePerspectiveParams kv.2
      pure (some p)
  else .error (.unknownField kv.1)

/-- `visit_map` (`/repo/src/intrinsics_perspective.rs:315-336`). -/
def perspVisitMap (entries : List (String × SVal S)) :
    Except DErr (IntrinsicParametersPerspective R) := do
  let st ← entries.foldlM perspVisitEntry (none : Option (PerspectiveParams R))
  let params ← match st with
    | some p => pure p
    | none => throw (DErr.missingField "params")
  pure (IntrinsicParametersPerspective.ofParams params)

/-- `visit_seq` (`/repo/src/intrinsics_perspective.rs:302-313`) and end-of-sequence check. -/
def perspVisitSeq : List (SVal S) → Except DErr (IntrinsicParametersPerspective R)
  | [] => .error (.invalidLength 0)
  | v0 :: rest => do
    let params ← dePerspectiveParams v0
    if rest.isEmpty then pure (IntrinsicParametersPerspective.ofParams params)
    else .error (.invalidLength (1 + rest.length))

/-- `Deserialize for IntrinsicParametersPerspective`
(`/repo/src/intrinsics_perspective.rs:276-345`). -/
def dePerspective : SVal S → Except DErr (IntrinsicParametersPerspective R)
  | .map l => perspVisitMap l
  | .seq l => perspVisitSeq l
  | _ => .error .invalidType

end perspective

/-- Derived `Serialize for OrthographicParams` (`/repo/src/intrinsics_orthographic.rs:44`). -/
def serOrthographicParams (p : OrthographicParams R) : SVal S :=
  .map [("sx", .num (SerScalar.ser p.sx)), ("sy", .num (SerScalar.ser p.sy)),
        ("cx", .num (SerScalar.ser p.cx)), ("cy", .num (SerScalar.ser p.cy))]

/-- Derived `Deserialize for OrthographicParams` (`/repo/src/intrinsics_orthographic.rs:44`). -/
def deOrthographicParams (v : SVal S) : Except DErr (OrthographicParams R) := do
  match ← structFields [structField "sx" (deScalar (R := R)), structField "sy" (deScalar (R := R)),
      structField "cx" (deScalar (R := R)), structField "cy" (deScalar (R := R))] v with
  | [sx, sy, cx, cy] =>
    pure { sx := ← deScalar sx, sy := ← deScalar sy, cx := ← deScalar cx, cy := ← deScalar cy }
  | _ => throw .invalidType

/-- Derived `Serialize for IntrinsicParametersOrthographic`
(`/repo/src/intrinsics_orthographic.rs:68`). -/
def serOrthographic (c : IntrinsicParametersOrthographic R) : SVal S :=
  .map [("params", serOrthographicParams c.params)]

/-- Derived `Deserialize for IntrinsicParametersOrthographic`
(`/repo/src/intrinsics_orthographic.rs:68`). -/
def deOrthographic (v : SVal S) : Except DErr (IntrinsicParametersOrthographic R) := do
  match ← structFields [structField "params" (deOrthographicParams (R := R))] v with
  | [p] => pure { params := ← deOrthographicParams p }
  | _ => throw .invalidType

/-- Derived `Serialize for Camera` (`/repo/src/camera.rs:71`), generic in the intrinsics. -/
def serCamera [Scalar R] {I : Type} (serI : I → SVal S) (c : Camera R I) : SVal S :=
  .map [("intrinsics", serI c.intrinsics), ("extrinsics", serExtrinsics c.extrinsics)]

/-- Derived `Deserialize for Camera` (`/repo/src/camera.rs:71`). -/
def deCamera [Scalar R] {I : Type} (deI : SVal S → Except DErr I) (v : SVal S) :
    Except DErr (Camera R I) := do
  match ← structFields [structField "intrinsics" deI, structField "extrinsics" (deExtrinsics (R := R))] v with
  | [i, e] => pure { intrinsics := ← deI i, extrinsics := ← deExtrinsics e }
  | _ => throw .invalidType

/-- Derived `Serialize for SharedOriginRayBundle` (`/repo/src/ray_bundle_types.rs:10`). -/
def serSharedOrigin (b : SharedOriginRayBundle R) : SVal S := .map [("center", serVec3 b.center)]
/-- Derived `Deserialize for SharedOriginRayBundle` (`/repo/src/ray_bundle_types.rs:10`). -/
def deSharedOrigin (v : SVal S) : Except DErr (SharedOriginRayBundle R) := do
  match ← structFields [structField "center" (deVec3 (R := R))] v with
  | [c] => pure { center := ← deVec3 c }
  | _ => throw .invalidType

/-- Derived `Serialize for SharedDirectionRayBundle` (`/repo/src/ray_bundle_types.rs:183`). -/
def serSharedDirection (b : SharedDirectionRayBundle R) : SVal S :=
  .map [("direction", serVec3 b.direction)]
/-- Derived `Deserialize for SharedDirectionRayBundle` (`/repo/src/ray_bundle_types.rs:183`). -/
def deSharedDirection (v : SVal S) : Except DErr (SharedDirectionRayBundle R) := do
  match ← structFields [structField "direction" (deVec3 (R := R))] v with
  | [d] => pure { direction := ← deVec3 d }
  | _ => throw .invalidType

/-- `Deserialize for PhantomData`: a unit value. -/
def dePhantom : SVal S → Except DErr Unit
  | .unit => .ok ()
  | _ => .error .invalidType

/-- Derived `Serialize for RayBundle` (`/repo/src/lib.rs:261-274`). -/
def serRayBundle {Coords B : Type} {n : ℕ} (serB : B → SVal S) (b : RayBundle Coords B R n) : SVal S :=
  .map [("coords", .unit), ("data", serArray (flatten3 b.data)), ("bundle_type", serB b.bundleType)]

/-- Derived `Deserialize for RayBundle` (`/repo/src/lib.rs:261-274`). -/
def deRayBundle {Coords B : Type} {n : ℕ} (deB : SVal S → Except DErr B) (v : SVal S) :
    Except DErr (RayBundle Coords B R n) := do
  match ← structFields [structField "coords" dePhantom, structField "data" (deArray (R := R) (3 * n)),
      structField "bundle_type" deB] v with
  | [c, d, b] => do
    dePhantom c
    pure { data := unflatten3 (← deArray (3 * n) d), bundleType := ← deB b }
  | _ => throw .invalidType

/-- `Serialize for VecStorage` (bundles with a run-time number of rays, `Dyn`, e.g.
`/repo/src/lib.rs:261-274` with `NPTS = Dyn`): the tuple of flat data, number of rows, and the static
number of columns (a unit). -/
def serVecStorage {n : ℕ} (m : Mat n 3 R) : SVal S := .seq [serArray (flatten3 m), .nat n, .unit]

/-- `Deserialize for VecStorage` with three static columns: the number of elements must be three times
the number of rows.  Simplification: no overflow in `nrows * ncols`. -/
def deVecStorage : SVal S → Except DErr (Σ n, Mat n 3 R)
  | .seq [.seq l, .nat n, .unit] => do
    let xs ← l.mapM deScalar
    if h : xs.length = 3 * n then .ok ⟨n, unflatten3 fun i => xs.get (i.cast h.symm)⟩
    else .error (.invalidLength xs.length)
  | _ => .error .invalidType

/-- Derived `Serialize for RayBundle` with a run-time number of rays (`/repo/src/lib.rs:261-274`). -/
def serRayBundleDyn {Coords B : Type} {n : ℕ} (serB : B → SVal S) (b : RayBundle Coords B R n) :
    SVal S :=
  .map [("coords", .unit), ("data", serVecStorage b.data), ("bundle_type", serB b.bundleType)]

/-- Derived `Deserialize for RayBundle` with a run-time number of rays
(`/repo/src/lib.rs:261-274`). -/
def deRayBundleDyn {Coords B : Type} (deB : SVal S → Except DErr B) (v : SVal S) :
    Except DErr (Σ n, RayBundle Coords B R n) := do
  match ← structFields [structField "coords" dePhantom, structField "data" (deVecStorage (R := R)),
      structField "bundle_type" deB] v with
  | [c, d, b] => do
    dePhantom c
    let m ← deVecStorage d
    pure ⟨m.1, { data := m.2, bundleType := ← deB b }⟩
  | _ => throw .invalidType

end CamGeom
