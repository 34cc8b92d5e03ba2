import Verif.Model.Camera

/-!
# `Debug` and `Display` output

The builders of `core::fmt` write `Name { a: 1, b: 2 }` and `[1, 2]`, or with the flag `#` one field per line,
indented by four spaces.  Texts are lists of characters.  How a number is written is a parameter: it depends on the
scalar type and on the other formatting flags.
-/

namespace CamGeom

/-- Output text. -/
abbrev Text := List Char

/-- A formatter: the flag `#` and the way numbers are written. -/
structure Formatter (R : Type) where
  alternate : Bool
  num : R → Text

/-- `PadAdapter` of `core::fmt::builders`: four spaces before the first character of each line. -/
def padAdapter : (onNewline : Bool) → Text → Text
  | _, [] => []
  | onNewline, c :: s => (if onNewline then "    ".toList else []) ++ c :: padAdapter (c == '\n') s

/-- The fields written by `DebugStruct::field`, in order. -/
def debugFields (alternate : Bool) : (hasFields : Bool) → List (String × Text) → Text
  | _, [] => []
  | hasFields, (name, value) :: fields =>
    (if alternate then
      (if hasFields then [] else " {\n".toList) ++
        padAdapter true (name.toList ++ ": ".toList ++ value ++ ",\n".toList)
    else (if hasFields then ", ".toList else " { ".toList) ++ name.toList ++ ": ".toList ++ value) ++
      debugFields alternate true fields

/-- `fmt.debug_struct(name).field(..)..finish()` of `core::fmt` (used at `/repo/src/extrinsics.rs:31-34`,
`/repo/src/intrinsics_perspective.rs:264-266` and by `derive(Debug)`). -/
def debugStruct (alternate : Bool) (name : String) (fields : List (String × Text)) : Text :=
  name.toList ++ debugFields alternate false fields ++
    (if fields.isEmpty then [] else if alternate then "}".toList else " }".toList)

/-- The entries written by `DebugList::entry`, in order. -/
def debugEntries (alternate : Bool) : (hasFields : Bool) → List Text → Text
  | _, [] => []
  | hasFields, value :: values =>
    (if alternate then
      (if hasFields then [] else "\n".toList) ++ padAdapter true (value ++ ",\n".toList)
    else (if hasFields then ", ".toList else []) ++ value) ++ debugEntries alternate true values

/-- `Debug` of a slice. -/
def debugList (alternate : Bool) (values : List Text) : Text :=
  "[".toList ++ debugEntries alternate false values ++ "]".toList

variable {R : Type}

/-- `derive(Debug)` for `PerspectiveParams` (`/repo/src/intrinsics_perspective.rs:50-63`). -/
def PerspectiveParams.debug (f : Formatter R) (p : PerspectiveParams R) : Text :=
  debugStruct f.alternate "PerspectiveParams"
    [("fx", f.num p.fx), ("fy", f.num p.fy), ("skew", f.num p.skew), ("cx", f.num p.cx), ("cy", f.num p.cy)]

/-- `impl Debug for IntrinsicParametersPerspective` (`/repo/src/intrinsics_perspective.rs:260-268`). -/
def IntrinsicParametersPerspective.debug (f : Formatter R) (c : IntrinsicParametersPerspective R) : Text :=
  debugStruct f.alternate "IntrinsicParametersPerspective" [("params", c.params.debug f)]

/-- `derive(Debug)` for `OrthographicParams` (`/repo/src/intrinsics_orthographic.rs:43-54`). -/
def OrthographicParams.debug (f : Formatter R) (p : OrthographicParams R) : Text :=
  debugStruct f.alternate "OrthographicParams"
    [("sx", f.num p.sx), ("sy", f.num p.sy), ("cx", f.num p.cx), ("cy", f.num p.cy)]

/-- `derive(Debug)` for `IntrinsicParametersOrthographic` (`/repo/src/intrinsics_orthographic.rs:67-71`). -/
def IntrinsicParametersOrthographic.debug (f : Formatter R) (c : IntrinsicParametersOrthographic R) : Text :=
  debugStruct f.alternate "IntrinsicParametersOrthographic" [("params", c.params.debug f)]

/-- `Debug` of nalgebra's `UnitQuaternion`: the slice of its coordinates i, j, k, w. -/
def Quat.debug (f : Formatter R) (q : Quat R) : Text :=
  debugList f.alternate [f.num q.i, f.num q.j, f.num q.k, f.num q.w]

/-- `Debug` of nalgebra's `Point3`: the slice of its coordinates. -/
def V3.debug (f : Formatter R) (v : V3 R) : Text :=
  debugList f.alternate [f.num (v 0), f.num (v 1), f.num (v 2)]

/-- `impl Debug for ExtrinsicParameters` (`/repo/src/extrinsics.rs:27-36`). -/
def ExtrinsicParameters.debug (f : Formatter R) (e : ExtrinsicParameters R) : Text :=
  debugStruct f.alternate "ExtrinsicParameters" [("rquat", e.rquat.debug f), ("camcenter", V3.debug f e.camcenter)]

/-- `derive(Debug)` for `Camera` (`/repo/src/camera.rs:70-79`); `intrinsics` writes the intrinsic parameters. -/
def Camera.debug {I : Type} (intrinsics : I → Text) (f : Formatter R) (c : Camera R I) : Text :=
  debugStruct f.alternate "Camera" [("intrinsics", intrinsics c.intrinsics), ("extrinsics", c.extrinsics.debug f)]

/-- `derive(Debug)` for `Error` (`/repo/src/lib.rs:146-157`). -/
def Error.debug : Error → String
  | .invalidInput => "InvalidInput"
  | .svdFailed => "SvdFailed"
  | .minimumTwoRaysNeeded => "MinimumTwoRaysNeeded"
  | .invalidRotationMatrix => "InvalidRotationMatrix"

/-- `impl Display for Error` (`/repo/src/lib.rs:163-167`). -/
def Error.display (e : Error) : String := e.debug

end CamGeom
