import Verif.Model.RayIntersection
import Verif.Model.Camera

/-!
# `/repo/examples/render-cube.rs`: the wireframe renderer

The output file is the list of drawn elements; the header, the footer, colours and number formatting are
fixed text and not represented, neither are failures of the file system.
-/

namespace CamGeom

/-- `f64::INFINITY`, `f64::min` and `f64::max` (`/repo/examples/render-cube.rs:62-83`). -/
structure F64Order (F : Type) where
  inf : F
  min : F → F → F
  max : F → F → F

/-- `struct SvgWriter` (`/repo/examples/render-cube.rs:51-57`). -/
structure SvgWriter (F : Type) where
  segs : List ((F × F) × (F × F))
  xmin : F
  xmax : F
  ymin : F
  ymax : F

/-- The elements written for each segment (`/repo/examples/render-cube.rs:124-136`). -/
inductive SvgElem (F : Type)
  | line (x1 x2 y1 y2 strokeWidth : F)
  | circle (cx cy r : F)

namespace SvgWriter
variable {F : Type} [Scalar F]

/-- `SvgWriter::new` (`/repo/examples/render-cube.rs:60-68`). -/
def new (o : F64Order F) : SvgWriter F :=
  { xmin := o.inf, xmax := -o.inf, ymin := o.inf, ymax := -o.inf, segs := [] }

/-- `SvgWriter::add_edge` (`/repo/examples/render-cube.rs:69-86`). -/
def addEdge (o : F64Order F) (w : SvgWriter F) (pt0 pt1 : Fin 2 → F) : SvgWriter F :=
  let w := { w with xmin := o.min w.xmin (pt0 0) }
  let w := { w with xmin := o.min w.xmin (pt1 0) }
  let w := { w with ymin := o.min w.ymin (pt0 1) }
  let w := { w with ymin := o.min w.ymin (pt1 1) }
  let w := { w with xmax := o.max w.xmax (pt0 0) }
  let w := { w with xmax := o.max w.xmax (pt1 0) }
  let w := { w with ymax := o.max w.ymax (pt0 1) }
  let w := { w with ymax := o.max w.ymax (pt1 1) }
  { w with segs := w.segs ++ [((pt0 0, pt0 1), (pt1 0, pt1 1))] }

/-- `SvgWriter::save` (`/repo/examples/render-cube.rs:87-139`): the elements in the order written. -/
def save (w : SvgWriter F) : List (SvgElem F) :=
  let width : F := Scalar.lit 300
  let height : F := Scalar.lit 200
  let border : F := Scalar.lit 5
  let xscale := (width - Scalar.lit 2 * border) / (w.xmax - w.xmin)
  let yscale := (height - Scalar.lit 2 * border) / (w.ymax - w.ymin)
  let (xscale, yscale) := if Scalar.lt yscale xscale then (yscale, yscale) else (xscale, xscale)
  let xoffset := -w.xmin * xscale + border
  let yoffset := -w.ymin * yscale + border
  let radius := border
  let strokeWidth : F := Scalar.lit 2
  w.segs.flatMap fun seg =>
    let x1 := seg.1.1 * xscale + xoffset
    let x2 := seg.2.1 * xscale + xoffset
    let y1 := seg.1.2 * yscale + yoffset
    let y2 := seg.2.2 * yscale + yoffset
    [.line x1 x2 y1 y2 strokeWidth, .circle x1 y1 radius, .circle x2 y2 radius]

end SvgWriter

/-- `data.row(i)` of a runtime index: panics when out of range
(`/repo/examples/render-cube.rs:165,166`). -/
def rowAt {F : Type} {n m : ℕ} (a : Mat n m F) (i : ℕ) : Outcome (Fin m → F) :=
  if h : i < n then .ok (fun j => a ⟨i, h⟩ j) else .panic

/-- `render_wireframe` (`/repo/examples/render-cube.rs:145-172`). -/
def renderWireframe {F I : Type} [Scalar F] [IntrinsicParameters F I] {n : ℕ} (o : F64Order F)
    (verts : Points WorldFrame F n) (edges : List (ℕ × ℕ)) (cam : Camera F I) :
    Outcome (List (SvgElem F)) := do
  let pixelCoords := cam.worldToPixel verts
  let wtr ← edges.foldlM (init := SvgWriter.new o) fun wtr edge => do
    let pt0 ← rowAt pixelCoords.data edge.1
    let pt1 ← rowAt pixelCoords.data edge.2
    .ok (wtr.addEdge o pt0 pt1)
  .ok wtr.save

end CamGeom
