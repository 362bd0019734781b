import Verif.Ext.QMarks

/-!
# Model of the layers made by `quasink.py` and of the text of its info layer
-/

set_option linter.unusedSectionVars false

namespace Verif.Ext
open Verif PyFloat PyTrig Geom

variable {K : Type} [PyTrig K]

/-- The options that decide what is drawn (`quasink.py:307-343`). -/
structure QDraw (K : Type) where
  info : Bool
  margins : Bool
  polygons : Bool
  polysegs : Bool
  polygonMult : Int
  ellipses : Bool
  skinnyNone : Bool
  fatNone : Bool
  segments : Bool
  segpaths : Bool
  frame : Bool
  frameWidth : K
  frameHeight : K
  /-- `symmetry` -/
  symmetry : Int
  /-- `polyseg_layer_per_color` and `segbox_layers` -/
  polysegLayers : Bool
  segboxLayers : Bool

/-- A layer asked for with `create_layer(name, incr_suffix=fresh)`: `fresh` layers get a new name if there is one with that name already, others are emptied. -/
structure QLayer where
  name : Str
  fresh : Bool
  deriving DecidableEq

/-- The steps of the end of `run` (`quasink.py:307-343`). -/
inductive QStep where
  | info | margins | polygons | polysegs | insets | ellipses | segments | segboxes | chains | frame
  deriving DecidableEq

/-- The steps that are taken (`quasink.py:307-343`). -/
def qSteps (o : QDraw K) : List QStep :=
  let none := o.skinnyNone && o.fatNone
  let segmentDraw := if none then false else o.segments
  let segpathDraw := if none then false else o.segpaths
  (if o.info then [.info] else []) ++
  (if o.margins then [.margins] else []) ++
  (if o.polygons then [.polygons] else []) ++
  (if o.polysegs then [.polysegs] else []) ++
  (if 0 < o.polygonMult then [.insets] else []) ++
  (if o.ellipses then [.ellipses] else []) ++
  (if segmentDraw then [.segments, .segboxes] else []) ++
  (if segpathDraw then [.chains] else []) ++
  (if o.frame && (zero <. o.frameWidth && zero <. o.frameHeight) then [.frame] else [])

/-- The layers of one step, in the order in which they are made (`quasink.py:347,372,394,408-409,450-458,479-480,522,531-538,555,566`); `colors` is the number of colours for edges, `kinds` the number of kinds of boxes. -/
def stepLayers (decimal : Int → Str) (o : QDraw K) (colors kinds : Nat) : QStep → List QLayer
  | .info => [⟨"q_info".toList, false⟩]
  | .margins => [⟨"q_margins".toList, false⟩]
  | .polygons => [⟨"q_polygons_".toList ++ decimal o.symmetry, true⟩]
  | .polysegs =>
    if o.polysegLayers then (List.range colors).map fun (i : Nat) => ⟨"q_polyseg_".toList ++ decimal i, true⟩
    else [⟨"q_polysegs".toList, true⟩]
  | .insets => (List.range o.polygonMult.toNat).map fun (n : Nat) => ⟨"q_insetpolygons_".toList ++ decimal ((n : Int) + 1), true⟩
  | .ellipses => [⟨"q_polygon_ellipses".toList, true⟩]
  | .segments => [⟨"q_segments".toList, true⟩]
  | .segboxes =>
    let prefix' := "q_segpolys_".toList ++ decimal o.symmetry
    if o.segboxLayers then (List.range kinds).map fun (i : Nat) => ⟨prefix' ++ "_".toList ++ decimal i, true⟩
    else [⟨prefix', true⟩]
  | .chains => [⟨"q_segment_chains".toList, true⟩]
  | .frame => [⟨"q_frame".toList, false⟩]

/-- The layers of a run that raises no exception (`quasink.py:307-343`). -/
def qLayers (decimal : Int → Str) (o : QDraw K) (colors kinds : Nat) : List QLayer :=
  (qSteps o).flatMap (stepLayers decimal o colors kinds)

/-- The settings shown on the info layer (`quasink.py:348-364`), as they are after the conversion of the command line: lengths in user units, angles in radians. -/
structure QInfo (K : Type) where
  symmetry : Int
  scale : K
  rotate : K
  offsetX : K
  offsetY : K
  skinnyfatRatio : K
  segmentRatio : K
  numlines : Int
  saltX : K
  saltY : K
  epsilon : K
  marginTop : K
  marginLeft : K
  marginRight : K
  marginBottom : K
  polygonSort : Int

/-- The lines of the info layer (`quasink.py:348-364`); `fixed n x` is `'%.nf' % x`, `decimal` is `'%d'`. -/
def infoLines (decimal : Int → Str) (fixed : Nat → K → Str) (o : QInfo K) : List Str := [
  "Symmetry: ".toList ++ decimal o.symmetry,
  "Scale: ".toList ++ fixed 1 o.scale,
  "Rotation: ".toList ++ fixed 2 (degrees o.rotate),
  "Offset X: ".toList ++ fixed 2 o.offsetX,
  "Offset Y: ".toList ++ fixed 2 o.offsetY,
  "Skinny-fat ratio: ".toList ++ fixed 2 o.skinnyfatRatio,
  "Segment ratio: ".toList ++ fixed 2 o.segmentRatio,
  "Num lines: ".toList ++ decimal o.numlines,
  "Salt X: ".toList ++ fixed 5 o.saltX,
  "Salt Y: ".toList ++ fixed 5 o.saltY,
  "Epsilon: ".toList ++ fixed 5 o.epsilon,
  "Margins: T".toList ++ fixed 2 o.marginTop ++ ", L".toList ++ fixed 2 o.marginLeft ++ ", R".toList ++ fixed 2 o.marginRight ++ ", B".toList ++ fixed 2 o.marginBottom,
  "Polygon sort: ".toList ++ decimal o.polygonSort]

end Verif.Ext
