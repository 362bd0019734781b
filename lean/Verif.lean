import Verif.Arith
import Verif.Cam.Calls
import Verif.Cam.Dialogs
import Verif.Cam.Document
import Verif.Cam.Fillet
import Verif.Cam.Header
import Verif.Cam.Lemmas
import Verif.Cam.Main
import Verif.Cam.Model
import Verif.Cam.Options
import Verif.Cam.Outline
import Verif.Cam.Output
import Verif.Cam.Preview
import Verif.Cam.Props1
import Verif.Cam.Props10
import Verif.Cam.Props11
import Verif.Cam.Props12
import Verif.Cam.Props13
import Verif.Cam.Props14
import Verif.Cam.Props15
import Verif.Cam.Props16
import Verif.Cam.Props17
import Verif.Cam.Props18
import Verif.Cam.Props19
import Verif.Cam.Props2
import Verif.Cam.Props20
import Verif.Cam.Props21
import Verif.Cam.Props22
import Verif.Cam.Props23
import Verif.Cam.Props24
import Verif.Cam.Props25
import Verif.Cam.Props26
import Verif.Cam.Props27
import Verif.Cam.Props28
import Verif.Cam.Props29
import Verif.Cam.Props3
import Verif.Cam.Props30
import Verif.Cam.Props31
import Verif.Cam.Props32
import Verif.Cam.Props33
import Verif.Cam.Props34
import Verif.Cam.Props35
import Verif.Cam.Props36
import Verif.Cam.Props37
import Verif.Cam.Props38
import Verif.Cam.Props39
import Verif.Cam.Props4
import Verif.Cam.Props40
import Verif.Cam.Props41
import Verif.Cam.Props42
import Verif.Cam.Props43
import Verif.Cam.Props44
import Verif.Cam.Props45
import Verif.Cam.Props46
import Verif.Cam.Props5
import Verif.Cam.Props6
import Verif.Cam.Props7
import Verif.Cam.Props8
import Verif.Cam.Props9
import Verif.Cam.Run
import Verif.Cam.Seg
import Verif.Cam.Settings
import Verif.Cam.Start
import Verif.Cam.Subpath
import Verif.Cam.Toolpath
import Verif.Ext.Colors
import Verif.Ext.Copies
import Verif.Ext.Lines
import Verif.Ext.Pipes
import Verif.Ext.PolyExt
import Verif.Ext.Polysmooth
import Verif.Ext.Props1
import Verif.Ext.Props10
import Verif.Ext.Props11
import Verif.Ext.Props12
import Verif.Ext.Props13
import Verif.Ext.Props14
import Verif.Ext.Props15
import Verif.Ext.Props16
import Verif.Ext.Props17
import Verif.Ext.Props18
import Verif.Ext.Props19
import Verif.Ext.Props2
import Verif.Ext.Props20
import Verif.Ext.Props21
import Verif.Ext.Props22
import Verif.Ext.Props23
import Verif.Ext.Props24
import Verif.Ext.Props25
import Verif.Ext.Props26
import Verif.Ext.Props27
import Verif.Ext.Props28
import Verif.Ext.Props29
import Verif.Ext.Props3
import Verif.Ext.Props30
import Verif.Ext.Props31
import Verif.Ext.Props32
import Verif.Ext.Props33
import Verif.Ext.Props34
import Verif.Ext.Props35
import Verif.Ext.Props4
import Verif.Ext.Props5
import Verif.Ext.Props6
import Verif.Ext.Props7
import Verif.Ext.Props8
import Verif.Ext.Props9
import Verif.Ext.QLayers
import Verif.Ext.QMarks
import Verif.Ext.Quasi
import Verif.Ext.Quasink
import Verif.Ext.Rays
import Verif.Ext.Render
import Verif.Ext.Sine
import Verif.Ext.Styles
import Verif.Ext.VoronoiExt
import Verif.Ext.VoronoiRun
import Verif.GCode.Induct
import Verif.GCode.Lemmas
import Verif.GCode.Model
import Verif.GCode.Props1
import Verif.GCode.Props2
import Verif.GCode.Props3
import Verif.GCode.Props4
import Verif.GCode.Props5
import Verif.GCode.Props6
import Verif.GCode.Props7
import Verif.GCode.Spec
import Verif.GCode.Track
import Verif.Geom.Align
import Verif.Geom.Angle
import Verif.Geom.Biarc
import Verif.Geom.Clip
import Verif.Geom.Curve
import Verif.Geom.Ellipse
import Verif.Geom.Frame
import Verif.Geom.Grid
import Verif.Geom.Hull
import Verif.Geom.Inscribed
import Verif.Geom.Outset
import Verif.Geom.Point
import Verif.Geom.Polygon
import Verif.Geom.Props1
import Verif.Geom.Props10
import Verif.Geom.Props11
import Verif.Geom.Props12
import Verif.Geom.Props13
import Verif.Geom.Props14
import Verif.Geom.Props15
import Verif.Geom.Props16
import Verif.Geom.Props17
import Verif.Geom.Props18
import Verif.Geom.Props19
import Verif.Geom.Props2
import Verif.Geom.Props20
import Verif.Geom.Props21
import Verif.Geom.Props22
import Verif.Geom.Props23
import Verif.Geom.Props24
import Verif.Geom.Props25
import Verif.Geom.Props26
import Verif.Geom.Props27
import Verif.Geom.Props3
import Verif.Geom.Props4
import Verif.Geom.Props5
import Verif.Geom.Props6
import Verif.Geom.Props7
import Verif.Geom.Props8
import Verif.Geom.Props9
import Verif.Geom.Shapes
import Verif.Geom.Smooth
import Verif.Geom.Vw
import Verif.Graph.Faces
import Verif.Graph.Model
import Verif.Graph.Peel
import Verif.Graph.Props1
import Verif.Graph.Props2
import Verif.Graph.Props3
import Verif.Graph.Props4
import Verif.Graph.Props5
import Verif.Num
import Verif.Py
import Verif.Svg.Context
import Verif.Svg.Css
import Verif.Svg.Elements
import Verif.Svg.Geometry
import Verif.Svg.Layer
import Verif.Svg.NewDoc
import Verif.Svg.Output
import Verif.Svg.Path
import Verif.Svg.Props1
import Verif.Svg.Props10
import Verif.Svg.Props11
import Verif.Svg.Props12
import Verif.Svg.Props13
import Verif.Svg.Props14
import Verif.Svg.Props15
import Verif.Svg.Props16
import Verif.Svg.Props17
import Verif.Svg.Props18
import Verif.Svg.Props19
import Verif.Svg.Props2
import Verif.Svg.Props20
import Verif.Svg.Props21
import Verif.Svg.Props22
import Verif.Svg.Props23
import Verif.Svg.Props3
import Verif.Svg.Props4
import Verif.Svg.Props5
import Verif.Svg.Props6
import Verif.Svg.Props7
import Verif.Svg.Props8
import Verif.Svg.Props9
import Verif.Svg.Templates
import Verif.Svg.Tree
import Verif.Voronoi.Model
import Verif.Voronoi.Props1
import Verif.Voronoi.Props2
import Verif.Voronoi.Props3
import Verif.Voronoi.Queue
import Verif.Voronoi.Sweep
