import Verif.Lemmas.Arc
import Verif.Lemmas.ArcCtor
import Verif.Lemmas.Bits
import Verif.Lemmas.Chain
import Verif.Lemmas.Color
import Verif.Lemmas.ColorFloat
import Verif.Lemmas.Connected
import Verif.Lemmas.Css
import Verif.Lemmas.Direction
import Verif.Lemmas.DomLoad
import Verif.Lemmas.Fmt
import Verif.Lemmas.Font
import Verif.Lemmas.Hull
import Verif.Lemmas.HullRun
import Verif.Lemmas.Ieee
import Verif.Lemmas.ListAux
import Verif.Lemmas.Number
import Verif.Lemmas.PathAppend
import Verif.Lemmas.PathBody
import Verif.Lemmas.PathFuel
import Verif.Lemmas.PathGood
import Verif.Lemmas.PathHeap
import Verif.Lemmas.PathIncr
import Verif.Lemmas.PathLex
import Verif.Lemmas.PathMain
import Verif.Lemmas.PointText
import Verif.Lemmas.Print
import Verif.Lemmas.PrintFloat
import Verif.Lemmas.PrintPath
import Verif.Lemmas.Regex
import Verif.Lemmas.RegexMore
import Verif.Lemmas.RegexText
import Verif.Lemmas.Relink
import Verif.Lemmas.Reverse
import Verif.Lemmas.Scaled
import Verif.Lemmas.TransformRun
import Verif.Lemmas.TransformText
import Verif.Model.Angle
import Verif.Model.Arc
import Verif.Model.ArcCtor
import Verif.Model.ArcD
import Verif.Model.ArcMeasure
import Verif.Model.ArcParams
import Verif.Model.ArcPos
import Verif.Model.Color
import Verif.Model.ColorFloat
import Verif.Model.ColorInit
import Verif.Model.ColorMeasure
import Verif.Model.ColorMeasureFloat
import Verif.Model.ColorParse
import Verif.Model.ColorSet
import Verif.Model.Css
import Verif.Model.Dom
import Verif.Model.DomNav
import Verif.Model.DomPoints
import Verif.Model.DomProps
import Verif.Model.DomViewbox
import Verif.Model.ElementShapes
import Verif.Model.FloatAngle
import Verif.Model.FloatArc
import Verif.Model.FloatArcBox
import Verif.Model.FloatBisect
import Verif.Model.FloatBox
import Verif.Model.FloatGeom
import Verif.Model.FloatHull
import Verif.Model.FloatLength
import Verif.Model.FloatLocate
import Verif.Model.FloatPath
import Verif.Model.FloatSvgArc
import Verif.Model.FloatTransform
import Verif.Model.FloatTransformText
import Verif.Model.FloatTurn
import Verif.Model.FloatUnits
import Verif.Model.FloatViewbox
import Verif.Model.Fmt
import Verif.Model.Font
import Verif.Model.Ieee
import Verif.Model.Image
import Verif.Model.Length
import Verif.Model.LengthOps
import Verif.Model.Lex
import Verif.Model.Matrix
import Verif.Model.Path
import Verif.Model.PathCache
import Verif.Model.PathEdit
import Verif.Model.PathHeap
import Verif.Model.PathLex
import Verif.Model.PathSeq
import Verif.Model.Picture
import Verif.Model.Point
import Verif.Model.PointHash
import Verif.Model.PointOps
import Verif.Model.PointText
import Verif.Model.Polar
import Verif.Model.Print
import Verif.Model.Py
import Verif.Model.Regex
import Verif.Model.RegexLex
import Verif.Model.Repr
import Verif.Model.Seg
import Verif.Model.SegBox
import Verif.Model.SegGeom
import Verif.Model.SegLength
import Verif.Model.Sequence
import Verif.Model.Shapes
import Verif.Model.Subpath
import Verif.Model.SubpathEdit
import Verif.Model.Transform
import Verif.Model.Viewbox
import Verif.Props.Angle
import Verif.Props.AngleText
import Verif.Props.Arc
import Verif.Props.ArcBox
import Verif.Props.ArcBoxLaws
import Verif.Props.ArcCtor
import Verif.Props.ArcCtorMore
import Verif.Props.ArcCurves
import Verif.Props.ArcD
import Verif.Props.ArcDigits
import Verif.Props.ArcLength
import Verif.Props.ArcParams
import Verif.Props.ArcPos
import Verif.Props.ArcQuality
import Verif.Props.ArcReverse
import Verif.Props.ArcTransform
import Verif.Props.BoxLaws
import Verif.Props.ColorAbs
import Verif.Props.ColorChannels
import Verif.Props.ColorDistinct
import Verif.Props.ColorDistinctFloat
import Verif.Props.ColorFloat
import Verif.Props.ColorFloatBack
import Verif.Props.ColorFun
import Verif.Props.ColorHsl
import Verif.Props.ColorInit
import Verif.Props.ColorKeywords
import Verif.Props.ColorMeasure
import Verif.Props.ColorMeasureFloat
import Verif.Props.ColorMix
import Verif.Props.ColorSet
import Verif.Props.ColorText
import Verif.Props.Css
import Verif.Props.CssTransform
import Verif.Props.CssTree
import Verif.Props.CurveLength
import Verif.Props.DomInherit
import Verif.Props.DomLoad
import Verif.Props.DomNav
import Verif.Props.DomPoints
import Verif.Props.DomProps
import Verif.Props.DomRefs
import Verif.Props.DomSave
import Verif.Props.DomSiblings
import Verif.Props.DomTree
import Verif.Props.DomViewbox
import Verif.Props.ElementShapes
import Verif.Props.FirstPoint
import Verif.Props.FloatAngle
import Verif.Props.FloatArc
import Verif.Props.FloatArcBox
import Verif.Props.FloatArcFollow
import Verif.Props.FloatBisect
import Verif.Props.FloatBox
import Verif.Props.FloatEnds
import Verif.Props.FloatError
import Verif.Props.FloatHull
import Verif.Props.FloatInverse
import Verif.Props.FloatLength
import Verif.Props.FloatLocate
import Verif.Props.FloatPath
import Verif.Props.FloatProduct
import Verif.Props.FloatSubBox
import Verif.Props.FloatSvgArc
import Verif.Props.FloatSvgArcBox
import Verif.Props.FloatSvgArcFrame
import Verif.Props.FloatSvgArcPoints
import Verif.Props.FloatTransformText
import Verif.Props.FloatTurn
import Verif.Props.FloatUnits
import Verif.Props.FloatViewbox
import Verif.Props.Font
import Verif.Props.Hull
import Verif.Props.Image
import Verif.Props.Length
import Verif.Props.LengthAccuracy
import Verif.Props.LengthFloat
import Verif.Props.LengthIn
import Verif.Props.LengthOps
import Verif.Props.LengthText
import Verif.Props.Matrix
import Verif.Props.NumberValue
import Verif.Props.PathBuild
import Verif.Props.PathCache
import Verif.Props.PathEdit
import Verif.Props.PathEditClose
import Verif.Props.PathHeap
import Verif.Props.PathIncr
import Verif.Props.PathParse
import Verif.Props.PathPoints
import Verif.Props.PathPositions
import Verif.Props.PathReverse
import Verif.Props.PathSep
import Verif.Props.PathSeq
import Verif.Props.PathSlice
import Verif.Props.PathText
import Verif.Props.PathValidate
import Verif.Props.Picture
import Verif.Props.Point
import Verif.Props.PointHash
import Verif.Props.PointOps
import Verif.Props.PointText
import Verif.Props.Polar
import Verif.Props.Print
import Verif.Props.PrintDrift
import Verif.Props.PrintFloat
import Verif.Props.PrintPath
import Verif.Props.QuadLength
import Verif.Props.Regex
import Verif.Props.Repr
import Verif.Props.SegGeom
import Verif.Props.SegLaws
import Verif.Props.Sequence
import Verif.Props.Shapes
import Verif.Props.SmoothJoin
import Verif.Props.SubpathBox
import Verif.Props.SubpathEdit
import Verif.Props.Subpaths
import Verif.Props.Transform
import Verif.Props.Viewbox
import Verif.Sanity.Lex
import Verif.Spec.Affine
import Verif.Spec.Alike
import Verif.Spec.Arc
import Verif.Spec.ArcCtor
import Verif.Spec.Color
import Verif.Spec.ColorFun
import Verif.Spec.Connected
import Verif.Spec.Css
import Verif.Spec.CssColors
import Verif.Spec.CssTree
import Verif.Spec.Dom
import Verif.Spec.DomNav
import Verif.Spec.DomProps
import Verif.Spec.Drift
import Verif.Spec.Font
import Verif.Spec.Geom
import Verif.Spec.Ieee
import Verif.Spec.Length
import Verif.Spec.Number
import Verif.Spec.Pair
import Verif.Spec.PathData
import Verif.Spec.PathHeap
import Verif.Spec.PathPoints
import Verif.Spec.Picture
import Verif.Spec.Plane
import Verif.Spec.Print
import Verif.Spec.PrintDrift
import Verif.Spec.Product
import Verif.Spec.PyCall
import Verif.Spec.SameText
import Verif.Spec.Slice
import Verif.Spec.Transform
import Verif.Spec.TransformCost
import Verif.Spec.Value
import Verif.Spec.Viewbox
