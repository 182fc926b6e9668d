import Verif.OctTree.Props
import Verif.Kin.TransformProps
import Verif.Kin.ChainProps
import Verif.Kin.RotationProps
import Verif.Collision.Props
import Verif.Resolver.Props
import Verif.Xform.Props
import Verif.Assembly.DatumProps
import Verif.Assembly.ConstraintProps
import Verif.Assembly.MateProps
import Verif.Assembly.Props
import Verif.Assembly.FaceMateProps
import Verif.Assembly.SolverProps
import Verif.Assembly.RegistryProps
import Verif.Metadata.Fields
import Verif.Lexer.Props
import Verif.Lexer.Props2
import Verif.Lexer.Layout
import Verif.Types.Props
import Verif.Interp.Calls
import Verif.Pkg.Recompute
import Verif.Pkg.Extra
import Verif.Stl.Mesh
import Verif.GeoJson.Extra
import Verif.Geom.PolyProps
import Verif.Geom.CircleProps
import Verif.Geom.FigProps4
import Verif.Geom.LineArcProps
import Verif.Spline.Bezier
import Verif.Spline.BSpline
import Verif.Spline.NurbsProps
import Verif.Spline.CatmullTangent
import Verif.Conic.Props2
import Verif.Parser.Props2
import Verif.Parser.Trees
import Verif.Parser.ModuleProps2
import Verif.Checker.ScopeEx
import Verif.Pipe.Example
import Verif.Pipe.IfExpr
import Verif.Pipe.Assign
import Verif.Pipe.Concat
import Verif.Geom.Tight
import Verif.Surf.Witness
import Verif.Surf.Build
import Verif.Prim.Prism
import Verif.Prim.Adaptive
import Verif.Prim.Conic
import Verif.Prim.Ball
import Verif.Prim.Lathe
import Verif.Path.Props
import Verif.Segment.Examples
import Verif.Checks.Props
import Verif.Checks.Loop
import Verif.Ring.Props
import Verif.Ring.Search
import Verif.Valid.Report
import Verif.Valid.Motion
import Verif.Valid.Box
import Verif.Valid.Mesh
import Verif.Record.Props
import Verif.Ana.Points
import Verif.Ana.Normals
import Verif.Ana.Tess
import Verif.Ana.BSpline
import Verif.Brep.Closure
import Verif.Brep.Adding
import Verif.Brep.Incidence
import Verif.Brep.Serial
import Verif.Brep.Transform
import Verif.Obj.Cache
import Verif.Obj.Polygon
import Verif.Bool3.Model
import Verif.Bool3.Clip
import Verif.Bool3.Area
import Verif.Bool3.Parts
import Verif.Bool3.Contains
import Verif.Bool3.Order
import Verif.Bool3.Cases
import Verif.Bool3.Result
import Verif.Loops.Stitch
import Verif.Loops.Comps
import Verif.Loops.Region
import Verif.Loops.Inside
import Verif.Loops.Polyg
import Verif.Loops.Patterns
import Verif.Loops.Random
import Verif.Loops.Spiral
import Verif.Hints.Props
import Verif.Hints.Apply
import Verif.Hints.Twice
import Verif.Accept.Eval
import Verif.Accept.Schema
import Verif.Accept.Load
import Verif.Step.Comps
import Verif.Step.Model
import Verif.Step.Props
import Verif.Step.Read
import Verif.Step.Reals
import Verif.Step.Shells
import Verif.Step.Spec
import Verif.Step.Write
import Verif.Thread.Model
import Verif.Thread.Sampling
import Verif.Thread.Radius
import Verif.Thread.Linear
import Verif.Select.Model
import Verif.Select.Position
import Verif.Select.Direction
import Verif.Select.Sets
import Verif.Catalog.Model
import Verif.Catalog.Search
import Verif.Catalog.Cache
import Verif.Catalog.Lookup
import Verif.Hints.Sections
import Verif.Builtin.Num
import Verif.Builtin.NumProps
import Verif.Builtin.Region
import Verif.Builtin.RegionProps
import Verif.Builtin.Solid
import Verif.Builtin.SolidProps
import Verif.Sketch.Model
import Verif.Sketch.Props
import Verif.Gear.Model
import Verif.Gear.Props
import Verif.Gear.Teeth
import Verif.Export.Model
import Verif.Export.Graph
import Verif.Export.Mates
import Verif.Export.Geoms
import Verif.Export.LoadCase
import Verif.Plane.Model
import Verif.Plane.Basis
import Verif.Plane.Inter
import Verif.Plane.TriTri
import Verif.Plane.Face
import Verif.Intent.Model
import Verif.Intent.Props
import Verif.Intent.Solve
import Verif.Thread.Builder
import Verif.Thread.Fit
import Verif.Surrogate.Model
import Verif.Surrogate.Props
