import Verif.Handles.Props
import Verif.Markers.Props
import Verif.Containers.ArrayProps
import Verif.Containers.ChunkProps
import Verif.Storage.Props
import Verif.Topology.Props
import Verif.Sets.Props
import Verif.Sets.TreeProps
import Verif.Sort.Props
import Verif.Sets.SortedProps
import Verif.Iterators.Props
import Verif.Sparse.RowProps
import Verif.Sparse.MergerProps
import Verif.Autodiff.Props
import Verif.Autodiff.HessProps
import Verif.Table.Props
import Verif.Record.Props
import Verif.Unknowns.Props
import Verif.Dense.SolveProps
import Verif.Dense.CholProps
import Verif.Dense.TransformProps
import Verif.Text.Props
import Verif.Binary.Props
import Verif.OrderInfo.Props
import Verif.OrderInfo.Bounds
import Verif.Krylov.Props
import Verif.ILU2.Solver
import Verif.EdgeLoop.Props
import Verif.Split.Props
import Verif.Split.UniteProps
import Verif.Parallel.EnumProps
import Verif.Parallel.RequestsProps
import Verif.Search.Props
import Verif.Search.InsideProps
import Verif.Search.SegProps
import Verif.Search.SphereProps
import Verif.Geometry.Props
import Verif.Pmf.Props
import Verif.Pmf.PartsProps
import Verif.Topology.BridgeProps
import Verif.Parallel.BoundaryProps
import Verif.Resolve.Props
import Verif.Parallel.EquilProps
import Verif.Resolve.Equil
import Verif.Xml.Props
import Verif.Xml.ExprProps
import Verif.Xml.DataProps
import Verif.Incident.Cover
import Verif.Split.FaceTotal
import Verif.Split.CellFails
import Verif.Split.CellsFails
import Verif.Split.FacesFails
import Verif.Refs.Demo
import Verif.Names.Props
import Verif.Names.ResolveProps
import Verif.Adjacency.Props
import Verif.Parallel.RemoveProps
import Verif.Transfer.Props
import Verif.Layers.Props
import Verif.Migrate.Isolated
import Verif.Copy.Props
import Verif.Copy.TagProps
import Verif.CellNodes.Props
import Verif.Views.Props
import Verif.Dense.DetProps
import Verif.Residual.Props
import Verif.Residual.HessVecProps
import Verif.Sets.UniteProps
import Verif.Sets.DeleteProps
import Verif.Heap.Props
import Verif.Matching.Props
import Verif.Matching.Example
import Verif.Models.Props
import Verif.Partition.Rcm
import Verif.Partition.SkmProps
import Verif.Partition.Km
import Verif.Locks.Interval
import Verif.Locks.Assembly
import Verif.Locks.Service
import Verif.SolverFront.Registry
import Verif.SolverFront.Database
import Verif.SolverFront.Inner
import Verif.Optim.Params
import Verif.Optim.Buffer
import Verif.Optim.Interface
import Verif.Optim.Alternating
import Verif.Optim.Annealing
import Verif.Optim.Ttsp
import Verif.Sets.FindModel
import Verif.Sets.FindProps
import Verif.Dynamic.Model
import Verif.Dynamic.Props
import Verif.Dynamic.Stored
import Verif.Handles.Links
import Verif.Parallel.Reduce
import Verif.Dynamic.Block
import Verif.Parallel.Neighbours
import Verif.Copy.Element
import Verif.Optim.Registry
import Verif.Optim.Config
import Verif.Topology.Collapse
import Verif.Topology.Checks
import Verif.SolverFront.Condest
import Verif.Adjacency.Typed
import Verif.Storage.TagVector
import Verif.Names.Rename
import Verif.Adjacency.Check
import Verif.Geometry.Mean
import Verif.Sets.SendModel
import Verif.Sets.SendProps
import Verif.Geometry.Wachspress
import Verif.Search.Orient
import Verif.Storage.Dimensions
import Verif.Search.Ray
import Verif.Search.FaceInside
import Verif.Search.Same
import Verif.Sets.EraseRange
import Verif.Geometry.Prepare
import Verif.Parallel.PackData
import Verif.Audit
