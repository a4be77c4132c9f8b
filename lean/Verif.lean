import Verif.Analytical.Flow
import Verif.Analytical.FlowProps
import Verif.Analytical.Roots
import Verif.Analytical.RootsProps
import Verif.Analytical.Temperature
import Verif.Analytical.TemperatureProps
import Verif.Base.Arr
import Verif.Base.Norm
import Verif.Base.SMap
import Verif.Base.Vec3
import Verif.Bem.Props
import Verif.Bem.SelfProps
import Verif.Bem.Spec
import Verif.Bem.Triangle
import Verif.Csg.Bsp
import Verif.Csg.BspLemmas
import Verif.Csg.BspProps
import Verif.Csg.ConvexSolid
import Verif.Csg.CubeProps
import Verif.Csg.CylinderProps
import Verif.Csg.Round
import Verif.Csg.RoundLemmas
import Verif.Csg.RoundSpec
import Verif.Csg.SphereProps
import Verif.Csg.SplitProps
import Verif.Csg.StlExchange
import Verif.Csg.StlExchangeProps
import Verif.Fem.Elements
import Verif.Fem.ElementsProps
import Verif.Fem.Isoparametric
import Verif.Fem.IsoparametricProps
import Verif.Fvm.ClippedVolume
import Verif.Fvm.ClippedVolumeLemmas
import Verif.Fvm.ClippedVolumeProps
import Verif.Fvm.FvmMesh
import Verif.Fvm.FvmMeshProps
import Verif.Fvm.FvmVolumeProps
import Verif.Fvm.MeshSearch
import Verif.Fvm.MeshSearchProps
import Verif.Geometry.Adtree
import Verif.Geometry.AdtreeProps
import Verif.Geometry.BBox
import Verif.Geometry.BBoxProps
import Verif.Geometry.Centroids
import Verif.Geometry.CentroidsMeasure
import Verif.Geometry.CentroidsProps
import Verif.Geometry.Clip
import Verif.Geometry.ClipFractionProps
import Verif.Geometry.ClipPolygonProps
import Verif.Geometry.ClipVolumeProps
import Verif.Geometry.ConvexHull
import Verif.Geometry.ConvexHullProps
import Verif.Geometry.HashGrid
import Verif.Geometry.HashGridCsr
import Verif.Geometry.HashGridLemmas
import Verif.Geometry.HashGridProps
import Verif.Geometry.HashGridReuse
import Verif.Geometry.Line
import Verif.Geometry.LineLine
import Verif.Geometry.LineLineProps
import Verif.Geometry.LineProps
import Verif.Geometry.LineSortProps
import Verif.Geometry.Octree
import Verif.Geometry.OctreeProps
import Verif.Geometry.Polygon
import Verif.Geometry.PolygonLemmas
import Verif.Geometry.PolygonProps
import Verif.Geometry.Polyhedron
import Verif.Geometry.PolyhedronProps
import Verif.Geometry.Rtree
import Verif.Geometry.RtreeProps
import Verif.Geometry.Solids
import Verif.Geometry.SolidsProps
import Verif.Geometry.TriTri
import Verif.Geometry.TriTriExamples
import Verif.Geometry.TriTriFaults
import Verif.Geometry.TriTriLemmas
import Verif.Geometry.TriTriProps
import Verif.Geometry.TriangleProps
import Verif.Geometry.VertexList
import Verif.Geometry.VertexListProps
import Verif.Integration.Gauss
import Verif.Integration.GaussProps
import Verif.Mesh.AddMeshProps
import Verif.Mesh.BasicMesher
import Verif.Mesh.BasicMesherLemmas
import Verif.Mesh.BasicMesherProps
import Verif.Mesh.BoxScaleProps
import Verif.Mesh.CleanupProps
import Verif.Mesh.Collapse
import Verif.Mesh.CollapseProps
import Verif.Mesh.Container
import Verif.Mesh.ContainerLemmas
import Verif.Mesh.ContainerProps
import Verif.Mesh.ContainerSpec
import Verif.Mesh.Crossings
import Verif.Mesh.CrossingsFaults
import Verif.Mesh.CrossingsLemmas
import Verif.Mesh.CrossingsProps
import Verif.Mesh.Element
import Verif.Mesh.ElementProps
import Verif.Mesh.Extrude
import Verif.Mesh.ExtrudeProps
import Verif.Mesh.FacesLemmas
import Verif.Mesh.FacesProps
import Verif.Mesh.GeneralPosition
import Verif.Mesh.GridBoundary
import Verif.Mesh.GridBoundaryProps
import Verif.Mesh.HexMesherProps
import Verif.Mesh.Join
import Verif.Mesh.JoinProps
import Verif.Mesh.MergeElementsProps
import Verif.Mesh.MergeLemmas
import Verif.Mesh.MergeNodesProps
import Verif.Mesh.Mesh
import Verif.Mesh.MeshCheck
import Verif.Mesh.MeshLemmas
import Verif.Mesh.MeshSpec
import Verif.Mesh.Naked
import Verif.Mesh.NakedProps
import Verif.Mesh.QuadMesher
import Verif.Mesh.QuadMesherEnd
import Verif.Mesh.QuadMesherLemmas
import Verif.Mesh.QuadMesherProps
import Verif.Mesh.QuadMesherSpec
import Verif.Mesh.QuadSmooth
import Verif.Mesh.QuadSmoothGeometry
import Verif.Mesh.QuadSmoothLemmas
import Verif.Mesh.QuadSmoothProps
import Verif.Mesh.QuadSmoothSpec
import Verif.Mesh.Quality
import Verif.Mesh.QualityProps
import Verif.Mesh.Query
import Verif.Mesh.QueryProps
import Verif.Mesh.Remesh
import Verif.Mesh.RemeshBeams
import Verif.Mesh.RemeshLemmas
import Verif.Mesh.RemeshProps
import Verif.Mesh.RemeshSpec
import Verif.Mesh.Smooth
import Verif.Mesh.SmoothLemmas
import Verif.Mesh.SmoothProps
import Verif.Mesh.SmoothSpec
import Verif.Mesh.Space
import Verif.Mesh.SpaceSpec
import Verif.Mesh.TetFlip
import Verif.Mesh.TetFlipLemmas
import Verif.Mesh.TetFlipProps
import Verif.Mesh.TetFlipSpec
import Verif.Mesh.TetMesher
import Verif.Mesh.TetMesherFront
import Verif.Mesh.TetMesherGenerate
import Verif.Mesh.TetMesherLemmas
import Verif.Mesh.TetMesherMore
import Verif.Mesh.TetMesherProps
import Verif.Mesh.TetMesherRepair
import Verif.Mesh.TetMesherSpec
import Verif.Mesh.TetMesherStart
import Verif.Mesh.TetSmooth
import Verif.Mesh.TetSmoothLemmas
import Verif.Mesh.TetSmoothProps
import Verif.Mesh.TetSpace
import Verif.Mesh.TriangleMesher
import Verif.Mesh.TriangleMesherLemmas
import Verif.Mesh.TriangleMesherProps
import Verif.Mesh.TriangleMesherSpec
import Verif.Mesh.Watertight
import Verif.Mesh.WatertightProps
import Verif.Mesh.Winding
import Verif.Pde.Assembly
import Verif.Pde.BlackScholes
import Verif.Pde.BlackScholesLemmas
import Verif.Pde.BlackScholesProps
import Verif.Pde.Burgers
import Verif.Pde.BurgersLemmas
import Verif.Pde.BurgersProps
import Verif.Pde.Dispatch
import Verif.Pde.DispatchProps
import Verif.Pde.Equation
import Verif.Pde.EquationLemmas
import Verif.Pde.EquationProps
import Verif.Pde.Fdm
import Verif.Pde.FdmConvection
import Verif.Pde.FdmConvectionProps
import Verif.Pde.FdmHeat
import Verif.Pde.FdmHeatError
import Verif.Pde.FdmHeatExamples
import Verif.Pde.FdmHeatLemmas
import Verif.Pde.FdmHeatLimit
import Verif.Pde.FdmHeatProps
import Verif.Pde.FdmProps
import Verif.Pde.FemAssembly
import Verif.Pde.FemAssemblyLemmas
import Verif.Pde.FemAssemblyProps
import Verif.Pde.FemBlock
import Verif.Pde.FemBlockBounds
import Verif.Pde.FemBlockReversed
import Verif.Pde.FemBlockReversedTime
import Verif.Pde.FemConvection
import Verif.Pde.FemConvectionKernel
import Verif.Pde.FemConvectionLemmas
import Verif.Pde.FemConvectionProps
import Verif.Pde.FemDofs
import Verif.Pde.FemFlow
import Verif.Pde.FemFlowProps
import Verif.Pde.FemFlowSolidProps
import Verif.Pde.FemHeat
import Verif.Pde.FemHeatEnergy
import Verif.Pde.FemHeatExamples
import Verif.Pde.FemHeatLemmas
import Verif.Pde.FemHeatPatch
import Verif.Pde.FemHeatPatchFlat
import Verif.Pde.FemHeatProps
import Verif.Pde.FemHeatTime
import Verif.Pde.FemHeatTimeExamples
import Verif.Pde.FemHeatTimeLimit
import Verif.Pde.FemHeatTimeProps
import Verif.Pde.FemPlate
import Verif.Pde.FemPlateBounds
import Verif.Pde.FemPlateCooling
import Verif.Pde.FemPlateGrid
import Verif.Pde.FemPlateProps
import Verif.Pde.FemPlateSettles
import Verif.Pde.FemPlateSlanted
import Verif.Pde.FemPoisson
import Verif.Pde.FemPoissonLemmas
import Verif.Pde.FemPoissonProps
import Verif.Pde.FemStress
import Verif.Pde.FemStressGrid
import Verif.Pde.FemStressLemmas
import Verif.Pde.FemStressPatch
import Verif.Pde.FemStressProps
import Verif.Pde.FemStructural
import Verif.Pde.FemStructuralProps
import Verif.Pde.FemThermal
import Verif.Pde.FemThermalEdge
import Verif.Pde.FemThermalLemmas
import Verif.Pde.FemThermalProps
import Verif.Pde.Field
import Verif.Pde.FieldProps
import Verif.Pde.FvmAssembly
import Verif.Pde.FvmAssemblyProps
import Verif.Pde.FvmConvection
import Verif.Pde.FvmConvectionLemmas
import Verif.Pde.FvmConvectionProps
import Verif.Pde.FvmDivergenceProps
import Verif.Pde.FvmFlow
import Verif.Pde.FvmFlowProps
import Verif.Pde.FvmHeat
import Verif.Pde.FvmHeatExamples
import Verif.Pde.FvmHeatLemmas
import Verif.Pde.FvmHeatLimit
import Verif.Pde.FvmHeatProps
import Verif.Pde.Penalty
import Verif.Pde.PenaltyProps
import Verif.Post.Gmsh
import Verif.Post.GmshProps
import Verif.Post.Vtk
import Verif.Post.VtkProps
import Verif.Post.VtkSpec
import Verif.Sle.System
import Verif.Sle.SystemProps
import Verif.Solvers.Cbs
import Verif.Solvers.CbsProps
import Verif.Solvers.CellRows
import Verif.Solvers.Lbm
import Verif.Solvers.LbmCavity
import Verif.Solvers.LbmCavityProps
import Verif.Solvers.LbmProps
import Verif.Solvers.Piso
import Verif.Solvers.PisoExamples
import Verif.Solvers.PisoLemmas
import Verif.Solvers.PisoMomentum
import Verif.Solvers.PisoProps
import Verif.Solvers.PisoReach
import Verif.Solvers.PisoRest
import Verif.Solvers.Temperature
import Verif.Solvers.TemperatureExamples
import Verif.Solvers.TemperatureProps
import Verif.Solvers.Vof
import Verif.Solvers.VofExamples
import Verif.Solvers.VofProps
import Verif.Sph.DerivProps
import Verif.Sph.Heat
import Verif.Sph.HeatProps
import Verif.Sph.Kernel
import Verif.Sph.KernelProps
import Verif.Sph.Particles
import Verif.Sph.ParticlesProps
import Verif.Stl.Connect
import Verif.Stl.ConnectProps
import Verif.Stl.Fan
import Verif.Stl.File
import Verif.Stl.FileProps
import Verif.Stl.Flip
import Verif.Stl.FlipProps
import Verif.Stl.FlipReal
import Verif.Stl.FlipResults
import Verif.Stl.Io
import Verif.Stl.IoProps
import Verif.Stl.MeshProps
import Verif.Stl.Orient
import Verif.Stl.OrientLemmas
import Verif.Stl.OrientProps
import Verif.Stl.Relax
import Verif.Stl.RelaxLemmas
import Verif.Stl.RelaxProps
import Verif.Stl.RelaxResults
import Verif.Stl.Split
import Verif.Stl.SplitLemmas
import Verif.Stl.SplitProps
import Verif.Stl.SplitReal
import Verif.Stl.SplitResults
import Verif.Stl.Surgery
