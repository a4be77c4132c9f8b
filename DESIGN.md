# Formal model of ENigMA: design

## Trusted base

* Lean 4.33.0's kernel, and the axioms `propext`, `Classical.choice`, `Quot.sound` (nothing else is used;
  no `sorry`, no `native_decide`, no `bv_decide`, no added axiom). `AXIOMS.md` lists the axioms of each theorem.
* The correspondence between the C++ text in `/repo` and the Lean definitions, which is by reading. Every
  model definition cites the file and lines it models, and says where it simplifies.

### Global modelling decisions

* `Real` (a C++ template parameter, instantiated with `double`) is modelled by an arbitrary ordered field `K`
  (`[Field K] [LinearOrder K] [IsStrictOrderedRing K]`, plus `[FloorRing K]` where the code truncates to
  `int`). Theorems therefore cover `ℚ` and `ℝ`, and every `example` is computed over `ℚ`.
  **Rounding, overflow, NaN and infinities are not modelled.** Code that only compares coordinates (bounding
  boxes, ADT, R-tree) is stated over an arbitrary linear order and so is also valid for NaN-free doubles.
* Comparisons of Euclidean norms `|v| <= tol` are modelled as `0 <= tol ∧ v·v <= tol*tol`, which is equivalent
  over the reals and avoids the square root.
* Where the code uses the length itself, the model takes a function `nrm` and the theorems assume `IsNorm nrm` (`nrm v` is non-negative and its square is `v·v`); `realNorm`
  over the reals meets it. Examples over `ℚ` that only have to run use the sum of absolute values instead.
* `Integer` is `int` in C++; modelled by unbounded `Int`/`Nat`. Signed overflow is not modelled.
* `std::map<Integer,T>` is `SMap T`, a strictly sorted association list, so iteration order is key order as in
  C++ and equality of maps is extensional.
* Undefined behaviour (out-of-range `[]`, `erase(end())`) is a distinct outcome: the model function returns
  `none` / `Except` error, never a made-up value. `.at()` failure (an exception) is likewise visible.
* Eigen dense/sparse matrices are functions/`Matrix` on `Fin n`; storage and solver internals are not modelled.
  A solver is only assumed, where needed, to return a solution of the system it is given.
* I/O, GUI post-processing and the SWIG wrappers are not modelled unless listed below.

## Layout

All modules are under `lean/Verif`. A file without suffix is the model of a part of the code; `...Spec` and the first definitions of `...Props` are the specification;
`...Lemmas` are helpers; `...Props` and the files of `Solvers` named after a topic hold the property theorems (`Cnn_...`), with examples that their hypotheses are met.

| directory | code modelled (trunk/src) |
|-----------|---------------------------|
| Base | sorted maps, unchecked vectors, `CGeoVector`, norms |
| Mesh | mesh/: MshMesh, MshElement, MshFace, MshMeshQuery, MshBasicMesher, MshExtrudedMesher, MshCheckMesh (open), MshTriangleMesher (generate, remesh, applyFixedBoundary, flipEdges, relaxNodes, collapseEdges), MshTetrahedronMesher (generate, flipEdges23, flipEdges32, relaxNodes), quality of MshTriangle, MshQuadrilateral, MshTetrahedron, MshTriangularPrism |
| Geometry | geometry/: bounding box, hash grid, ADT, R-tree (with dependencies/rtree/RTree.h), octree, line, plane, line list, vertex list, polyline, polygon, triangle, quadrilateral, tetrahedron, prism, hexahedron, polyhedron, sphere, circle, convex hull, clipping |
| Stl | stl/: StlFile; StlUtils (set, load, saveAscii, saveBinary, add, calculateStatistics, removal of facets, generateConnectivity, mesh, setOrientation, invertFacet, splitFacets, relaxVertices, collapseEdges, checkEdges, flipEdges) |
| Csg | csg/: BSP tree, polygons, boolean operations, cube |
| Sle, Pde | sle/SleSystem; pde/: PdeEquation, PdeField, PdeBoundaryCondition, generic FDM, FVM and FEM operators, thermal, structural and flow FEM operators, flow FVM operators |
| Fem | fem/: thermal, structural and flow element matrices, isoparametric elements |
| Fvm | fvm/: FvmFace, FvmControlVolume (geometry), FvmMesh |
| Integration | integration/: Gauss tables |
| Solvers | solvers/: FvmPisoSolver, FvmVofSolver, FvmTemperatureSolver, FemCbsSolver (2D), LbmLidDrivenSolver |
| Sph | sph/: kernels; solvers/SphParticles |
| Post | post/: PosGmsh |
| Analytical | analytical/: AnaFunction root finders, AnaTemperature, AnaFlow |

A name clash is resolved by a namespace per class; property theorems are in `ENigMA` itself.


## Properties

One row per property: the model it is stated about, how it is proved, and the files with its theorems. `MANIFEST.json` lists the theorems.

| id | status | model | proof | files |
|----|--------|-------|-------|-------|
| C01 | proved | `Container` = map + ids + index map + counter, step functions add/remove, mesh = three of them | refinement of an abstract history function by induction on the history; counterexample for re-adding | Mesh/ContainerProps.lean |
| C02 | proved | same | invariant `indices = position`, by induction; counterexample after removal | Mesh/ContainerProps.lean |
| C03 | proved | same | maximum key of a sorted list | Mesh/ContainerProps.lean |
| C04 | proved | `addMesh` as nested folds over ids | loop invariants | Mesh/AddMeshProps.lean |
| C05 | proved | `generateFaces` on elements, per type template | case analysis over types, symbolic node ids | Mesh/ElementProps.lean |
| C06 | proved | `invert` | case analysis, ring identities | Mesh/ElementProps.lean |
| C07 | proved | mesh `generateFaces` with hash-grid candidates | loop invariants; uses C13 | Mesh/FacesProps.lean |
| C08 | partial | `mergeNodes` | loop invariants; counterexample for unordered ids | Mesh/MergeNodesProps.lean |
| C09 | proved | `removeInvalidElements` | induction | Mesh/CleanupProps.lean |
| C10 | partial | `mergeElements` | negation with a concrete witness; partial for what does hold | Mesh/MergeElementsProps.lean |
| C11 | proved | `removeDanglingNodes` | induction | Mesh/CleanupProps.lean |
| C12 | partial | `renumber` | induction; counterexample for `pairFaceId` | Mesh/CleanupProps.lean |
| C13 | proved | hash grid build (counting sort CSR) and find | invariant of the counting sort; monotonicity of truncation | Geometry/HashGridProps.lean, Geometry/HashGridReuse.lean |
| C14 | proved | ADT as explicit tree | invariant on cell ranges, induction on the tree; stack bound hypothesis | Geometry/AdtreeProps.lean |
| C15 | proved | R-tree | covering invariant by induction on inserts, split nondeterministic | Geometry/RtreeProps.lean |
| C16 | partial | octree | soundness; counterexample to completeness | Geometry/OctreeProps.lean |
| C17 | proved | bounding box | order lemmas | Geometry/BBoxProps.lean |
| C18 | proved | SLE operators | linear algebra | Sle/SystemProps.lean |
| C19 | proved | elimination | linear algebra with index bookkeeping | Pde/EquationProps.lean |
| C20 | proved | penalty | linear algebra | Pde/EquationProps.lean |
| C21 | proved | FDM operators on a line of nodes | sums over `Fin n`, second differences of polynomials | Pde/FdmProps.lean |
| C22 | proved | FVM laplacian assembled by loops over cells and faces | reordering sums | Pde/FvmAssemblyProps.lean |
| C23 | partial | FVM face | case analysis | Fvm/FvmMeshProps.lean |
| C24 | proved | FVM mesh set | loop invariant | Fvm/FvmMeshProps.lean |
| C25 | proved | FEM element matrices | polynomial identities | Fem/ElementsProps.lean, Fem/IsoparametricProps.lean |
| C26 | proved | FEM mass matrices | polynomial identities | Fem/ElementsProps.lean, Fem/IsoparametricProps.lean |
| C27 | partial | structural stiffness | polynomial identities; counterexample for the tetrahedron | Fem/ElementsProps.lean |
| C28 | partial | assembly | sums | Pde/FemAssemblyProps.lean |
| C29 | proved | meshers as nested loops | loop invariants, arithmetic | Mesh/BasicMesherProps.lean |
| C30 | proved | meshers as nested loops | loop invariants, arithmetic | Mesh/BasicMesherProps.lean |
| C31 | proved | meshers as nested loops | loop invariants, arithmetic | Mesh/HexMesherProps.lean |
| C32 | proved | meshers as nested loops | loop invariants, arithmetic | Mesh/HexMesherProps.lean |
| C33 | partial | meshers as nested loops | loop invariants, arithmetic | Mesh/ExtrudeProps.lean |
| C34 | partial | mesh query | loop invariant; counterexample for unsorted ids | Mesh/QueryProps.lean |
| C35 | proved | checkOpen | list lemma | Mesh/FacesProps.lean |
| C36 | proved | line clip | field arithmetic | Geometry/LineProps.lean |
| C37 | proved | polygon area | cyclic sums | Geometry/PolygonProps.lean |
| C38 | proved | `Tet.contains` with the 4x4 determinants | Cramer: barycentric coordinates | Geometry/SolidsProps.lean |
| C39 | proved | decompositions | polynomial identities | Geometry/SolidsProps.lean |
| C40 | proved | triangulation | induction on the chain | Geometry/PolygonProps.lean |
| C41 | proved | `GLine` closest point | minimum of a quadratic on an interval | Geometry/LineProps.lean |
| C42 | partial | triangle closest point | projection; counterexample | Geometry/TriangleProps.lean |
| C43 | partial | circumsphere/circle | field identities | Geometry/SolidsProps.lean |
| C44 | partial | convex hull | monotone chain invariant | Geometry/ConvexHullProps.lean |
| C45 | proved | `Bsp.splitPolygon` | labelled vertex cycles, vector areas | Csg/SplitProps.lean |
| C46 | proved | BSP tree as an inductive type, build with fuel | induction over the tree and the polygon list | Csg/BspProps.lean, Csg/ConvexSolid.lean |
| C47 | proved | vertex list | list induction | Geometry/VertexListProps.lean |
| C48 | proved | LBM | polynomial identities | Solvers/LbmProps.lean |
| C49 | partial | SPH kernels | piecewise analysis, interval integral | Sph/KernelProps.lean |
| C50 | partial | Gauss rules | evaluation of the weight tables (finite domain is the whole domain) | Integration/GaussProps.lean |
| C51 | proved | Brent clip | loop induction over an abstract volume function | Geometry/ClipFractionProps.lean |
| C52 | proved | field maps | map laws, division with remainder | Pde/FieldProps.lean |
| C53 | proved | `extractBoundary` | loop invariant over the faces | Mesh/FacesProps.lean |
| C54 | proved | source operators of FDM, FVM, FEM | fold over rows | Pde/EquationProps.lean |
| C55 | proved | FDM `ddt` and `divergence` | sums over `Fin n` | Pde/FdmProps.lean |
| C56 | proved | segment against plane | field arithmetic | Geometry/LineProps.lean |
| C57 | proved | two lines | minimum of a quadratic form | Geometry/LineProps.lean |
| C58 | partial | `Tri.contains` | barycentric coordinates | Geometry/TriangleProps.lean |
| C59 | proved | CSG cube | case analysis over the six planes | Csg/CubeProps.lean |
| C60 | proved | polyhedron volume as a sum over faces | vector areas of closed surfaces | Geometry/PolyhedronProps.lean |
| C61 | partial | FEM flow element matrices | polynomial identities | Fem/ElementsProps.lean |
| C62 | partial | isoparametric prism and hexahedron | Gauss sums, polynomial identities | Fem/IsoparametricProps.lean |
| C63 | proved | FEM source | fold over elements | Pde/FemAssemblyProps.lean |
| C64 | partial | SPH kernel derivatives | `HasDerivAt` piece by piece | Sph/DerivProps.lean |
| C65 | partial | SPH particle step | induction over the particles | Sph/ParticlesProps.lean |
| C66 | partial | FVM ddt and divergence | folds over cells and faces | Pde/FvmDivergenceProps.lean |
| C67 | partial | `cut` | unfolding, for every polyhedron; witness | Geometry/ClipFractionProps.lean |
| C68 | proved | polygon clip as a walk over the edges | induction on the vertex cycle | Geometry/ClipPolygonProps.lean |
| C69 | proved | `CGeoLineList::sort` | loop invariant | Geometry/LineSortProps.lean |
| C70 | partial | polyhedron clip: faces, loop of section lines, new face | divergence theorem on closed surfaces; C68, C69 | Geometry/ClipVolumeProps.lean |
| C71 | proved | bisection with its loop bound | loop invariant; nested intervals | Analytical/RootsProps.lean |
| C72 | partial | Brent's method | loop invariant: the bracket | Analytical/RootsProps.lean |
| C73 | partial | PISO solver, one definition per function of the class | rows of the assembled pressure system; the loops establish the hypotheses | Solvers/PisoExamples.lean, Solvers/PisoProps.lean, Solvers/PisoReach.lean |
| C74 | partial | same | Gauss gradient on closed cells | Solvers/PisoRest.lean |
| C75 | partial | same | invariant over every sequence of steps | Solvers/PisoRest.lean |
| C76 | proved | FVM mesh | vector areas cancel over paired faces | Fvm/FvmVolumeProps.lean |
| C77 | partial | velocity system of PISO | rows against a separate specification of the balance | Solvers/PisoMomentum.lean |
| C78 | proved | VOF solver | invariant over every history and every linear solver | Solvers/VofProps.lean |
| C79 | partial | same | rows against a separate specification | Solvers/VofExamples.lean, Solvers/VofProps.lean |
| C80 | partial | temperature solver | rows against a separate specification | Solvers/TemperatureExamples.lean, Solvers/TemperatureProps.lean |
| C81 | partial | same | discrete maximum principle | Solvers/TemperatureExamples.lean, Solvers/TemperatureProps.lean |
| C82 | partial | `calculateQuality` over the reals, `quality`, `meshQuality` | law of sines; medians against heights (Cauchy-Schwarz); fold | Mesh/QualityProps.lean |
| C83 | partial | Gmsh files as lines of tokens; `save`, `load` over a stream | induction over the lines | Post/GmshProps.lean |
| C84 | proved | Geometry/LineLine.lean: `intersects` and `contains` of CGeoLine function by function, the angle compared through its cosine (shown equal over the reals) | LineLineProps.lean: parameters of the common point are unique because the directions are independent; the triple product gives the common plane; case analysis over the exits | Geometry/LineLineProps.lean |
| C85 | partial | Mesh/TriangleMesher.lean: `generate` and everything it calls (front of edges with neighbours, R-tree of edge boxes, closest nodes, tests for crossing edges, the three passes), function by function; the loop over the growing front takes fuel, and running out of it is an outcome of its own | TriangleMesherProps.lean, TriangleMesherSpec.lean: invariant of the passes: for every symmetric function of a side with values mod 2, the sum over the sides of the triangles plus the sum over the front is the sum over the beams; instantiated with “joins p and q” and with “crosses the ray from p”; a triangle is crossed an odd number of times exactly from inside | Mesh/TriangleMesherProps.lean |
| C86 | proved | as C85 | the same invariant carries that each triangle was accepted with normal z > tol ≥ 0; removal of dangling nodes, renumbering and generateFaces keep it (C07, C11, C12) | Mesh/TriangleMesherProps.lean |
| C87 | proved | as C85 | C87_boundary_kept from the parity of sides; C87_nodes from the invariant on added nodes | Mesh/TriangleMesherProps.lean |
| C88 | proved | as C85 | each round of a pass consumes an edge of the front, each triangle adds at most two; addTriangle throws at the limit | Mesh/TriangleMesherProps.lean |
| C89 | partial | as C85 | C89_closed: a failing lookup of the pair of a face makes generate throw; counterexamples computed by the kernel | Mesh/TriangleMesherProps.lean |
| C90 | proved | flipEdges with its maps, faces and elements | every round is no change or a flip of two triangles that share a side (invariant); antisymmetric functions of sides have the same sum, so winding numbers, areas and boundary sides are kept; general position shows that no overlap arises | Mesh/SmoothProps.lean |
| C91 | proved | relaxNodes with the boundary flags, the mesh query (C34) and the test of the triangles at a node | a node that moves is interior, so the sides at it occur in both directions and the changes of any antisymmetric function cancel; then as C90 | Mesh/SmoothProps.lean |
| C92 | proved | Remesh.remesh (loop over the elements and their faces with the sRemeshed flags, then generateFaces); the faces changed on the way are not modelled because generateFaces replaces them | an invariant of the loop: orientation, the sum over the sides of every antisymmetric function, the flags and what they say of the triangles; the non-overlap follows from the winding number as for flipEdges | Mesh/RemeshProps.lean |
| C93 | proved | Remesh.cutBeam and cutLoop inside the same loop over the elements, the elements it adds included | invariant over the first rounds (given beams), then every piece is settled: round(L / (n size)) = 1, so the later rounds change nothing | Mesh/RemeshBeams.lean |
| C94 | partial | `Verif/Mesh/Collapse.lean`: the boundary marks, the loop over the sides, the loop that deletes (with its skipped element), the merge, the renumbering and the new faces | invariants of each loop, then C08, C12 and C07 in sequence; two concrete triangulations whose region is not kept | Mesh/CollapseProps.lean |
| C95 | proved | `Verif/Mesh/Collapse.lean`: the hash grid of face centres, the loop over the elements of the edge mesh, the loop over the faces found | exactness of the hash grid (C13) and induction over both loops | Mesh/CollapseProps.lean |
| C96 | proved | Verif/Stl/File.lean: the facets as a container with ids; set, add and calculateStatistics as loops over the ids; the addition of a surface to itself as a loop with a bound on the rounds. | Induction over the ids; nextFacetId grows by one at each addition; the box by induction with IsLeast and IsGreatest for each coordinate. A surface that is not empty and is added to itself never ends, for every number of rounds. | Stl/FileProps.lean |
| C97 | partial | Verif/Stl/File.lean: both functions as loops with an index that stays after a removal, on the hash grid of the centroids (C13). | Invariant: the facets before the index are valid. For duplicates: a search finds only the facet itself when centroids are apart; with one pair of duplicates the loop always meets the facet removed and throws. | Stl/FileProps.lean |
| C98 | partial | Verif/Stl/Io.lean: a file as a list of bytes; the two functions byte by byte; how a number becomes four bytes is a parameter. | Induction over the facets with the offsets of the fields of a facet; the search for the word vertex in bytes 84 to 340 decides between text and binary. | Stl/IoProps.lean |
| C99 | partial | Verif/Stl/Io.lean: the text letter by letter, the count of lines, the words as >> reads them; how a number becomes a word of 14 to 16 letters is a parameter. | Induction over the facets for the letters, the lines and the words; the second word vertex of the first facet always lies in the bytes that are searched. | Stl/IoProps.lean |
| C100 | proved | generateConnectivity as two passes over the facets' edges and a hash grid of edge middles | invariant of the passes; exactness of the hash grid (C13) | Stl/ConnectProps.lean, Stl/MeshProps.lean |
| C101 | proved | mesh() as a loop over corners and a walk around the vertex of at most 100 steps | refinement of the walk to an abstract trail in a partial involution; loop invariant | Stl/MeshProps.lean |
| C102 | partial | The six functions as finite sums of real sines, cosines, hyperbolic sines and exponentials, term by term as the loops add them. | Each term is an eigenfunction of the second derivative in each variable; sum the derivatives term by term and cancel. The beam's ends by algebra on exp. The centre values by bounds on pi and rational sums. | Analytical/TemperatureProps.lean |
| C103 | proved | phi and the forward quotient over the real numbers. | The quotient tends to the derivative of phi; write the limit with the logistic function of the gap between the two exponents and differentiate. | Analytical/FlowProps.lean |
| C104 | proved | flipEdges23 with its loop over the faces and sFlipped; the region as the set of points in a tetrahedron, over every ordered field | A flip replaces two tetrahedra by three with the same sum of every function of triangles that changes its sign with the orientation. A ray argument, and a limit to points on planes, shows that two lists of tetrahedra with the same such sums fill the same points and overlap alike. | Mesh/TetSmoothProps.lean |
| C105 | proved | relaxNodes with the marks of the boundary, the point towards which a node is moved, the two places tried and the test | The faces at a node inside cancel in pairs, so that moving it does not change the sums of C104 over all tetrahedra; the test keeps the volumes positive. | Mesh/TetSmoothProps.lean |
| C106 | partial | relaxNodes as in C105 | Linear maps commute with each step of the loops. For translations a mesh and the same mesh moved, evaluated by the kernel. | Mesh/TetSmoothProps.lean |
| C107 | partial | TetFlip.flipEdges32 with the marks, the stale lists of elements at nodes, the loops over elements, faces and edges, the removal and generateFaces | the tetrahedra around an edge in three elements form a ring (pairing of faces); the volume test accepts one edge of the four corners only; invariant of the loops; sums over oriented faces do not change; two evaluated counterexamples | Mesh/TetFlipProps.lean |
| C108 | proved | Stl/Orient.lean models invertFacet (vertices, edges, and the whichVertexNot of the neighbours) and the loop over the growing list of facets; Stl/Surgery.lean says what single changes do, Stl/OrientLemmas.lean what one inversion does to corners and to the gluing of edges. | Invariant of the loop: an exact renaming of edges that carries the gluing of the original surface to the present one, the set of inverted facets, which agrees with any consistent choice of sides up to the side of the pivot, and closure of the processed part of the list under neighbours; the list has no repetitions, which bounds the loop. | Stl/OrientProps.lean |
| C109 | partial | Stl/Orient.lean models the loop with the assignment through the reference (countHits) and what follows (setOrientationOut). | Induction over the facets; the inversions that follow only permute the corners of a facet. | Stl/OrientProps.lean |
| C110 | proved | The loop with its surgery on facets, corners and edge records; lengths, qualities and normals of facets as functions of their corners. | Each round is followed record by record: the neighbours afterwards are an explicit function of those before. The sums are compared facet by facet. For termination, the number of facets plus a potential of the areas does not grow. Counterexamples for other ids and long edges that remain. | Stl/SplitResults.lean |
| C111 | proved | The walk around a vertex with its bound of 100 facets, and the move of the corners found; the test of the angles of normals as an arbitrary function. | The walk lists the corners of a fan, without repetition, and comes back only when all are listed; a move of a closed fan keeps the fit of neighbouring edges. Sums over the edges cancel in pairs. Counterexample for facets stored in another order. | Stl/RelaxResults.lean |
| C112 | proved | As C111, with the choice of the shortest edge and the marks of the facets collapsed. | As C111; the new place of a vertex is an old vertex. | Stl/RelaxResults.lean |
| C113 | partial | The two loops with their marks; kept normals and areas as given values, because they are computed once and copied. | The state is followed as a list of disjoint flipped pairs; sums over facets are compared pair by pair. A rational kite evaluates with the measures of the code. | Stl/FlipReal.lean, Stl/FlipResults.lean |
| C114 | proved | The loop over facets and edges; the outline marks as a function of the edge records and the kept normals. | Induction over the edges visited; the ends of a marked edge are at its two sides, and C111 applies to both. | Stl/FlipResults.lean |
| C115 | partial | Model the thermal operators with the conditions of the field, the local matrices and sources of beams and triangles, and the scatter into the system. | Compute the bilinear form and the load of the assembled system for arbitrary fields; compare with the weak form of the Robin problem; counterexamples for the sign. | Pde/FemThermalEdge.lean, Pde/FemThermalProps.lean |
| C116 | partial | Model the structural laplacian with the loops over nodes and degrees of freedom, the material lookup, and how the thickness of an element gets its value. | Compute the bilinear form of the assembled system with d rows per node for arbitrary fields; compare with the virtual work written with the gradients of the linear interpolants; deduce symmetry, kernel and positivity; disprove symmetry for tetrahedra in general. | Pde/FemStructuralProps.lean |
| C117 | partial | Model the flow operators with the element matrices of C25, C26 and C61, the lookup of the velocities by node index, and the thickness of the element. | Compute the bilinear forms for arbitrary nodal fields and compare with integrals over the triangles written with the derivatives of the linear interpolants; show what depends on the orientation and which elements are skipped. | Pde/FemFlowProps.lean, Pde/FemFlowSolidProps.lean |
| C118 | partial | Model the members and the three stages with the flow operators of C117 and the equation of C19. | Turn rows of the eliminated systems into weak equations for test functions; solvability by positivity of the quadratic form; rest by induction over the steps; gravity, density and the sign of the streamline term as counterexamples. | Solvers/CbsProps.lean |
| C119 | partial | Model the two operators that differ from the generic ones; the Laplacian is textually the generic one of C22. | Show that every statement is that of the generic operator with its value scaled, and carry over C66; the balance at a common face by computation. | Pde/FvmFlowProps.lean |
| C120 | partial | Model generate with all it calls, with the quality, the intersections of triangles and the callback as parameters; a recorded flag `upset` says that repair removed an odd number of equal triangles or was stopped half way. | The front and the faces of the tetrahedra are a cycle modulo two: every step keeps the sum of every even function of triangles over both. The sum over the empty front is the sum over the surface. Pick the function that counts crossings of a half line; the count for one tetrahedron is C104's. | Mesh/TetMesherProps.lean |
| C121 | proved | As C120. | An invariant of the mesh through all passes and repairs, then the clean-up with C11 and C12. | Mesh/TetMesherProps.lean |
| C122 | partial | As C120, with a bound on the rounds of the loops over the growing front. | Each round adds at most three triangles and one element, a repair at most four per element; twelve repairs. | Mesh/TetMesherProps.lean |
| C123 | partial | The call of generate with its six passes over the growing front (QuadMesher.lean), on the model of the triangle mesher it is derived from; the length of a vector and the volume of a box are arguments of the model. Two records are kept that the code does not keep: an edge was cancelled against an edge that had gone before, and a node was stored under an id in use. | An invariant: for every function on pairs of nodes that is antisymmetric and of order two, the sum over the front and the cells is that over the boundary. Each step, with one quadrilateral, one triangle or two, keeps it as long as both records are empty; a front without edges leaves the claim. | Mesh/QuadMesherProps.lean |
| C124 | partial | The call of generate with its six passes over the growing front (QuadMesher.lean), on the model of the triangle mesher it is derived from; the length of a vector and the volume of a box are arguments of the model. Two records are kept that the code does not keep: an edge was cancelled against an edge that had gone before, and a node was stored under an id in use. | The same invariant holds that every cell is a triangle on stored nodes or a quadrilateral that passed the four tests of convexity; the clean-up at the end keeps positions (C11, C12). | Mesh/QuadMesherProps.lean |
| C125 | partial | The call of generate with its six passes over the growing front (QuadMesher.lean), on the model of the triangle mesher it is derived from; the length of a vector and the volume of a box are arguments of the model. Two records are kept that the code does not keep: an edge was cancelled against an edge that had gone before, and a node was stored under an id in use. | Each round adds at most three edges per element, and at most two elements, so that the front is bounded by the number of beams and the limit. | Mesh/QuadMesherProps.lean |
| C126 | proved | The loop over the faces with the flags of what has been flipped, the third node, the opposite side of the quadrilateral, both exchanges with their tests, setNodeId and the final generateFaces. | An invariant of the loop: sums over the sides of any antisymmetric function do not change, outlines stay convex, what is not flagged is as before. Region, boundary and disjointness follow from winding numbers. | Mesh/QuadSmoothProps.lean |
| C127 | partial | The walk around a node from face to face (with its limit of 1000 steps and its choice of the next face), the mean of the nodes met, the test of the elements met by their first three nodes, and the loops over elements and nodes. | Induction over the loops and over the steps of the walk; two concrete meshes, evaluated by the kernel, show what fails. | Mesh/QuadSmoothProps.lean |
| C128 | proved | Csg/Round.lean: the vertices with real sine and cosine, the polygons slice by slice and stack by stack, closing and calculateNormal; Csg/ConvexSolid.lean: the tree of a convex solid whose faces may share planes | Every corner triple of a face has a cross product along one outward direction, so the normal points outward whatever the epsilon; every corner of the solid is behind every plane by monotonicity of the cosine; a point is faced by the slice and stack its angles fall in; the sides telescope. The tree is handled by strong induction over the faces. | Csg/CylinderProps.lean, Csg/SphereProps.lean |
| C129 | partial | Post/Vtk.lean: save as a list of tokens with announced sizes; Post/VtkSpec.lean: a reader written from the format (announced sizes, cell splitting, point ranges, points per cell type) and what a grid describing a mesh is | The parts of the file are given in closed form by position; reading takes them off one after the other; the announced size equals the number of integers written exactly if no element is of an unwritten type | Post/VtkProps.lean |
| C130 | partial | Post/Vtk.lean: gnuplot, with the position used as an id and the index used as an id again | The rows are computed position by position; the exact condition on ids is proved necessary and sufficient | Post/VtkProps.lean |
| C131 | proved | Bem/Triangle.lean: angles, logarithms and tangents of the self coefficient over the reals, the 20 point rule for two triangles; Bem/Spec.lean: the potential as a surface integral in coordinates of the triangle | The integral is reduced to one along the side, whose antiderivative is an inverse hyperbolic sine; the logarithms of the tangents of half angles are its values at the ends | Bem/Props.lean, Bem/SelfProps.lean |
| C132 | proved | Bem/Triangle.lean: triangleOf, entry, rhsEntry, laplacian | Entry by entry; sums over positions are combined | Bem/Props.lean |
| C133 | proved | The search object as a mesh and a hash grid (Fvm/MeshSearch.lean), over the model of the grid used for C13, with `reset()` keeping the bounding box as the code does. | Induction over the meshes searched before: the box of the grid stays usable (HashGridReuse.lean), so each round is exact; then the second filter by distance. `build` twice and a forgotten `build` are shown separately. | Fvm/MeshSearchProps.lean |
| C134 | partial | Both functions branch by branch, on top of the models of the line/plane and line/line intersections, of the bounding box and of contains; the kinds of intersection as an enumeration, false as none. The second test on one side is modelled as written, with the vertices of the wrong triangle. | Completeness by moving from a common point along the line common to both planes until the first of the six edge constraints becomes tight (induction on the list of constraints), which gives an edge of one triangle through the other. Soundness from the sides of contains and the affine combination at the plane. Counterexamples for the missing test and for opposite orientation over every norm. | Geometry/TriTriFaults.lean, Geometry/TriTriProps.lean |
| C135 | proved | Both conversions, on the models of triangulate, of the STL file and of the polygon normal. Closedness is the specification of C131: every side is walked as often one way as the other. | Any function of a directed side that changes sign with the direction has the same sum over a polygon and over its triangles (induction on the ear clipping); applied to the indicator of a side this gives closedness, applied to the cross product the area; flatness turns the area into the volume. | Csg/StlExchangeProps.lean |
| C136 | partial | Mesh/Naked.lean: both loops of collapseNakedEdges with the exceptions of at. | Induction over the second loop with an invariant kept by each move; splitting the list of edges at the edge in question. | Mesh/NakedProps.lean |
| C137 | proved | Mesh/Naked.lean: boxLoop, elementBox, box, scale. | Induction over the loop, then the box theorem of C17. | Mesh/BoxScaleProps.lean |
| C138 | partial | Pde/Dispatch.lean: the choice of the operator and the type and size of the system it returns, and expressions over them. | Induction over expressions. | Pde/DispatchProps.lean |
| C139 | partial | The control volume with both polyhedra, the switch and every cache flag; a cache-free specification of what a sequence of calls asks for. | Refinement: by induction over the calls both polyhedra equal the ones computed from scratch up to caches whose values are right; the clip by volume fraction does not see such caches. With C51 this gives the volume after a clip. Negative parts by general theorems about any state and by the unit cube. | Fvm/ClippedVolumeProps.lean |
| C140 | partial | calculateCentroid, calculateBoundingBox, calculateNormal, calculateArea and calculateVolume of the four shapes on objects with empty caches. | Sums over lists by induction; mean of points in a half-space stays in it; the box by the least-box theorem C17; sphere volume and circle area against Lebesgue measure. Where the code fails: an if-and-only-if for spheres and circles, concrete shapes with rational coordinates for the centre of mass. | Geometry/CentroidsMeasure.lean, Geometry/CentroidsProps.lean |
| C141 | partial | checkIntersections with its counters, the R-tree of C15, the boxes of C137 and the tests of C84 and C134; reading the vertices of an empty triangle is undefined behaviour. | The candidates are exact by C15; by induction over the candidates only the first one other than the element itself is tested. From this: no invention for any mesh of triangles, exactness when boxes meet in pairs only, and general counterexamples. | Mesh/CrossingsFaults.lean, Mesh/CrossingsProps.lean |
| C142 | partial | The program of the example as a function over the models of the operators (C21), the equation (C19) and any linear solver that finds a solution where there is one. | The rows of the assembled system are compared with second differences; uniqueness by a maximum principle, so every sound solver gives the same values; the closed form is checked by substitution. | Pde/FdmHeatProps.lean |
| C143 | proved | The loop of the example over the models of ddt, laplacian, the operators on systems and the equation; the heat equation and its solutions with real analysis. | Existence and uniqueness from the maximum principle; induction over the steps; contraction with the weight (i + 1)(n - i); for the exact solution the residual is bounded with the mean value inequality on derivatives and carried through the steps by a maximum principle with the ends treated apart. | Pde/FdmHeatError.lean, Pde/FdmHeatLimit.lean, Pde/FdmHeatProps.lean |
| C144 | proved | The program of the example over the models of the assembled laplacian, the elimination and the solve; the energy stated by gradients of linear functions on each element, independent of the element matrices. | The assembled matrix gives minus the energy, so a solution exists also for singular systems (the load vanishes on the null space), and the free rows make the energy split into that of the result and of the difference; for the patch test the row of a surrounded node is a sum over the closed surface, polygon or pair of ends around it, which cancels. | Pde/FemHeatPatch.lean, Pde/FemHeatPatchFlat.lean, Pde/FemHeatProps.lean |
| C145 | proved | The loop of the example over the models of ddt, laplacian, the operators on systems, the elimination and the solve; the integral of squares by the mean over a simplex (shown to be the integral for beams and triangles), the energy as in C144. | The step is the minimum of a quadratic function; differences of runs satisfy the same equations without prescribed values; a bound of the square by the energy (induction along the chain of elements to a prescribed node) gives a ratio below one. | Pde/FemHeatTimeExamples.lean, Pde/FemHeatTimeLimit.lean, Pde/FemHeatTimeProps.lean |
| C146 | proved | FvmHeat.steady: the program from the operator to the field, over the models of the operator, the system and the equation; the solver is any function that solves what can be solved. | Discrete comparison principle along faces from a largest cell to an anchored one; hence uniqueness, existence by linear algebra, bounds; conservation from C22; exactness on orthogonal meshes from closed surfaces and C37. | Pde/FvmHeatProps.lean |
| C147 | partial | FvmHeat.step and steps: the programs with either sign of the Laplacian, from the operators to the field. | One step: the system read cell by cell; comparison principle for bounds and uniqueness; contraction in a weight that solves the problem with unit source; invariants over the number of steps; counterexamples for boundary cells, the limit and the orientation. | Pde/FvmHeatExamples.lean, Pde/FvmHeatLimit.lean, Pde/FvmHeatProps.lean |
| C148 | partial | FdmConvection.step, steps: the program from the operators to the field; the solver is any function that solves what can be solved. | The central difference is skew between fixed ends: multiplying the step by its result gives a trivial kernel (hence one result), the mean square estimate and, for a field that is 1 at the outlet, a contradiction with nonnegative temperatures; summation by parts gives the balance and the moment; induction over the steps. | Pde/FdmConvectionProps.lean |
| C149 | partial | BlackScholes.terms, step, run, quote, calculate: the program from the payoff to the printed price; the solver is any function that solves what can be solved. | The rows of the combined system from the rows of the operators; comparison principle for three-term rows with nonnegative exchange; hence uniqueness, existence, bounds; induction over the steps; the last row for the certain payment; the first node above the share price for the printed price. | Pde/BlackScholesProps.lean |
| C150 | partial | Burgers.solveStep, cyclic, step, steps: the loop of the program; the solver is any function that solves what can be solved. | Rows of the combined system from those of the operators; the comparison principle for three-term rows; induction over the steps; the last row for the uniform flow; two nodes for the backward flow. | Pde/BurgersProps.lean |
| C151 | partial | FemConvection.step, steps: the loop of the program over the modelled assembly of ddt and divergence; Line: n beams in a row; the solver is any function that solves what can be solved. | Residuals of the assembled system are the weighed equations (node by node in place of beam by beam); elimination from the far end with an invariant on the quotients for the even line; induction over the steps; weights 1 and T for balance and energy; a left null vector for the uneven line. | Pde/FemConvectionProps.lean |
| C152 | partial | FvmConvection.step, steps: the loop of the program over the modelled assembly of ddt and divergence; Open: regular cells with opposite normals on both sides of a face and nothing prescribed; Carried: the balance of every cell. | What passes between two cells is antisymmetric, so that the energy of the fluxes is that of the cells at the ends; this gives the uniqueness; summed with weight 1 it gives the conservation; induction over the steps; the cubes by the uniqueness. | Pde/FvmConvectionProps.lean |
| C153 | proved | FemStress.run: the program over the modelled assembly, sources, elimination and solve; Plate, Given, Held, Balanced, Equilibrium, work, elastic: the specification, with stress and strain of linear functions on triangles. | The form of the assembled matrix is the work of the stresses on the strains (C116); with it the rows of free components are the principle of virtual work; existence by a negative semidefinite matrix masked by the supports; the rest from symmetry, bilinearity and sign of the work; the patch test by summing the opposite sides around a node. | Pde/FemStressPatch.lean, Pde/FemStressProps.lean |
| C154 | partial | FemPoisson.run composes the models of the finite element laplacian, source, assignment, elimination and solve. | The assembled form and load are expressed by the energy and the corner sums; positivity on fields that vanish at prescribed nodes gives uniqueness; the rod's rows are evaluated for every n. | Pde/FemPoissonProps.lean |
| C155 | proved | Equation.penalised and FemHeat.steadyPenalty compose the models of setPenaltyFactor, solve and the finite element laplacian. | Divided by p the penalised system is a perturbation of order 1/p of an invertible one; the bound follows from a sum norm. On meshes invertibility follows from the energy. For the rod the rows are evaluated for every n. | Pde/Penalty.lean, Pde/PenaltyProps.lean |
| C156 | partial | SphParticles.heat repeats the model of solve on the state init makes. | A step is a Gauss-Seidel sweep. Differences of two runs are bounded by a sweep with zero prescribed values; along a path to a prescribed particle this decays. Existence and uniqueness of the steady field follow from the decay by linear algebra. | Sph/HeatProps.lean |
| C157 | proved | Mesh.join composes the models of addMesh and mergeNodes. | Close nodes come in pairs of one node of each mesh, so the replacement of a node is never replaced itself, whatever the order of the ids; all corners keep their points, so no element becomes invalid. A node per point makes equality of corners equality of node ids, and C07 applies. | Mesh/JoinProps.lean |
| C158 | proved | The models of generateFaces, extractBoundary and checkOpen are those of C07, C35 and C53. | Any quantity of oriented faces that changes sign with the direction cancels between coinciding faces (a sum over an involution), so its sum over the boundary is the sum over all element faces. With the number of times a side is run through minus the number of times backwards this is zero by C05; with the cones from the origin it is the volume. | Mesh/WatertightProps.lean |
| C159 | proved | The models are those of C31, C32 and C53; the theorem composes the mesher with the boundary extraction. | Two faces of cells with the same corners differ by a translation of the cell templates, which leaves finitely many template pairs to compare; an oriented face belongs to one element only (C31), so the second of two coinciding faces is reversed and there is no third. C158 then gives the boundary. | Mesh/GridBoundaryProps.lean |
| C160 | partial | The model of the solver is that of C48; the loops of the example's init are folds, with a closed form proved by induction. | Collision keeps mass (C48); streaming is a bijection of pairs (node, direction) inside; what remains are the pairs that cross the border. Bounce-back only permutes the populations of a node, and those of border nodes are overwritten or never read. The reflection exchanges directions 1-3, 5-6, 7-8. | Solvers/LbmCavityProps.lean |
| C161 | proved | The programs are compositions of the models of the mesher (C29, C30), a fold for the loop that sets the values, and the equation (C144, C145). | From the conformity of the grid every directed edge at an inner node has its reverse, so the triangles surround the node and the patch test of C144 applies. On a rectangle the energy of a triangle is the weighted sum of the squared differences along its two legs, so cutting off values at the bounds does not raise it; as the result is the only one with the least energy, it is its own cut-off. | Pde/FemPlateBounds.lean, Pde/FemPlateCooling.lean, Pde/FemPlateGrid.lean, Pde/FemPlateProps.lean, Pde/FemPlateSettles.lean, Pde/FemPlateSlanted.lean |
| C162 | proved | A triangle without strain of which two nodes stay in place stays in place; going through the grid column by column the only unstrained displacement of a plate that is zero on the left side is zero, which is the condition of C153. | The triangles of the grid surround every inner node (shown for C161), so the patch test of C153 applies. | Pde/FemStressGrid.lean |
| C163 | proved | The programs are compositions of the models of the mesher (C31) and the equation (C144, C145). From the conformity of the block every oriented face at an inner node has its reverse, so the opposite sides of the tetrahedra around it form a closed surface and the patch test of C144 applies. | In a box each of the six tetrahedra of a cell has, for each of the three edges, two corners that differ by that edge, so its energy is a weighted sum of three squared differences and cutting off values at the bounds does not raise it. All tetrahedra of a cell share a corner, so the block hangs together and C145 gives the limit. | Pde/FemBlock.lean, Pde/FemBlockBounds.lean |
| C164 | partial | The programs of C163. A reflection keeps the products of the gradients, so the diffusion matrix of every tetrahedron of volume V < 0 is -36 V² times that of its image, and the mass matrix is -1 times. All tetrahedra of a block have the same volume, so the systems of the steady program are multiples of each other and have the same solution, to which C163 applies. | For the time steps the two factors differ: the program computes, step by step, what it computes on the image for the conductivity multiplied by 36 V². One hot corner of a cell with all others cold shows that this is another result, for every cell whose volume is not -1. | Pde/FemBlockReversed.lean, Pde/FemBlockReversedTime.lean |

## Where the code and the property disagree

Every item is a theorem about the model with a concrete witness; none of them is a guess about the code.

* **C01** (Mesh lookup follows the edit history): The re-adding counterexample C01_readd_stale shows the proviso is needed.
* **C02** (Index and id accessors are mutually inverse): C02_stale_after_remove and C02_counter_not_reset show what the code does after removals without rebuild.
* **C06** (Element invert reverses orientation and is an involution): Prisms and hexahedra are left unchanged by invert: C06_prism_hexahedron_unchanged.
* **C07** (generateFaces pairs coincident faces symmetrically): C07_three_faces_asymmetric shows that the proviso (no three coincident faces) is needed.
* **C08** (mergeNodes leaves no dangling reference and no close pair): The full statement is false: C08_dangling_reference is a mesh whose node ids are not ascending and whose element is left with a deleted node. Proved for ascending ids; C08_any_order_partial is what holds for every order.
* **C10** (mergeElements keeps one representative of coincident elements): The full statement is false: C10_no_representative deletes both copies. Proved: what survives is exactly the elements without another centroid within the tolerance.
* **C12** (renumber yields contiguous ids and preserves the geometry): The full statement is false for face/element cross references: C12_stale_cross_references. Proved for nodes, elements and node references.
* **C13** (Hash grid search is exact): The points must not all coincide (C13_coincident_undefined). A grid may be reset and used again any number of times (C13_reuse), but a second build() without reset() finds objects several times (C13_rebuild_without_reset).
* **C14** (Alternating digital tree search is exact): C14_find for every legal history of insertions and removals, up to the stack bound of 1024 levels (C14_small: always met with fewer than 1024 insertions); C14_points states it with common points; C14_sound has no bound. Disagreements outside the claim: the tolerance is ignored (C14_tolerance), removal counts insertions instead of using ids (C14_remove_by_id), id -1 is lost (C14_minus_one).
* **C15** (R-tree search is exact): Proved for every history of additions, removals and resets with non-empty boxes (C15_find for ids used as intended, C15_history for any use). Findings: boxes with minimum above maximum make the node split use uninitialised indices (C15_inverted); the tolerance of find is ignored (C15_tolerance); the box given to removeGeometricObject only steers the descent (C15_remove_box).
* **C16** (Octree search is sound and complete): Proved for at most 1000 points and tolerances up to the machine epsilon (the default 0 included): exact, in insertion order (C16_find_partial); soundness for every tree (C16_sound). False beyond: C16_other_octant (tolerance reaching into another octant), C16_subdivided (more than 1000 points in one place: none is found).
* **C18** (Linear system algebra matches equation algebra): Row scaling breaks the symmetry of a symmetric system: C18_row_scaling_breaks_symmetry.
* **C19** (Elimination of fixed degrees of freedom is exact): A second setElimination call on the same equation drops a free equation: C19_second_call_drops_equation.
* **C22** (Finite-volume Laplacian conserves flux): For every regular mesh (what generateFaces leaves, C22_regular), the assembled Laplacian is the sum of face fluxes (C22_flux), symmetric after weighting with the volumes (C22_symmetric), conservative (C22_conservation) and exact on constants (C22_constant). The two faces of a pair must have equal area: proved for triangular faces (C22_triangles) and, up to the sign the code gives, for planar faces (C22_planar).
* **C23** (FVM face sides are complementary): Holds for faces between two cells (C23_sides, C23_shared_face). It fails for boundary faces: they answer cell 0 (C23_boundary_neighbor_is_zero).
* **C25** (FEM diffusion matrices are symmetric, annihilate constants and are definite): Needs positive measure: C25_tetrahedron_negative_volume shows the sign is wrong for the other orientation.
* **C26** (FEM mass matrices conserve mass): The triangle's mass matrix uses the area without the thickness that scales its diffusion matrix. The quadrilateral's entries use the Jacobian of the mirrored point: C26_quadrilateral_mirrored.
* **C27** (Structural stiffness is symmetric and free of rigid-body forces): The full statement is false for the tetrahedron: C27_tetrahedron_not_symmetric. Proved in full for the triangle; for the tetrahedron the rigid-body part.
* **C28** (FEM assembly equals the sum of element contributions): laplacian: every consistent mesh, any ids. ddt: only for element ids 0..n-1 and node ids below the node count; false otherwise (C28_ddt_element_id_seven, C28_ddt_node_ids) and prisms are left out (C28_ddt_prisms). Fields with two or more degrees of freedom index the element matrix out of range (C28_laplacian_dofs); with the default of zero the matrix is zero.
* **C29** (Line mesher partitions the segment): Assumes the cached direction of the line is that of its end points (GLine.Ok), as after the two-point constructor; C56 shows how setStartPoint breaks it. C29_no_elements covers nu <= 0.
* **C30** (Quadrilateral mesher produces a conforming tiling): Vector areas carry both area and orientation. Only the corners 0, 1, 3 of the quadrilateral are read by the code, so C30_corners assumes a parallelogram.
* **C31** (Hexahedron mesher produces a conforming tiling): Only the corners 0, 1, 3, 4 are read by the code, so C31_corners assumes a parallelepiped. volume() is signed: it is negative for a right-handed block.
* **C32** (Bounding box mesher stays inside the box): C32_negative_volumes: volume() of every element of a box mesh is negative, see C25_tetrahedron_negative_volume for the consequence. C32_zero_size: a size of zero divides by zero.
* **C33** (Extruded mesher creates one valid prism or hexahedron per surface element): C33_generate_partial is complete for triangles. For quadrilaterals the top nodes of the hexahedron are listed in the order 0, 3, 2, 1, so the vertical edges do not join each bottom node to its own copy: C33_hexahedra_twisted. generate does not reset the mesh of the mesher: a second call adds to it, which the theorem covers.
* **C34** (Node-to-element queries are exact): C34_one_node is complete. elementsSharingNodes uses std::set_intersection on lists in order of insertion: C34_two_nodes_partial assumes increasing ids, C34_two_nodes_unsorted is a counterexample without.
* **C36** (Clipping a segment keeps exactly the part behind the plane): With a positive tolerance points beyond the plane are kept: C36_tolerance_deviation.
* **C37** (Polygon area is the shoelace area): The sign of the area depends on which vertex comes first (C37_area_sign_depends_on_start) and setPolyline keeps a stale cache (C37_setPolyline_stale).
* **C38** (Tetrahedron point location is exact): For a non-positive volume() nothing is contained: C38_nonpositive_volume.
* **C42** (Closest point on a triangle): The full statement is false: C42_vertex_fallback. Proved when the foot of the perpendicular lies in the triangle; C42_outside says what is returned otherwise.
* **C43** (Circumsphere and circumcircle pass through their points): Spheres: full. Circles: false in general (C43_circle_undefined divides by zero for a horizontal first side); proved where the slopes are defined.
* **C44** (Convex hull encloses all points): Proved (C44_hull) for distinct points in a plane z = const whose first three are not collinear. The full statement is false in other planes (C44_other_planes) and with repeated points (C44_repeated_point).
* **C45** (BSP split conserves area and separates): With a positive tolerance the pieces can overlap: C45_tolerance_overlap; C45_split_tolerance says by how much.
* **C46** (BSP inversion is an involution and build loses no polygon): For proper polygons (vertices in the plane of their normal). build does not end for a polygon whose normal does not fit (C46_build_diverges), drops everything after a first polygon without vertices (C46_empty_first_polygon), allPolygons called twice repeats polygons (C46_allPolygons_twice), add with an empty operand reads an uninitialised value (C46_add_empty). Operands are copies in the code, so they cannot change; this is by construction of the model.
* **C47** (Vertex list operations): removeCollinear on a one-vertex list reads out of range: C47_removeCollinear_single.
* **C48** (Lattice Boltzmann collision conserves mass and momentum): Collision, bounce-back, streaming, lid and whole histories: mass and momentum accounted exactly; see the theorem comments.
* **C49** (SPH kernels have compact support and unit mass): Support and continuity for every kernel; total mass 1 proved for convex, quintic and spiky in two and three dimensions. False and refuted: one-dimensional masses are 2, the cubic spline has mass 4, the Gaussian jumps at 3h and has mass 1-exp(-9) in the plane.
* **C50** (Gauss rules integrate constants): Proved against Mathlib's integral: beams 1,2,4,6, quadrilaterals 1,4, hexahedra 1,8 (and the sum for 27), triangles 6,12,16,17,20 integrate every polynomial of their degree. False and refuted for beam 3, quadrilateral 8, triangles 1,3,7 and all prism rules; the 27-point hexahedron rule sums correctly but repeats points.
* **C51** (Volume-fraction clipping brackets the root): C51_outside, C51_clip: iteration bound, reported fraction is that of the polyhedron returned, accuracy when it stops early. aNormalizedTolerance is not used by the code. C51_inward: for a hexahedron in the vertex order of the library's own mesher (faces pointing inwards) the volume ratio is not that of the part below the plane.
* **C56** (Segment and plane intersection): For a plane whose normal is not a unit vector the answer can be wrong: C56_needs_unit_normal; setStart alone leaves a stale direction: C56_setStart_stale.
* **C57** (Distance between two lines): The second point is not clamped to its segment: C57_second_point_unclamped, so this is not the distance of the segments.
* **C58** (Triangle point location): With tolerance zero only the interior and the first vertex are contained (C58_zero_tolerance), and IT_EDGE is never reported for sensible tolerances (C58_edge_never): that part of the claim is false of the code.
* **C60** (Polyhedron volume): C60_set_stale: set() on an already measured polyhedron keeps the old volume.
* **C61** (FEM flow terms are the convection and gradient integrals): The full statement is false for the tetrahedron's convection matrix, whose entry (3,2) uses u[2] twice: C61_tetrahedron_convection_not_constant. Proved in full for the triangle and for the gradients.
* **C62** (FEM prism and hexahedron matrices carry the element's volume): The full statement is false: C62_hexahedron_order (0.577 of the volume in the vertex order of the meshes) and C62_prism_weights (three quarters of the volume). Proved: everything up to the measure the rule gives, and exactness in the hexahedron's own order.
* **C63** (FEM source adds the nodal source once per element corner): The source is added as given per corner: it is not multiplied by the measure of the element, and prisms receive none.
* **C64** (SPH kernel derivatives agree with the kernel): gradientW along the offset equals minus the derivative of W only up to the missing factor h^2; the cubic and convex kernels differ further (C64_cubic_convex).
* **C65** (An SPH step moves particles by their velocity, keeps them in the box and respects the field): Density, prescribed values, constant fields, maximum principle and the cyclic box are complete. The motion is proved only for equal second and third velocity components: the code swaps them (C65_swapped), and moves particles at rest on a cyclic face (C65_cyclic_rest).
* **C66** (Finite-volume time derivative and divergence of a constant field): ddt is proved (C66_ddt, C66_ddt_defined). For divergence the row plus the right-hand side is the sum of the fluxes (C66_divergence, C66_constant), and cells without prescribed faces are right (C66_interior_partial). The code adds prescribed faces to the right-hand side with the wrong sign for the convention A x - b of the other operators, so the claim is false for boundary cells: C66_sign and the two-cube example.
* **C67** (Cutting a polyhedron gives its two parts): False as stated: cut returns the part on the negative side twice (C67_cut_same, for every polyhedron and plane; C67_cut_cube).
* **C68** (Clipping a polygon keeps exactly the part below the plane): C68_clip, C68_area; the two cases excluded by the hypotheses are shown to be needed (C68_in_plane, C68_open).
* **C69** (Sorting the lines of a loop chains them): C69_sort.
* **C70** (Clipping a polyhedron leaves the volume below the plane): Proved for every closed polyhedron with planar faces and every clip whose section is one simple loop, under the hypothesis that the new face points along the normal of the plane. The code turns the new face by its second point only: C70_reflex shows that a reflex corner there turns it inwards and the volume is wrong. Sections of several loops are not covered.
* **C71** (Bisection finds a root): C71_root over the reals; C71_iterations bounds the number of passes. bisection does not check the signs at the bounds: C71_no_sign_change shows what it returns then.
* **C72** (Brent's method keeps a bracket): Proved for strictly opposite signs. The claim about a root at a bound fails: C72_bounds shows that with f(lower) = 0 and f(upper) < 0 the upper bound is returned, which is not a root, and the iteration counter is left unset.
* **C73** (One PISO step balances the mass of every cell): Proved for cells with walls, pressure inlets and flow inlets from the second step on (C73_second_step_partial), for domains with walls all around also the reported error (C73_walls), and that generateFaces and set establish the hypotheses on the mesh (C73_reachable; triangles and planar convex quadrilaterals). Fails in the first step at a flow inlet (C73_first_step) and at outlets (C73_outlet, C73_outlet_step); the reported error counts boundary fluxes with the wrong sign (C73_check_inlet). The linear solver is assumed exact.
* **C74** (Pressure gradients and the level of the pressure): Gradient of constants and the level of the pressure proved for every closed cell. The clause on prescribed pressures is false: the pressure of a pressure inlet is moved along with the rest (C74_prescribed_pressure).
* **C75** (A fluid at rest stays at rest): A fluid at rest stays at rest: proved for every sequence of steps (C75_rest). The clause on H is false: the code sums the entries of the column times the velocity of the cell itself (C75_column, C75_H_differs).
* **C77** (The momentum equation of a cell balances what flows through its faces): The equation of every cell is proved to be the balance of a separate specification (C77_balance), with action = reaction (C77_reaction) and conservation over the mesh (C77_conservation). Uniform motion is proved for boundaries that nothing flows through (C77_uniform_partial); with flow through the boundary it is false (C77_through_flow): the convection term of a boundary face has the wrong sign and a component of the normal too many.
* **C78** (The phase fraction of two fluids stays between zero and one): For every history and every linear solver (C78_bounded, C78_properties, C78_step). C78_correction_inert: the correction of the weights never has an effect, because the fractions are cut off before it.
* **C79** (The volume of each of two fluids is conserved): Balance of every cell, action = reaction and conservation are proved for exact solutions (C79_balance, C79_reaction, C79_conservation), for iterate after any history if nothing is cut off (C79_iterate_partial). False if a fraction is cut off at 0 or 1 (C79_cut_off) and for vessels with flow through the boundary (C79_filled): the stored boundary flux has the opposite sign.
* **C80** (The temperature solver balances heat): The balance of every cell is proved for the conductivities the solver uses; conservation of the total heat is proved for conductivity 1 and refuted for others (C80_asymmetric): each cell averages with the conductivity used at its previous face.
* **C81** (Temperatures in a closed vessel stay between those of the fluid and the walls): Proved with the wall temperatures divided by the cell volume, as the solver uses them; refuted for the wall temperatures themselves (C81_overheats).
* **C82** (Element quality lies between zero and one and tells the best and the degenerate shapes): Full for quadrilaterals and tetrahedra and for triangles whose sides are longer than the tolerance. False for triangles below the tolerance (C82_triangle_tiny: 4/3; C82_mesh_tiny: the least quality reported belongs to no element) and for prisms, whose height is ignored (C82_prism_flat: a prism without volume has quality one).
* **C83** (A mesh saved to a Gmsh file and loaded again is the same mesh): The round trip is proved for every consistent mesh whose elements have the nodes of their type (C83_round_trip_partial, C83_all_elements, C83_again). False for elements that are points, which are written as type 15 and skipped when read (C83_point_lost). Values are right only if node ids are positions (C83_values_partial): the position is used as an id (C83_values_swapped, C83_values_exception).
* **C84** (Two segments are reported to meet exactly where they meet): Proved for all pairs of segments that are not parallel, tolerance 0: soundness, the exact classification and exactly which common points are missed (C84_segments). Two defects are proved: a T whose foot is the start of the argument is missed although the same T is found with the argument turned around or the segments exchanged (C84_start_missed: `contains` takes the angle of a zero vector, which `angle` reports as a right angle), and parallel segments side by side are reported as crossing (C84_parallel_wrong: `contains` accepts a cone of 1 degree instead of the line). Not proved: positive tolerances; a description of the result for all parallel segments.
* **C85** (The triangle mesher covers the region inside the boundary): Proved for every returned mesh, with the beams read by the even–odd rule: parity of the triangles around each point (C85_region), coverage of the whole region (C85_covered), parity of sides (C85_sides). Missing for the full statement: that no two triangles overlap. C85_tiling_partial states the tiling with that as a hypothesis. The mesher tests a new side only against edges found in a window around it and with tolerances and angle limits, and a boundary traversed the wrong way round is not detected, so disjointness is not a consequence of the code for all inputs.
* **C86** (The triangle mesher returns proper triangles): C86_triangles, for every returned mesh.
* **C87** (The triangle mesher keeps the boundary and adds nodes only inside its bounding box): C87_boundary_kept, C87_nodes. New nodes are tested against the bounding box only, not against the region.
* **C88** (The triangle mesher stops): C88_terminates gives the explicit bound beams + 2·limit on each of the loops; C88_rounds shows that the fuel of the model plays no part beyond that. The R-tree search is the model of C15, total there.
* **C89** (The triangle mesher refuses open boundaries and depends on nothing else): The first part is proved (C89_closed). The second part is false of the code; C89_interior_not_cleared and C89_other_elements are counterexamples.
* **C90** (Flipping edges keeps a triangulation of the same region and makes no triangle worse): C90_faces (faces), C90_flip (stays a triangulation), C90_region, C90_boundary, C90_quality.
* **C91** (Relaxing nodes keeps a triangulation of the same region and improves it): C91_relax, C91_region, C91_quality, C91_hull.
* **C92** (Remeshing a surface splits its long sides and keeps the region): The flags make a single pass leave some long sides: of the two triangles at a long side one is split, possibly along another side. That is what is proved.
* **C93** (Remeshing an edge mesh cuts every beam into equal parts): Beams of length zero are excluded: with only such beams generateFaces builds a hash grid of equal points (C13).
* **C94** (Collapsing short sides keeps the mesh valid): Proved: everything but the region. The region is not kept: `C94_turns_over` gives a triangulation whose result has a triangle turned over, `C94_area` one whose result overlaps itself (an element that should go is skipped by the loop that deletes and becomes a triangle again).
* **C95** (Fixed edges lose their pairs and nothing else changes): Assumes that the faces do not all have the same centre, as the hash grid needs (C13).
* **C96** (A surface set from a mesh, joined with another one, or measured): The normals that set stores are zero, so a surface exported from a mesh has zero normals (part of C96_set). add(*this) does not end (C96_add_itself).
* **C97** (Cleaning a surface removes the right facets): removeInvalidFacets and the case without duplicates are proved. The removal of duplicates fails: with exactly one pair of equal facets the function throws for every surface (C97_duplicates_throw), and a facet near a larger one is removed though it is no duplicate (C97_nested_removed).
* **C98** (A surface saved in binary form loads with the same facets): Holds from six facets on when the bytes that are searched hold a zero and not the word vertex before it; this is always so for a surface set from a mesh (C98_binary_mesh). With five facets or fewer load reports success and reads nothing (C98_binary_small).
* **C99** (A surface saved as text loads with the same facets): Holds from two facets on. With one facet load reports success and reads nothing (C99_ascii_small).
* **C100** (Neighbours of STL facets): The hash grid's own conditions (C13) are hypotheses. A neighbour may be an edge of the same facet, or one of several candidates, when edges are short: C100_conforming states when this does not happen.
* **C101** (Mesh of an STL surface): C101_big_fan: with 101 facets around a vertex the walk gives up and the vertex gets two nodes; hence the bound 99 in C101_shared.
* **C102** (The analytical temperatures solve the heat equation): All equations and zero sides are proved. The prescribed value 1 on a side or at the start is reached only in the limit of infinitely many terms; proved are the partial sums it equals. transientHeatConduction3D lacks the sign (-1)^r: C102_start3_wrong shows that the centre of the cube starts above 3 instead of 1.
* **C104** (Flipping faces of a tetrahedral mesh keeps the region, its boundary and the worst quality): C104_faces shows that the hypotheses hold after generateFaces; C104_measure that the measure of quality of the code meets those of C104_quality and C105_quality.
* **C105** (Moving nodes of a tetrahedral mesh keeps the region, its boundary and the worst quality): The hypothesis on the measure of quality holds for that of the code (C104_measure).
* **C106** (Smoothing a tetrahedral mesh does not depend on where the mesh lies): Proved for linear maps that keep volumes and qualities (rotations about an axis through the origin). False for translations: C106_not_translated gives a mesh where a node moves, while it stays in the same mesh moved by (12, 12, 12). The sum so far is multiplied by the volume and divided by four in each round (MshTetrahedronMesher_Imp.hpp:1413-1419), so the point towards which a node is moved is not the weighted mean: C106_target_outside gives a mesh in [0, 12]^3 for which it has all coordinates above 240, so that no node moves with the factor one.
* **C107** (Replacing three tetrahedra around an edge by two (flipEdges32) keeps the region): C107_*_partial need Mesh.Isolated; C107_hole and C107_overlap show that the property fails without it.
* **C108** (Orienting an STL surface from a pivot facet makes neighbours run against each other): Hypotheses: facets triangular, ids not negative, neighbours mutual, edges without neighbours marked as such, no facet its own neighbour (what generateConnectivity gives, C100), corners of a facet further apart than the tolerance.
* **C109** (Orienting an STL surface outwards keeps its facets): The property is false of the code: C109_first_facet_lost proves that the first facet is always lost; an example shows that the call returns for a tetrahedron and what it leaves.
* **C110** (Splitting the facets of an STL surface keeps the surface): Positive for ids that are positions; a wrong result is proved for other ids (C110_ids_needed), and that long edges can remain (C110_long_edges_remain).
* **C111** (Relaxing the vertices of an STL surface keeps the surface together): Positive for ids that are positions; a torn surface is proved for another order (C111_ids_needed).
* **C113** (Flipping the edges of an STL surface exchanges disjoint pairs of facets): What is flipped, and that flips improve the quality, is proved; that the surface stays the same is refuted (C113_overlaps, C113_stale).
* **C115** (Thermal finite elements impose convective edges as a Robin condition): Proved: the exact form and load for every mesh and every set of conditions, symmetry, balance of the exchanged heat, agreement with the generic operator without conditions. The claim itself is false of the code: the diffusion matrix is negative but the convective terms are added with a positive sign, so the equation solved is the Robin problem with -h (C115_weak_partial); a fin in colder surroundings is hotter than its base, or colder than the surroundings, for every length and coefficient (C115_fin, C115_fin_hot); the same for triangles (C115_plate_cold). Beams carry their whole surface at each node, twice the amount. Conditions on quadrilaterals and solids are ignored. The conductivity of the material is not used. source does nothing.
* **C116** (Structural finite elements assemble the elastic energy of the displacement): Triangles in the plane z = 0 with known thickness: proved in full, including degenerate triangles. Tetrahedra: the form has an extra term because the elasticity matrix is written with a zero where the Poisson coefficient belongs (C116_solid_partial), so the matrix is not symmetric on any mesh with non-zero total volume and non-zero Poisson coefficient (C116_solid_asymmetric) although the system is declared symmetric; rigid motions need no force. A triangle made with CMshElement(ET_TRIANGLE), as every mesher makes it, has an uninitialised thickness which laplacian reads (C116_thickness). Triangles with three degrees of freedom read outside their matrix (C116_dofs). ddt, divergence and source are empty.
* **C117** (Flow finite element operators assemble the weak form of momentum and continuity): Plane triangle meshes: all forms are computed for all fields. gradient and the convective part of divergence carry the sign of the orientation of each triangle, so on a clockwise mesh they are the opposite of what is claimed, while ddt and laplacian do not change (C117_gradient_orientation with sigma = -1). The streamline term enters with a negative sign: a negative diffusion (C117_convection, C117_stream_negative). ddt looks elements up with their positions (C117_ddt_element_ids). laplacian reads a thickness that the typed constructor never set (C117_thickness), and the thickness scales laplacian only. gradient along z of triangles reads outside an empty matrix (C117_gradient_component). Quadrilaterals, prisms and hexahedra contribute nothing, without an error (C117_no_branch). Tetrahedra: ddt, laplacian (positive volume()), gradient and divergence are computed too; the convection of solids has one wrong velocity in the last row of the element matrix, so that constants are not in its kernel (C117_convection_solid_partial, C117_solid_constants).
* **C118** (A step of the characteristic based split solver predicts, projects and corrects the velocity): Every step gives a result with the prescribed values in place, and its stages satisfy the discrete equations whenever they have solutions (C118_iterate_partial); the corrections always have one (C118_correct_solvable), the others under positivity (C118_solvable, C118_solvable_rest). Rest is kept for ever (C118_rest). The claim as stated fails: gravity is added to every row unweighted, so free fall is wrong unless every shape function has integral 1 (C118_gravity, C118_gravity_area); the pressure equation lacks the density (C118_density); the streamline term destabilises (C118_energy). Initial fields are uninitialised (C118_new).
* **C119** (The finite volume flow operators balance what the cells exchange): The system is the generic one with each row times the value of its own cell (C119_divergence), hence fluxes and constants (C119_flux). What leaves a cell does not enter its neighbour: together they gain the difference of their values times the flux (C119_not_conservative), so the last clause fails. ddt as stated (C119_ddt). Sign of b as in C66.
* **C120** (The mesher of solids fills what its surface encloses): Proved for results after no upset repair (C120_solid_partial, C120_covered_partial, C120_faces_partial, C120_surface_kept_partial); C120_triple_lost shows how a repair is upset. That tetrahedra do not overlap is a hypothesis of C120_tiling_partial.
* **C121** (The mesher of solids returns proper tetrahedra): Without condition on repairs.
* **C122** (The mesher of solids ends, refuses open surfaces, and can be used once): C122_terminates, C122_rounds, C122_closed. The last clause fails: the list of interior nodes is not cleared (C122_inner_not_cleared).
* **C123** (The quadrilateral mesher fills the region): Proved under the condition that during the call no edge was cancelled against an edge that had gone before and no node was stored under an id in use. The condition is needed: C123_node_moved shows a polygon for which the last resort stores a new node under the id of a node it had found, which moves that node, and a point of the region is left out. That elements do not overlap is false: C123_overlap shows a polygon for which one triangle outside the region is stored twice, so the region is only what an odd number of elements cover.
* **C124** (Elements of the quadrilateral mesher): Proved under the condition of C123. Triangles need not be counter-clockwise: C124_clockwise.
* **C125** (The quadrilateral mesher ends and refuses open boundaries): The end and the refusal are proved for all calls; the limit can be exceeded by one and no more (C125_limit_exceeded), the bound is proved under the condition of C123. C125_long_rectangle: a rectangle of four beams with sides 1 and 4 and an element size of 1 makes the front leave the rectangle until the limit is reached.
* **C126** (Flipping edges of the quadrilateral mesher keeps the mesh, its region and its boundary and does not worsen the worst element): For every plane mesh of triangles and convex quadrilaterals with generated faces: definedness, kinds, region, area, boundary, disjointness, quality. C126_faces shows that generateFaces gives the hypotheses.
* **C127** (Moving nodes with the quadrilateral mesher changes positions only and keeps nodes in every half-space; but it moves boundary nodes and misses interior ones): C127_relax_partial: it returns, changes positions only and keeps nodes in every half-space. C127_hole: all nodes of a hole, which are on the boundary, are moved, two of them to the same place, and elements are no longer convex. C127_grid: the common node of four quadrilaterals is never moved. Cause: the walk takes face (k + 1) % 3 also in a quadrilateral, and elements are judged by their first three nodes.
* **C128** (The CSG sphere and cylinder are closed convex solids of the right size): Real arithmetic: rounding of sine and cosine is not modelled, so the planes of quadrilaterals are exact. With one stack the sphere's polygons are given two corners only (C128_one_stack); CsgSphere and CsgCylinder do not check their arguments.
* **C129** (A mesh saved to a VTK file can be read as a VTK grid and is the same mesh): The claim holds for lines, triangles, tetrahedra, hexahedra and prisms with at most one value per node and node ids 0..n-1 in any order (C129_vtk_partial), and tetrahedra of positive volume come out positive in VTK (C129_tetrahedron). It fails otherwise: for a quadrilateral (or point element or polyhedron) save writes the size and the type but neither the number nor the nodes of the cell, so no such file can be read (C129_quadrilateral); with two or more values per node the data section is announced and empty (C129_dofs); if a number below n is not a node id, saving values at the nodes throws because nodeIndex(i) is called, although its result is not used (C129_ids). The first coordinate of the file is printed before setprecision and has 6 digits only (prt0 in C129_vtk_partial). load is a TODO that returns true and reads nothing.
* **C130** (Every row of a Gnuplot file has the number, the coordinates and the value of one node): save uses the loop position as an id and its index as an id again: the rows are right exactly if position and id can be exchanged (ids equal positions, or are swapped in pairs): C130_gnuplot_partial, C130_exactly, C130_elements_partial. On the consistent mesh with ids 1, 2, 0 every row has the number and coordinates of one node and the value of another (C130_wrong_rows).
* **C131** (The boundary element coefficients are the layer potentials of the triangle): Real arithmetic. For two triangles the coefficients are sums over 20 points with decimal weights: their accuracy is not claimed, and since the decimals of the barycentric coordinates do not add up to one exactly, invariance under translation is not exact and not claimed.
* **C132** (The boundary element operator assembles the boundary integral equations of the mesh): The solver is given the matrix with -1/2 on the diagonal, so constants are solutions only for surfaces whose normals point inward (C132_constant): with outward normals the sum of h is about -1/2. The position of an element is used as its id (C132_ids), and with an element that is not a triangle the matrix is singular (C132_other_types). ddt, divergence and source of this operator are empty in the code. Division by the area of a degenerate triangle is not distinguished.
* **C133** (The search for boundary faces near a point is complete, exact and unaffected by earlier meshes): Calling `build()` a second time without `set()` makes the search return faces several times (C133_rebuild): the cell counters of the grid are not cleared. A search after `set()` without `build()` is undefined or empty (C133_unbuilt). The mesh must not change between `build` and the search.
* **C134** (Whether two triangles meet): Complete for positive tolerance and triangles in general position (C134_found), right for neighbours (C134_neighbours) and for segments (C134_segment, C134_segment_sound). Sound with tolerance 0 only when the first triangle is not strictly on one side of the plane of the second: the second early test compares the second triangle with its own plane, so it never fires, and the last part accepts corners whose projections are inside; C134_false_alarm gives two disjoint triangles reported as crossing in one order of the arguments and not in the other. Two triangles in one plane (not through the origin) with opposite orientation are compared by |d1 - d2|, which is 2|d|: they count as not coplanar and only containment is found (C134_flipped), so a six-pointed star is missed (C134_flipped_missed). Coplanar triangles with the same orientation inherit the faults of the segment test (C84).
* **C135** (STL export and import of a solid): The facets of the exported file all carry the normal zero (C135_facet_normals), so that a file saved from it has zero normals; reading back does not use them. fromSTL appends to the polygons already in the solid.
* **C136** (Closing unpaired edges only moves nodes, and by a bounded distance): All parts hold except the last: edges are closed one after the other and closing an edge moves the end of the edge before it. C136_closed_partial proves the last part when no two unpaired edges share a node; C136_round_trip shows that around a single triangle, with all edges short enough, two edges are as long afterwards as the second edge was.
* **C137** (Bounding boxes and scaling of meshes): The centroids stored by calculateElementCentroid and calculateFaceCentroid are not part of this model; scale does not refresh them.
* **C138** (Every equation a user writes for a field has one row per unknown): Holds for generic and thermal fields of finite differences, finite elements and finite volumes, and for flow fields of finite volumes (C138_complete) and, without the divergence of one field, of finite elements (C138_flow). Not otherwise: C138_missing shows that a field without operators silently gives the empty system, C138_mismatch that ddt - laplacian fails for structural finite elements and for boundary elements and laplacian + divergence for flow fields of finite elements, C138_source that a source works for generic finite elements only.
* **C139** (A control volume reports the shape it was last clipped to): Proved: for every sequence of calls about faces that are there, recalculated volume, surface area, original volume, face areas and normals are those of the shape asked for (C139_history); after a clip the recalculated volume is the reported fraction of the original volume, within the tolerance if the search converged (C139_fraction); a recalculated volume stays right until the next clip or switch (C139_quiet). The code violates the property in four ways: volume and surface area once calculated are reported unchanged after a clip or switch unless a recalculation is forced (C139_stale, C139_stale_cube); a surface area once calculated never sees faces added later, even if forced, because the flag is not handed on (C139_area_added, C139_area_added_cube); asking for the area of a face that is not there inserts an empty face that appears after the next clip (C139_missing_face); the face returned by clippedFace keeps its first area (C139_clipped_face). Recalculating face areas of the clipped shape, and centroids, are outside the theorem.
* **C140** (Centroids, boxes, normals, areas and volumes of polygons, polyhedra, spheres and circles are those of the shape): Proved: the centroid of a closed polygon is the mean of its vertices whichever it starts with (C140_polygon), centroids move with the shape and stay in every half-space containing it (C140_polygon_moves, C140_polyhedron_moves), a tetrahedron turned into a polyhedron keeps its centroid (C140_tetrahedron), the box of a polyhedron is the least box (C140_polyhedron_box), the volume of a sphere and area of a circle are the Lebesgue measures of the points they contain (C140_ball_measure). The code violates the rest: a box of a sphere or circle contains it only if its centre is the origin (C140_sphere_box, C140_circle_box), the normal of a circle lies in its plane (C140_circle_normal), the centroid is not the centre of mass of a trapezoid or a pyramid (C140_polygon_mass, C140_polyhedron_mass), and a face added again under its id is counted twice (C140_replaced). The surface area 4 pi r^2 is modelled but not compared with a surface measure.
* **C141** (The check for crossing elements finds a crossing exactly if there is one): Proved for meshes of triangles: the search always answers, and a yes comes from two triangles with meeting boxes that the test of two triangles (C134) says to share more than a corner (C141_said); if the box of each triangle meets at most one other, the answer is yes exactly then (C141_sparse_partial); in general one other triangle is tested for each triangle, no more (C141_first). The code violates the property in three ways: the counters are not set back between candidates, so after the first candidate nothing is tested and a crossing is missed (C141_three, C141_missed); triangles that share an edge count as crossing, so with a positive tolerance sound surfaces are said to cross themselves (C141_neighbours); in meshes with other elements the vertices of a triangle without vertices are read (C141_mixed, C141_mixed_beam). Missing: meshes of beams only, which follow the same scheme.
* **C142** (Steady conduction in a rod gives the straight line between the prescribed ends): The code violates the property: at an end node the prescribed value is taken to be the value one step outside the rod, and the node's own unknown, which differs from it, is thrown away only after the solution. C142_steady_partial: the inner values are those of the line from a, one step before the first node, to b, one step after the last: a + (b - a)(i + 1)/(n + 1) instead of a + (b - a) i/(n - 1). C142_not_the_line: from four nodes on, with different values, the first inner value is never that of the line between the ends. C142_error: the error is at most |b - a|/(n + 1), so it vanishes with first order under refinement. C142_one_end: with one end prescribed and the other free the result is exact.
* **C143** (Heat conduction in time: every step balances heat, stays within bounds and approaches the exact solution): C143_step (each step has exactly one result and it balances heat at every node), C143_bounds (maximum principle for any number of steps and any step length), C143_insulated (total heat conserved), C143_forgets and C143_ratio (two runs with the same prescribed ends approach each other like powers of a ratio below one), C143_limit (what a long run tends to: with both ends prescribed a straight line, but one that meets the prescribed values k/dx² / (rc/dt + k/dx²) steps outside the rod, so the limit depends on the time step and differs from the steady result of C142), C143_error (error against any smooth solution of the heat equation: elapsed time times (M2 dt/2 + k/rc M4 h²/12), plus h times the largest slope, the last term because of the value taken one step outside a prescribed end). Applied to the decaying sine with any number of intervals as a concrete case. Exact arithmetic; the linear solver is assumed to solve solvable systems.
* **C144** (Steady conduction with finite elements: a result with the least energy, and exact for linear temperatures): C144_least_energy (existence for every mesh and every set of prescribed values, also none; least energy; strict, hence uniqueness and independence of the solver, when anchored), C144_patch_tetrahedra, C144_patch_triangles (plane mesh, one orientation), C144_patch_beams (rod with any lengths). Applied to a rod of three uneven beams, a fan of four triangles and a star of four tetrahedra. Without convective edges (C115 covers those). Exact arithmetic; the linear solver is assumed to solve solvable systems.
* **C145** (Conduction in time with finite elements: stable for every step length, keeps heat, tends to the steady result, but overshoots): C145_step, C145_insulated (heat kept), C145_energy, C145_forgets (differences: squared integral never grows, energy falls like 1/n), C145_limit (every node approaches the steady temperature of C144 like powers of a ratio below one that does not depend on the initial values; contrast with the finite difference program, whose limit is not the steady result, C143_limit), C145_overshoot (what fails: a rod of one beam at 1 with one end set to 0 gets 3/(2 + 6 dt) at the other end, above 1 for dt < 1/6). Elements must be numbered 0, 1, ... and node ids lie below the number of nodes (C28_ddt_element_ids, C28_ddt_node_ids show what happens otherwise). Exact arithmetic; the linear solver is assumed to solve solvable systems.
* **C146** (Steady conduction with finite volumes finds the one balanced temperature field, within the prescribed values and exact on linear ones): C146_steady (existence, uniqueness), C146_bounds, C146_through, C146_linear (the faces of a cell all seen from outside or all from inside). Examples: three cubes in a row. The linear solver is a parameter: any that solves a system which has a solution.
* **C147** (Time steps of conduction with finite volumes store what flows in, stay within bounds, keep the heat of an insulated body and settle): Holds (when the sign of the program fits the orientation of the cells): C147_step_partial, C147_bounds, C147_insulated, C147_boundary_value, C147_forgets, C147_limit_partial. Fails: in a cell with a fixed face the old temperature is ignored and the fixed value taken instead (C147_boundary_cell), so heat there is lost every step and the limit is not the steady result (C147_not_steady). calculateVolume is negative for cells whose faces are seen counterclockwise from inside, as generateFaces makes them for the numbering of CMshBasicMesher; laplacian divides by it and changes sign: with - k laplacian(T) (heat1d) temperatures of such cells grow like (s/(s-k))^n instead of evening out (C147_wrong_sign, C147_numbering); only with + k laplacian(T) (fvmheat) do the results hold there.
* **C148** (Heat carried along a line with finite differences: one result per step, balance, centre moving with the flow, stability; but ends that never change and temperatures out of bounds): What fails is proved: the ends keep their initial values through any number of steps (C148_ends), since ddt and divergence leave their rows as T = old value and 0, and no condition is applied; and the bounds of the initial field are left after one step with any step length (C148_undershoot), as the central difference does.
* **C149** (Option prices with finite differences: one result, never negative, right where the share is worthless; but wrong at the ends of the line): What fails is proved: C149_bond (the generic divergence puts 1 on the diagonal of its end rows, so r*S*V appears there instead of r*S*dV/dS), C149_negative (one step on two nodes gives -99 for the right to sell at 300 what is worth 201), C149_outside (V.u(-1) is read for a share price below the line; no price is printed at or above its upper end).
* **C150** (The equation of Burgers with finite differences: one result, velocities within bounds; but a uniform flow is slowed down at the ends and a backward one sped up until there is no solution): What fails is proved: C150_uniform and C150_backward. The generic divergence puts 1 on the diagonal of its end rows, so u*u appears there instead of u*du/dx.
* **C151** (Heat convection along a line with finite elements: one result for every step and velocity on an even line, linear profiles carried exactly, balance; but the inlet is extrapolated, and uneven lines may have no result): What fails is proved: C151_inlet (no value is prescribed where the flow enters) and C151_uneven (a singular system on an uneven line).
* **C152** (Heat convection with finite volumes: one result for every step that is not too long, balance in every cell; but nothing leaves at the outlet, so heat piles up and a uniform temperature is not kept): What fails is proved: C152_conserved (nothing leaves), C152_uniform (exactly when a uniform temperature is kept) and C152_piles (the last cube).
* **C153** (Stresses of plates with finite elements: equilibrium, least energy, reciprocity, superposition, rigid motions and the patch test; an unbalanced load gets a result too): C153_unbalanced: an unbalanced load gets a result although no equilibrium exists. Solids (tetrahedra) have an asymmetric matrix (C116_solid_asymmetric), and triangles made with the constructor that takes a type have no thickness (C116_thickness).
* **C154** (Poisson's equation with finite elements: least potential; the source neglects the size of the elements, so refining the mesh makes the result diverge): The source operator adds the value once per corner of every element, without the measure of the element. C154_result_partial says what the program minimises on every mesh; C154_poisson_partial is the full property for meshes whose elements measure as many units as they have corners; C154_refinement shows that otherwise the result is wrong by the factor 2n/L on every rod and diverges as the mesh is refined. C154_energy: the sum the torsion example inverts is never positive for the source 2 it uses, whereas an angle of twist per torque is positive.
* **C155** (The penalty method converges to the exact treatment of prescribed values; for a given factor constants are not reproduced and refinement makes it worse): C155_converges is for every system, C155_heat for meshes; C155_constant gives the exact error on a rod for every factor, length and number of beams. Conditions on edges are not included in C155_heat (C155_converges applies to any system).
* **C156** (Heat conduction with particles at rest: bounds and approach to the steady state; heat is not conserved): Missing: conservation of heat and independence of the mass, which the code violates; C156_heat_created and C156_mass prove that.
* **C157** (Two meshes that fit together are joined without loss and without cracks): Unlike C08, no order of the node ids is assumed: meshes that fit cannot form the chains behind C08_dangling_reference.
* **C160** (The fluid in the lid-driven cavity is conserved up to what crosses the border, and mirror images of flows are flows; but marking the border as walls has no effect and the cavity leaks): Mass is not conserved although the border is marked as wall: C160_walls_ignored shows that the marks have no effect, C160_leaks gives a cavity that loses U^2/54 of its mass in two steps.
* **C161** (The programs for rods and plates give the exact rod, exact linear plates, plates within the prescribed temperatures, and rods that cool down): Over exact arithmetic, for any solver that solves solvable systems. The bounds are for rectangles only; the tolerance has to be at most the width of a cell (with more cells the loop prescribes more nodes).
* **C162** (Generated plates that are clamped along one side have a result under any load, and stretched plates deform exactly linearly): Over exact arithmetic, for any solver that solves solvable systems.
* **C163** (Generated blocks of tetrahedra conduct linear temperatures exactly, stay within the prescribed temperatures, and settle in time): Over exact arithmetic, for any solver that solves solvable systems. For hexahedra whose volume() is positive (in the sign convention of the code, see C31), as C144 requires, and with decomposition into tetrahedra; the bounds are for boxes only.
* **C164** (The temperatures in a generated block do not depend on the orientation of its corners): Over exact arithmetic, for any solver that solves solvable systems. Steady results: proved (C164_linear, C164_bounds). Time steps: the property fails; C164_time says for every number of steps what is computed instead, the temperatures for the conductivity multiplied by (6 V)², V the volume of a tetrahedron (FemTetrahedron_Imp.hpp:108-109 scales the gradients only if the volume is positive), and C164_time_wrong that these are other temperatures for every single cell of negative volume other than -1.

## What is not modelled

* Rounding, overflow, NaN: see above. Memory layout, copies and aliasing beyond what a function returns.
* The linear solvers of Eigen: where a solution is needed, the theorem takes a solver and assumes that what it returns solves the system, or makes no assumption at all.
* Boolean operations beyond the BSP tree, the loader post/PosQuickMesh (it does not compile when it is used: `sscanf` on a `std::string`),
  the three-dimensional CBS solver (cannot be instantiated), `CMshCheckMesh::checkIntersections` (does not compile when it is used: it calls the non-const `boundingBox(id)` on a const mesh), the fraction variant of `CGeoPolyhedron::cut` (reads an uninitialised normal), SWIG wrappers, tests and examples other than those cited in the model.
* `exprtk` expressions (AnaFunction): a function is an argument of the model.
* Caches are modelled where a user can see them go stale (C37, C56, C60), otherwise recomputed.

## Seeded faults

`seeded/LOG.jsonl` records the wrong programs tried: the definition edited in a scratch copy, the edit, the claim it breaks, the theorems that failed, and what was tightened when none did.

