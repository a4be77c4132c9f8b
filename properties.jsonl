{"id": "C01", "title": "Mesh lookup follows the edit history", "statement": "After any sequence of addNode/removeNode calls (and likewise for faces and elements) in which only present ids are removed, node(id) returns exactly the node most recently added under id and not removed since, throws for any other id, and nbNodes()/nodeId(i) enumerate exactly the live ids, each once, provided no call re-adds a live id.", "quantifier": "every finite edit history, every id, every node payload", "why_tests_cant": "A test replays one history; the claim must hold after every finite sequence of API calls.", "anchors": ["trunk/src/mesh/MshMesh_Imp.hpp: addNode, addFace, addElement, removeNode, removeFace, removeElement, node, face, element, nodeId, nbNodes"]}
{"id": "C02", "title": "Index and id accessors are mutually inverse", "statement": "For every mesh that was only grown by add* with fresh ids, or on which rebuildIndices()/renumber()/mergeNodes() ran last, nodeIndex(nodeId(i)) = i for every valid i and nodeId(nodeIndex(id)) = id for every live id (same for faces and elements).", "quantifier": "every edit history, every index and id", "why_tests_cant": "A test replays one history; the claim must hold after every finite sequence of API calls.", "anchors": ["trunk/src/mesh/MshMesh_Imp.hpp: nodeIndex, nodeId, rebuildIndices, addNode, removeNode"]}
{"id": "C03", "title": "nextNodeId is fresh", "statement": "nextNodeId()/nextFaceId()/nextElementId() never return an id that is live in the mesh, and adding under the returned id leaves every existing id's payload unchanged.", "quantifier": "every reachable mesh", "why_tests_cant": "A test replays one history; the claim must hold after every finite sequence of API calls.", "anchors": ["trunk/src/mesh/MshMesh_Imp.hpp: nextNodeId, nextFaceId, nextElementId"]}
{"id": "C04", "title": "addMesh inserts an isomorphic copy", "statement": "a.addMesh(b) for distinct meshes leaves every node and element of a unchanged, increases the counts by those of b, and the k-th new element has the same type and the same sequence of vertex coordinates as the k-th element of b.", "quantifier": "every pair of well-formed meshes", "why_tests_cant": "A test fixes one input; the claim ranges over infinitely many inputs of unbounded size.", "anchors": ["trunk/src/mesh/MshMesh_Imp.hpp: addMesh"]}
{"id": "C05", "title": "Generated element faces form a closed consistently oriented surface", "statement": "For a tetrahedron, prism or hexahedron with pairwise distinct node ids, every directed edge that occurs on a generated face occurs on exactly one face, and its reverse occurs on exactly one other face; triangles and quadrilaterals generate the closed cycle of their edges.", "quantifier": "every element type and every choice of distinct node ids", "why_tests_cant": "A test fixes one input; the claim ranges over infinitely many inputs of unbounded size.", "anchors": ["trunk/src/mesh/MshElement_Imp.hpp: generateFaces"]}
{"id": "C06", "title": "Element invert reverses orientation and is an involution", "statement": "invert() applied twice restores the node order, permutes the node ids of the element, and negates the signed measure of beams, triangles, quadrilaterals and tetrahedra.", "quantifier": "every element and every node coordinates", "why_tests_cant": "A test fixes one input; the claim ranges over infinitely many inputs of unbounded size.", "anchors": ["trunk/src/mesh/MshElement_Imp.hpp: invert", "trunk/src/mesh/MshMesh_Imp.hpp: invert"]}
{"id": "C07", "title": "generateFaces pairs coincident faces symmetrically", "statement": "After generateFaces(tol), tol >= 0, on a mesh in which no three element faces carry the same node set: face f has pair g iff f and g are different faces with the same type and the same node set, pairing is symmetric, and nbBoundaryFaces() is the number of faces without a pair.", "quantifier": "every mesh, every tolerance >= 0, every number of elements", "why_tests_cant": "A test fixes one input; the claim ranges over infinitely many inputs of unbounded size.", "anchors": ["trunk/src/mesh/MshMesh_Imp.hpp: generateFaces, nbBoundaryFaces", "trunk/src/geometry/GeoHashGrid_Imp.hpp: find"]}
{"id": "C08", "title": "mergeNodes leaves no dangling reference and no close pair", "statement": "After mergeNodes(tol) every node id referenced by an element or face is live, every two distinct live nodes are more than tol apart, each element vertex moved by at most tol, and no element has a repeated node id.", "quantifier": "every mesh, tolerance and node ordering", "why_tests_cant": "A test fixes one input; the claim ranges over infinitely many inputs of unbounded size.", "anchors": ["trunk/src/mesh/MshMesh_Imp.hpp: mergeNodes, removeInvalidElements"]}
{"id": "C09", "title": "removeInvalidElements removes exactly the degenerate elements", "statement": "After removeInvalidElements() the live elements are exactly those whose node ids are pairwise distinct, in the original order and unchanged.", "quantifier": "every mesh", "why_tests_cant": "A test fixes one input; the claim ranges over infinitely many inputs of unbounded size.", "anchors": ["trunk/src/mesh/MshMesh_Imp.hpp: removeInvalidElements"]}
{"id": "C10", "title": "mergeElements keeps one representative of coincident elements", "statement": "After mergeElements(tol) every element whose centroid had a coincident partner is still represented by one live element, and no two live elements have centroids within tol.", "quantifier": "every mesh and tolerance", "why_tests_cant": "A test fixes one input; the claim ranges over infinitely many inputs of unbounded size.", "anchors": ["trunk/src/mesh/MshMesh_Imp.hpp: mergeElements"]}
{"id": "C11", "title": "removeDanglingNodes removes exactly the unreferenced nodes", "statement": "After removeDanglingNodes() a node is live iff it was live and some face or element references it; payloads and relative order of survivors are unchanged.", "quantifier": "every mesh", "why_tests_cant": "A test fixes one input; the claim ranges over infinitely many inputs of unbounded size.", "anchors": ["trunk/src/mesh/MshMesh_Imp.hpp: removeDanglingNodes"]}
{"id": "C12", "title": "renumber yields contiguous ids and preserves the geometry", "statement": "After renumber() the node/face/element ids are 0..n-1 in the previous order, every element and face has the same vertex coordinates as before, and cross references between faces and elements still point to the corresponding objects.", "quantifier": "every well-formed mesh", "why_tests_cant": "A test fixes one input; the claim ranges over infinitely many inputs of unbounded size.", "anchors": ["trunk/src/mesh/MshMesh_Imp.hpp: renumber"]}
{"id": "C13", "title": "Hash grid search is exact", "statement": "After adding points and build(), find(ids, q, tol) with tol >= 0 returns exactly the ids of the points at Euclidean distance <= tol from q, each once.", "quantifier": "every multiset of points not all coincident, every query point and tolerance", "why_tests_cant": "A test fixes one input; the claim ranges over infinitely many inputs of unbounded size.", "anchors": ["trunk/src/geometry/GeoHashGrid_Imp.hpp: build, find"]}
{"id": "C14", "title": "Alternating digital tree search is exact", "statement": "After any sequence of inserts, find(ids, box) on the ADT returns exactly the ids inserted whose bounding boxes intersect the query box (up to the documented stack bound).", "quantifier": "every insertion sequence and every query box", "why_tests_cant": "A test replays one history; the claim must hold after every finite sequence of API calls.", "anchors": ["trunk/src/geometry/GeoAdtree_Imp.hpp: insert, getIntersecting, find"]}
{"id": "C15", "title": "R-tree search is exact", "statement": "After any sequence of addGeometricObject calls, find(ids, box) on the R-tree returns exactly the ids whose boxes intersect the query box.", "quantifier": "every insertion sequence and every query box", "why_tests_cant": "A test replays one history; the claim must hold after every finite sequence of API calls.", "anchors": ["trunk/src/geometry/GeoRtree_Imp.hpp: addGeometricObject, find", "trunk/dependencies/rtree/RTree.h: Insert, Search, SplitNode"]}
{"id": "C16", "title": "Octree search is sound and complete", "statement": "After build(), find(ids, q, tol) on the octree returns exactly the ids of the points within tol of q.", "quantifier": "every point set, query and tolerance", "why_tests_cant": "A test fixes one input; the claim ranges over infinitely many inputs of unbounded size.", "anchors": ["trunk/src/geometry/GeoOctree_Imp.hpp: build, find", "trunk/src/geometry/GeoOctreeNode_Imp.hpp: find"]}
{"id": "C17", "title": "Bounding box is the least box containing its points", "statement": "A box built from reset() by addCoordinate contains each added point and is contained in every box that does; intersects() is symmetric and, at tolerance 0, holds iff the two boxes share a point; contains(box) implies contains(point) for its points.", "quantifier": "every finite sequence of points, every pair of boxes", "why_tests_cant": "A test fixes one input; the claim ranges over infinitely many inputs of unbounded size.", "anchors": ["trunk/src/geometry/GeoBoundingBox_Imp.hpp: addCoordinate, contains, intersects, grow, shrink"]}
{"id": "C18", "title": "Linear system algebra matches equation algebra", "statement": "For systems A1 x = b1 and A2 x = b2, the residual of (s1 + s2), (s1 - s2), (c * s), (v * s) at any x is respectively the sum, difference, multiple and row-scaling of the residuals.", "quantifier": "every dimension, every matrices, vectors, scalars and x", "why_tests_cant": "A test fixes one input; the claim ranges over infinitely many inputs of unbounded size.", "anchors": ["trunk/src/sle/SleSystem_Imp.hpp: operator+, operator-, operator*"]}
{"id": "C19", "title": "Elimination of fixed degrees of freedom is exact", "statement": "After setElimination(field), x solves the reduced system iff the vector that equals x on the free dofs and the prescribed values on the fixed dofs satisfies every free row of the original system; solve() writes back exactly that vector.", "quantifier": "every system size, every set of fixed dofs and values", "why_tests_cant": "A test fixes one input; the claim ranges over infinitely many inputs of unbounded size.", "anchors": ["trunk/src/pde/PdeEquation_Imp.hpp: setElimination, solve"]}
{"id": "C20", "title": "Penalty imposes fixed values on the diagonal", "statement": "After setPenaltyFactor the row of a fixed dof reads penalty * x_i + sum_{j != i} a_ij x_j = penalty * value and every other row is unchanged; the deviation of x_i from the prescribed value is bounded by the off-diagonal row residual divided by penalty.", "quantifier": "every system, every set of fixed dofs, every penalty > 0", "why_tests_cant": "A test fixes one input; the claim ranges over infinitely many inputs of unbounded size.", "anchors": ["trunk/src/pde/PdeEquation_Imp.hpp: setPenaltyFactor"]}
{"id": "C21", "title": "Finite-difference Laplacian is consistent", "statement": "For every grid size n >= 2 and spacing dx != 0 the interior rows of the FDM laplacian applied to samples of a quadratic a+bx+cx^2 give exactly 2c, constants are annihilated by Neumann systems, and the matrix is symmetric.", "quantifier": "every grid size, spacing and quadratic", "why_tests_cant": "A test fixes one input; the claim ranges over infinitely many inputs of unbounded size.", "anchors": ["trunk/src/pde/fdm/generic/FdmGenericOperators_Imp.hpp: laplacian"]}
{"id": "C22", "title": "Finite-volume Laplacian conserves flux", "statement": "For every FVM mesh whose internal faces have two distinct cells, the volume-weighted sum over all cells of the laplacian rows applied to any field involves boundary faces only, the volume-weighted matrix is symmetric, and constants are annihilated by interior contributions.", "quantifier": "every FVM mesh, every field", "why_tests_cant": "A test fixes one input; the claim ranges over infinitely many inputs of unbounded size.", "anchors": ["trunk/src/pde/fvm/generic/FvmGenericOperators_Imp.hpp: laplacian"]}
{"id": "C23", "title": "FVM face sides are complementary", "statement": "For a face shared by cells a != b, controlVolumeId(a) = a, neighborId(a) = b, controlVolumeId(b) = b, neighborId(b) = a; for a boundary face the neighbour query is not answered with another cell.", "quantifier": "every face and every pair of cell ids", "why_tests_cant": "A test fixes one input; the claim ranges over infinitely many inputs of unbounded size.", "anchors": ["trunk/src/fvm/FvmFace_Imp.hpp: controlVolumeId, neighborId"]}
{"id": "C24", "title": "FVM mesh construction merges each face pair once", "statement": "CFvmMesh::set(mesh) on a mesh with symmetric pairing creates one FVM face per unpaired mesh face and one per pair, whose two sides are the elements owning the two mesh faces, and nbFaces = unpaired + pairs.", "quantifier": "every mesh with symmetric face pairing", "why_tests_cant": "A test fixes one input; the claim ranges over infinitely many inputs of unbounded size.", "anchors": ["trunk/src/fvm/FvmMesh_Imp.hpp: set"]}
{"id": "C25", "title": "FEM diffusion matrices are symmetric, annihilate constants and are definite", "statement": "The element laplacian of beam, triangle, tetrahedron and quadrilateral is symmetric, has zero row sums, and its quadratic form is <= 0 for positively oriented elements; on linear fields it reproduces the exact energy of the gradient.", "quantifier": "every non-degenerate element geometry and every nodal field", "why_tests_cant": "A test fixes one input; the claim ranges over infinitely many inputs of unbounded size.", "anchors": ["trunk/src/fem/FemBeam_Imp.hpp: setDiffusionTerm", "trunk/src/fem/FemTriangle_Imp.hpp: setDiffusionTerm, calculateB", "trunk/src/fem/FemTetrahedron_Imp.hpp: setDiffusionTerm", "trunk/src/fem/FemQuadrilateral_Imp.hpp: setDiffusionTerm"]}
{"id": "C26", "title": "FEM mass matrices conserve mass", "statement": "The element ddt matrix is symmetric, its entries sum to measure/dt, each row sums to an equal share for simplices, and its quadratic form is positive for non-zero nodal fields.", "quantifier": "every element geometry, every dt > 0 and nodal field", "why_tests_cant": "A test fixes one input; the claim ranges over infinitely many inputs of unbounded size.", "anchors": ["trunk/src/fem/FemBeam_Imp.hpp: setTransientTerm", "trunk/src/fem/FemTriangle_Imp.hpp: setTransientTerm", "trunk/src/fem/FemTetrahedron_Imp.hpp: setTransientTerm"]}
{"id": "C27", "title": "Structural stiffness is symmetric and free of rigid-body forces", "statement": "The constant-strain triangle and tetrahedron stiffness matrices are symmetric and map every translation and infinitesimal rotation to zero force.", "quantifier": "every element geometry, elastic modulus and Poisson coefficient", "why_tests_cant": "A test fixes one input; the claim ranges over infinitely many inputs of unbounded size.", "anchors": ["trunk/src/fem/structural/FemConstantStrainTriangle_Imp.hpp: setDiffusionTerm", "trunk/src/fem/structural/FemConstantStrainTetrahedron_Imp.hpp: setDiffusionTerm", "trunk/src/fem/FemTetrahedron_Imp.hpp: calculateB"]}
{"id": "C28", "title": "FEM assembly equals the sum of element contributions", "statement": "The assembled global matrix satisfies v^T A w = sum over elements of the element forms on the gathered nodal values, independent of element order, and is symmetric when all element matrices are; ddt and laplacian address the mesh by ids consistently.", "quantifier": "every mesh and every pair of nodal fields", "why_tests_cant": "A test fixes one input; the claim ranges over infinitely many inputs of unbounded size.", "anchors": ["trunk/src/pde/fem/generic/FemGenericOperators_Imp.hpp: laplacian, ddt"]}
{"id": "C29", "title": "Line mesher partitions the segment", "statement": "generate(line, nu) with nu > 0 yields nu+1 nodes, the first at the start and the last at the end point, nu beams joining consecutive nodes with ids 0..nu, all of equal length.", "quantifier": "every line and every nu > 0", "why_tests_cant": "A test fixes one input; the claim ranges over infinitely many inputs of unbounded size.", "anchors": ["trunk/src/mesh/MshBasicMesher_Imp.hpp: generate(line)"]}
{"id": "C30", "title": "Quadrilateral mesher produces a conforming tiling", "statement": "generate(quad, nu, nv, decimate) yields (nu+1)(nv+1) nodes and nu*nv quads (2*nu*nv triangles); all node ids are valid and distinct per element, every element has the same orientation, element areas sum to the parallelogram area, and each directed edge is used at most once.", "quantifier": "every parallelogram and every nu, nv > 0", "why_tests_cant": "A test fixes one input; the claim ranges over infinitely many inputs of unbounded size.", "anchors": ["trunk/src/mesh/MshBasicMesher_Imp.hpp: generate(quadrilateral)"]}
{"id": "C31", "title": "Hexahedron mesher produces a conforming tiling", "statement": "generate(hex, nu, nv, nw, decimate) yields (nu+1)(nv+1)(nw+1) nodes and nu*nv*nw hexahedra (six tetrahedra each); node ids are valid and distinct per element, all tetrahedra have the same orientation and volumes sum to the parallelepiped volume.", "quantifier": "every parallelepiped and every nu, nv, nw > 0", "why_tests_cant": "A test fixes one input; the claim ranges over infinitely many inputs of unbounded size.", "anchors": ["trunk/src/mesh/MshBasicMesher_Imp.hpp: generate(hexahedron)"]}
{"id": "C32", "title": "Bounding box mesher stays inside the box", "statement": "generate(box, size) creates only nodes inside the box and cubes of edge size, covering all of the box except a margin thinner than size per axis.", "quantifier": "every box and mesh size > 0", "why_tests_cant": "A test fixes one input; the claim ranges over infinitely many inputs of unbounded size.", "anchors": ["trunk/src/mesh/MshBasicMesher_Imp.hpp: generate(boundingBox)"]}
{"id": "C33", "title": "Extruded mesher creates one valid prism or hexahedron per surface element", "statement": "generate(surface, delta) adds one solid element per triangle/quadrilateral of the surface, whose bottom nodes have the coordinates of the surface element, whose top nodes are those displaced, with vertical edges joining each bottom node to its own displaced copy, and displaces the surface nodes.", "quantifier": "every surface mesh", "why_tests_cant": "A test fixes one input; the claim ranges over infinitely many inputs of unbounded size.", "anchors": ["trunk/src/mesh/MshExtrudedMesher_Imp.hpp: generate"]}
{"id": "C34", "title": "Node-to-element queries are exact", "statement": "elementsSharingNode(n) returns exactly the live elements whose node list contains n, each once; elementsSharingNodes(n1,n2) exactly those containing both.", "quantifier": "every mesh, every node ids, every element ordering", "why_tests_cant": "A test fixes one input; the claim ranges over infinitely many inputs of unbounded size.", "anchors": ["trunk/src/mesh/MshMeshQuery_Imp.hpp: CMshMeshQuery, elementsSharingNode, elementsSharingNodes"]}
{"id": "C35", "title": "checkOpen detects exactly open meshes", "statement": "checkOpen(mesh) is true iff some live element has a generated face without a pair.", "quantifier": "every mesh after generateFaces", "why_tests_cant": "A test fixes one input; the claim ranges over infinitely many inputs of unbounded size.", "anchors": ["trunk/src/mesh/MshCheckMesh_Imp.hpp: checkOpen"]}
{"id": "C36", "title": "Clipping a segment keeps exactly the part behind the plane", "statement": "line.clip(plane, 0) returns a segment whose points are exactly the points x of the line with n.x <= d, whenever the line has a point with n.x < d or crosses the plane; otherwise a zero-length segment is returned.", "quantifier": "every segment and plane", "why_tests_cant": "A test fixes one input; the claim ranges over infinitely many inputs of unbounded size.", "anchors": ["trunk/src/geometry/GeoLine_Imp.hpp: clip"]}
{"id": "C37", "title": "Polygon area is the shoelace area", "statement": "For a closed polyline v0..vn=v0 the area sum used by calculateArea equals the cyclic shoelace sum, is independent of the starting vertex and of translations, is negated by invert(), and is additive under splitting by a diagonal.", "quantifier": "every polygon with any number of vertices", "why_tests_cant": "A test fixes one input; the claim ranges over infinitely many inputs of unbounded size.", "anchors": ["trunk/src/geometry/GeoPolygon_Imp.hpp: calculateArea, invert"]}
{"id": "C38", "title": "Tetrahedron point location is exact", "statement": "For a tetrahedron with positive volume(), contains(p, tol >= 0) is true iff p is a convex combination of the four vertices.", "quantifier": "every tetrahedron of positive volume and every point", "why_tests_cant": "A test fixes one input; the claim ranges over infinitely many inputs of unbounded size.", "anchors": ["trunk/src/geometry/GeoTetrahedron_Imp.hpp: contains, calculateVolume"]}
{"id": "C39", "title": "Decomposition of hexahedra and quadrilaterals preserves measure", "statement": "decimate() of a parallelepiped yields six tetrahedra with volumes of equal sign that sum to the volume() of the hexahedron; decimate() of a quadrilateral yields two triangles whose vector areas sum to the vector area of the quadrilateral.", "quantifier": "every parallelepiped / quadrilateral", "why_tests_cant": "A test fixes one input; the claim ranges over infinitely many inputs of unbounded size.", "anchors": ["trunk/src/geometry/GeoHexahedron_Imp.hpp: decimate, calculateVolume", "trunk/src/geometry/GeoQuadrilateral_Imp.hpp: decimate"]}
{"id": "C40", "title": "Polygon triangulation preserves area", "statement": "triangulate() of a closed polygon with n >= 3 distinct corners terminates with exactly n-2 triangles whose vertices are polygon vertices and whose vector areas sum to the polygon's vector area.", "quantifier": "every polygon with any number of vertices", "why_tests_cant": "A test fixes one input; the claim ranges over infinitely many inputs of unbounded size.", "anchors": ["trunk/src/geometry/GeoPolygon_Imp.hpp: triangulate"]}
{"id": "C41", "title": "Closest point on a segment", "statement": "line.distance(p, q, d, 0) returns false only for a zero-length line, and otherwise q is the point of the segment closest to p.", "quantifier": "every segment, every point", "why_tests_cant": "A test fixes one input; the claim ranges over infinitely many inputs of unbounded size.", "anchors": ["trunk/src/geometry/GeoLine_Imp.hpp: distance"]}
{"id": "C42", "title": "Closest point on a triangle", "statement": "triangle.distance(p, q, d) returns the point of the triangle closest to p.", "quantifier": "every triangle and point", "why_tests_cant": "A test fixes one input; the claim ranges over infinitely many inputs of unbounded size.", "anchors": ["trunk/src/geometry/GeoTriangle_Imp.hpp: distance"]}
{"id": "C43", "title": "Circumsphere and circumcircle pass through their points", "statement": "The sphere built from four points with non-zero determinant is equidistant from them; the circle built from three non-collinear points of a plane z = const is equidistant from them.", "quantifier": "every four (three) points in general position", "why_tests_cant": "A test fixes one input; the claim ranges over infinitely many inputs of unbounded size.", "anchors": ["trunk/src/geometry/GeoSphere_Imp.hpp: CGeoSphere", "trunk/src/geometry/GeoCircle_Imp.hpp: CGeoCircle"]}
{"id": "C44", "title": "Convex hull encloses all points", "statement": "The hull computed from planar points uses only input points, starts at the lexicographically smallest one, and every input point lies on the inner side of every hull edge.", "quantifier": "every finite planar point set with at least three points", "why_tests_cant": "A test fixes one input; the claim ranges over infinitely many inputs of unbounded size.", "anchors": ["trunk/src/geometry/GeoConvexHull_Imp.hpp: set"]}
{"id": "C45", "title": "BSP split conserves area and separates", "statement": "splitPolygon of a polygon by a plane at tolerance 0 puts all vertices of the front piece on the non-negative side and of the back piece on the non-positive side, every new vertex lies on an original edge, and the vector areas of the pieces sum to that of the polygon.", "quantifier": "every planar polygon with any number of vertices and every plane", "why_tests_cant": "A test fixes one input; the claim ranges over infinitely many inputs of unbounded size.", "anchors": ["trunk/src/csg/CsgBspNode_Imp.hpp: splitPolygon"]}
{"id": "C46", "title": "BSP inversion is an involution and build loses no polygon", "statement": "invert() twice restores the BSP tree; allPolygons() after build() of polygons contains every input polygon or its pieces (no area lost); boolean operations do not modify their operands.", "quantifier": "every finite list of polygons", "why_tests_cant": "A test fixes one input; the claim ranges over infinitely many inputs of unbounded size.", "anchors": ["trunk/src/csg/CsgBspNode_Imp.hpp: invert, build, allPolygons", "trunk/src/csg/CsgBoolean_Imp.hpp: add, subtract, intersect"]}
{"id": "C47", "title": "Vertex list operations", "statement": "removeDuplicates() leaves no two equal consecutive vertices and only deletes repetitions; invert() reverses and is an involution; removeCollinear keeps the first and last vertices and never reads out of bounds.", "quantifier": "every vertex list of any length", "why_tests_cant": "A test fixes one input; the claim ranges over infinitely many inputs of unbounded size.", "anchors": ["trunk/src/geometry/GeoVertexList_Imp.hpp: removeDuplicates, invert, removeCollinear"]}
{"id": "C48", "title": "Lattice Boltzmann collision conserves mass and momentum", "statement": "For every density and velocity the nine equilibrium populations sum to the density and their first moment is density times velocity, so relaxation towards equilibrium conserves mass and momentum at every node for every relaxation time; bounce-back conserves mass and reverses momentum.", "quantifier": "every density, velocity, populations and tau != 0", "why_tests_cant": "A test fixes one input; the claim ranges over infinitely many inputs of unbounded size.", "anchors": ["trunk/src/solvers/LbmLidDrivenSolver_Imp.hpp: feq2, evolve"]}
{"id": "C49", "title": "SPH kernels have compact support and unit mass", "statement": "W(r,h) is non-negative, symmetric in r, zero for |r| > 2h, continuous at its break points, and integrates to one.", "quantifier": "every r and h > 0", "why_tests_cant": "A test fixes one input; the claim ranges over infinitely many inputs of unbounded size.", "anchors": ["trunk/src/sph/SphCubicSpline_Imp.hpp: W"]}
{"id": "C50", "title": "Gauss rules integrate constants", "statement": "For every supported number of integration points the weights sum to the measure of the reference element.", "quantifier": "every supported rule of every element type", "why_tests_cant": "A test fixes one input; the claim ranges over infinitely many inputs of unbounded size.", "anchors": ["trunk/src/integration/IntBeam_Imp.hpp: setGaussPoints", "trunk/src/integration/IntQuadrilateral_Imp.hpp: setGaussPoints", "trunk/src/integration/IntHexahedron_Imp.hpp: setGaussPoints"]}
{"id": "C51", "title": "Volume-fraction clipping brackets the root", "statement": "clip(plane, fraction) terminates within nMaxIterations, returns the empty polyhedron for fraction <= 0 and a copy for fraction >= 1, and reports in volumeFractionAct the volume ratio of the polyhedron it returns.", "quantifier": "every polyhedron, every volume function and fraction", "why_tests_cant": "A test fixes one input; the claim ranges over infinitely many inputs of unbounded size.", "anchors": ["trunk/src/geometry/GeoPolyhedron_Imp.hpp: clip(volumeFraction)"]}
{"id": "C52", "title": "Field bookkeeping", "statement": "setFixedValue/setSource on (node, dof) are read back for exactly that (node, dof) and do not disturb others; boundary-condition maps return the last value set.", "quantifier": "every history of settings, every node and dof", "why_tests_cant": "A test replays one history; the claim must hold after every finite sequence of API calls.", "anchors": ["trunk/src/pde/PdeField_Imp.hpp: setFixedValue, setSource, setBC", "trunk/src/pde/PdeBoundaryCondition_Imp.hpp: addCondition"]}
{"id": "C53", "title": "extractBoundary returns exactly the unmatched faces", "statement": "extractBoundary(tol), tol >= 0, returns a mesh with the same nodes under the same ids whose elements, numbered from 0, are exactly the faces that coincide with no other element face, with the same node order and the matching element type; there are nbBoundaryFaces() of them.", "quantifier": "every consistent mesh, every tolerance >= 0", "why_tests_cant": "A test fixes one input; the claim ranges over infinitely many inputs of unbounded size.", "anchors": ["trunk/src/mesh/MshMesh_Imp.hpp: extractBoundary"]}
{"id": "C54", "title": "Sources are added to their own rows", "statement": "setSources(field) adds each source value to the right-hand side of its own row, leaves every other right-hand side, the matrix and the size unchanged, for any set of sources.", "quantifier": "every system, every set of source indices and values", "why_tests_cant": "A test fixes one input; the claim ranges over infinitely many inputs of unbounded size.", "anchors": ["trunk/src/pde/PdeEquation_Imp.hpp: setSources"]}
{"id": "C55", "title": "Finite-difference time derivative and divergence", "statement": "The FDM ddt operator is the identity with the prescribed or current value on the right; interior divergence rows are exact derivatives of quadratics; the end rows give the one-sided difference with the prescribed value.", "quantifier": "every grid size, spacing, field and set of fixed nodes", "why_tests_cant": "A test fixes one input; the claim ranges over infinitely many inputs of unbounded size.", "anchors": ["trunk/src/pde/fdm/generic/FdmGenericOperators_Imp.hpp: ddt, divergence", "trunk/src/pde/fdm/thermal/FdmThermalOperators_Imp.hpp: divergence"]}
{"id": "C56", "title": "Segment and plane intersection", "statement": "line.intersects(plane, q, type, 0) for a plane with a unit normal reports an intersection exactly when the segment meets the plane, and q is then a point of both; invert() of a line swaps its ends and leaves its points, length and midpoint unchanged.", "quantifier": "every segment, every plane with unit normal", "why_tests_cant": "A test fixes one input; the claim ranges over infinitely many inputs of unbounded size.", "anchors": ["trunk/src/geometry/GeoLine_Imp.hpp: intersects(plane), invert"]}
{"id": "C57", "title": "Distance between two lines", "statement": "line.distance(other, p1, p2, d) returns a point of each carrier line and the distance between them; for non-parallel lines the connecting vector is perpendicular to the second line and p1 is a point of the segment.", "quantifier": "every pair of segments", "why_tests_cant": "A test fixes one input; the claim ranges over infinitely many inputs of unbounded size.", "anchors": ["trunk/src/geometry/GeoLine_Imp.hpp: distance(line)"]}
{"id": "C58", "title": "Triangle point location", "statement": "For a triangle of positive area and a positive tolerance, contains(p) is true for every point of the closed triangle; a point of the plane reported as contained is within the tolerance of a corner or has barycentric coordinates above -tol/(2 area); the reported type is vertex, edge or internal according to where the point is.", "quantifier": "every non-degenerate triangle, every point, every tolerance", "why_tests_cant": "A test fixes one input; the claim ranges over infinitely many inputs of unbounded size.", "anchors": ["trunk/src/geometry/GeoTriangle_Imp.hpp: contains"]}
{"id": "C59", "title": "CSG cube is its box", "statement": "CCsgCube::create(centre, half sides) yields six closed faces whose outward normals and areas are those of the box's sides; the BSP tree built from them has the closed box as its inside and the complement of the open box as its outside.", "quantifier": "every centre and all positive half sides", "why_tests_cant": "A test fixes one input; the claim ranges over infinitely many inputs of unbounded size.", "anchors": ["trunk/src/csg/CsgCube_Imp.hpp: create", "trunk/src/csg/CsgBspNode_Imp.hpp: build"]}
{"id": "C60", "title": "Polyhedron volume", "statement": "For a closed surface made of planar polygons (each edge used once in each direction), calculateVolume() yields the sum of the signed volumes of the pyramids over the faces from any apex; for tetrahedra, prisms and hexahedra with planar faces built by set() it is the volume of their decomposition into tetrahedra.", "quantifier": "all polyhedra with at least four planar faces and closed surface, all choices of apex", "why_tests_cant": "A test fixes one input; the claim ranges over infinitely many inputs of unbounded size.", "anchors": ["trunk/src/geometry/GeoPolyhedron_Imp.hpp: calculateVolume, set, addPolygon"]}
{"id": "C61", "title": "FEM flow terms are the convection and gradient integrals", "statement": "On a triangle or tetrahedron the convective matrix applied to the samples of a linear field yields, at each node, the integral of the node's shape function times the velocity dotted with the field's gradient (so constants are annihilated and the total over the nodes is the integral of u . grad f), and the gradient matrix gives the integral of the shape function times the derivative in the chosen direction.", "quantifier": "every element with positive measure, every nodal velocity field and every linear field", "why_tests_cant": "A test fixes one input; the claim ranges over infinitely many inputs of unbounded size.", "anchors": ["trunk/src/fem/flow/FemFlowTriangle_Imp.hpp: setConvectiveTerm, setGradientTerm", "trunk/src/fem/flow/FemFlowTetrahedron_Imp.hpp: setConvectiveTerm, setGradientTerm"]}
{"id": "C62", "title": "FEM prism and hexahedron matrices carry the element's volume", "statement": "For prisms and hexahedra whose vertices are in the order the meshes use, the diffusion matrix is symmetric, annihilates constants, is negative and gives on linear fields minus volume times the product of the gradients; the entries of ddt sum to volume/dt.", "quantifier": "every non-degenerate prism and hexahedron, every linear field, every dt > 0", "why_tests_cant": "A test fixes one input; the claim ranges over infinitely many inputs of unbounded size.", "anchors": ["trunk/src/fem/FemTriangularPrism_Imp.hpp: setDiffusionTerm, setTransientTerm", "trunk/src/fem/FemHexahedron_Imp.hpp: setDiffusionTerm, setTransientTerm", "trunk/src/integration/IntTriangularPrism_Imp.hpp: setGaussPoints", "trunk/src/integration/IntHexahedron_Imp.hpp: setGaussPoints"]}
{"id": "C63", "title": "FEM source adds the nodal source once per element corner", "statement": "source(field, a) on a consistent mesh of beams, triangles, quadrilaterals, tetrahedra and hexahedra yields a vector with one entry per node, equal to a times the number of element corners at that node, whatever the ids and the order of the elements.", "quantifier": "every consistent mesh and every source value", "why_tests_cant": "A test fixes one input; the claim ranges over infinitely many inputs of unbounded size.", "anchors": ["trunk/src/pde/fem/generic/FemGenericOperators_Imp.hpp: source"]}
{"id": "C64", "title": "SPH kernel derivatives agree with the kernel", "statement": "For each smoothing kernel, gradientW is antisymmetric in the offset, parallel to it and zero beyond the support, and is the gradient of W up to the sign convention; laplacianW is symmetric, zero beyond the support and built from the same kernel.", "quantifier": "every kernel, offset, dimension and smoothing length h > 0", "why_tests_cant": "A test fixes one input; the claim ranges over infinitely many inputs of unbounded size.", "anchors": ["trunk/src/sph/SphCubicSpline_Imp.hpp: gradientW, laplacianW", "trunk/src/sph/SphConvex_Imp.hpp", "trunk/src/sph/SphQuintic_Imp.hpp", "trunk/src/sph/SphSpiky_Imp.hpp", "trunk/src/sph/SphGaussian_Imp.hpp"]}
{"id": "C65", "title": "An SPH step moves particles by their velocity, keeps them in the box and respects the field", "statement": "Each step of the particle solver computes each density as the kernel sum over the neighbours, moves each particle by velocity times time step, with cyclic boundaries keeps every particle in the box and leaves particles at rest where they are, sets every prescribed value, keeps constant fields constant and, for a small enough step, creates no new extremum.", "quantifier": "every particle configuration, velocity, neighbour list, kernel, time step and field", "why_tests_cant": "A test replays one history; the claim must hold after every finite sequence of API calls.", "anchors": ["trunk/src/solvers/SphParticles_Imp.hpp: solve, calculateDensity, advectParticles, addDiffusion"]}
{"id": "C66", "title": "Finite-volume time derivative and divergence of a constant field", "statement": "On a mesh of cells, the system built by ddt stands for the change from the old value (the current field, or the value prescribed on a face of the cell), and the system built by divergence stands for the sum of the fluxes through the faces of each cell: the divergence of a constant field with that constant prescribed on the boundary is zero in every closed cell.", "quantifier": "every mesh, field, boundary conditions and vector of values for which the operator succeeds", "why_tests_cant": "A test fixes one input; the claim ranges over infinitely many inputs of unbounded size.", "anchors": ["trunk/src/pde/fvm/generic/FvmGenericOperators_Imp.hpp: ddt, divergence", "trunk/src/fvm/FvmControlVolume_Imp.hpp: faceArea, faceNormal, volume"]}
{"id": "C67", "title": "Cutting a polyhedron gives its two parts", "statement": "cut(newPolyhedron, newPolygon, id, plane) returns the part of the polyhedron on the negative side of the plane and stores the part on the positive side in newPolyhedron, so that the two volumes add up to the volume of the polyhedron.", "quantifier": "every polyhedron and every plane", "why_tests_cant": "A test fixes one input; the claim ranges over infinitely many inputs of unbounded size.", "anchors": ["trunk/src/geometry/GeoPolyhedron_Imp.hpp: cut(plane)"]}
{"id": "C68", "title": "Clipping a polygon keeps exactly the part below the plane", "statement": "polygon.clip(plane) with tolerance 0 returns a closed polyline in the half-space of the plane whose vertices lie on the boundary of the polygon, contains every vertex of the polygon strictly inside the half-space, and the vector areas of the clips by a plane and by its opposite add up to the vector area of the polygon.", "quantifier": "every planar closed polygon (convex or not, of any number of vertices) and every plane not parallel to it", "why_tests_cant": "A test fixes one input; the claim ranges over infinitely many inputs of unbounded size.", "anchors": ["trunk/src/geometry/GeoPolygon_Imp.hpp: clip", "trunk/src/geometry/GeoPolyline_Imp.hpp: clip, set, close", "trunk/src/geometry/GeoLine_Imp.hpp: clip"]}
{"id": "C69", "title": "Sorting the lines of a loop chains them", "statement": "CGeoLineList.sort(0) applied to the edges of a simple closed loop, in any order and with any orientation of the single lines, returns the same edges in an order and orientation in which every line starts where the previous one ends.", "quantifier": "every simple closed loop of any length and every order and orientation of its edges", "why_tests_cant": "A test fixes one input; the claim ranges over infinitely many inputs of unbounded size.", "anchors": ["trunk/src/geometry/GeoLineList_Imp.hpp: sort", "trunk/src/geometry/GeoPolyline_Imp.hpp: set"]}
{"id": "C70", "title": "Clipping a polyhedron leaves the volume below the plane", "statement": "When a closed polyhedron made of planar polygons is clipped by a plane, the new face closes the surface: the volume of the result is the volume of the part below the plane, and the volumes of the clips by a plane and by the same plane turned around add up to the volume of the polyhedron.", "quantifier": "every closed polyhedron with planar faces, every plane whose section is one simple loop", "why_tests_cant": "A test fixes one input; the claim ranges over infinitely many inputs of unbounded size.", "anchors": ["trunk/src/geometry/GeoPolyhedron_Imp.hpp: clip, close, calculateVolume", "trunk/src/geometry/GeoPolygon_Imp.hpp: clip, invert, calculateNormal", "trunk/src/geometry/GeoLineList_Imp.hpp: sort"]}
{"id": "C71", "title": "Bisection finds a root", "statement": "For a continuous function of one variable with values of opposite sign (or zero) at the two bounds, root and bisection return a point of the bracket; if they stop before the maximum number of iterations, a root of the function lies within the tolerance of the returned point, and the bracket is halved in every iteration, so the number of iterations needed is bounded by the logarithm of the initial width over the tolerance.", "quantifier": "every continuous function, every pair of bounds, tolerance and maximum number of iterations", "why_tests_cant": "A test fixes one input; the claim ranges over infinitely many inputs of unbounded size.", "anchors": ["trunk/src/analytical/AnaFunction_Imp.hpp: CAnaFunction::bisection (104-142), root (257-262)"]}
{"id": "C72", "title": "Brent's method keeps a bracket", "statement": "For a continuous function with values of strictly opposite sign at the two bounds, brent returns a point between the bounds; if it stops before the maximum number of iterations, a root lies within the tolerance of the returned point. With a root exactly at one bound it still returns a root.", "quantifier": "every continuous function, every pair of bounds, tolerance and maximum number of iterations", "why_tests_cant": "A test fixes one input; the claim ranges over infinitely many inputs of unbounded size.", "anchors": ["trunk/src/analytical/AnaFunction_Imp.hpp: CAnaFunction::brent (144-255)"]}
{"id": "C73", "title": "One PISO step balances the mass of every cell", "statement": "After one iterate() with an exact solution of the pressure equation, the face fluxes of every control volume whose boundary faces are walls, pressure inlets or flow inlets sum to zero, and checkMassConservation() reports zero for a domain with walls all around.", "quantifier": "every FVM mesh made by generateFaces and set, every state of the solver, every time step, every exact linear solver", "why_tests_cant": "A test replays one history; the claim must hold after every finite sequence of API calls.", "anchors": ["trunk/src/solvers/FvmPisoSolver_Imp.hpp: iterate, calculatePressureField, correctFlux, checkMassConservation"]}
{"id": "C74", "title": "Pressure gradients and the level of the pressure", "statement": "The gradient computed by the PISO solver vanishes for a constant field on every closed cell; the last step of iterate() moves all pressures by one constant so that they are non-negative with minimum zero, which changes no difference and no gradient; a prescribed boundary pressure keeps its value.", "quantifier": "every mesh, cell, pressure field and state of the solver", "why_tests_cant": "A test fixes one input; the claim ranges over infinitely many inputs of unbounded size.", "anchors": ["trunk/src/solvers/FvmPisoSolver_Imp.hpp: gradient, correctPressureField, setBoundaryPressure"]}
{"id": "C75", "title": "A fluid at rest stays at rest", "statement": "Without gravity, from zero velocity, pressure and flux and with zero boundary values, the PISO solver keeps everything zero after any number of iterate() calls; the H of a cell is the right-hand side of its momentum equation minus the entries of its row times the velocities of the neighbours.", "quantifier": "every mesh, geometry, material, choice of boundary types, sequence of time steps, linear solver mapping zero to zero", "why_tests_cant": "A test replays one history; the claim must hold after every finite sequence of API calls.", "anchors": ["trunk/src/solvers/FvmPisoSolver_Imp.hpp: iterate, calculateVelocityField"]}
{"id": "C76", "title": "The volume of a finite-volume mesh is the volume enclosed by its boundary", "statement": "For a finite-volume mesh set from a mesh whose faces were generated, with cells bounded by planar faces that fit together, volume() returns the signed volume enclosed by the faces that belong to one cell only: the contributions of the faces between cells cancel, whatever point the volumes are measured from.", "quantifier": "all meshes, of any number of cells of any shape, in which at most two element faces coincide; all points", "why_tests_cant": "A test fixes one input; the claim ranges over infinitely many inputs of unbounded size.", "anchors": ["trunk/src/fvm/FvmMesh_Imp.hpp: volume, set", "trunk/src/geometry/GeoPolyhedron_Imp.hpp: calculateVolume"]}
{"id": "C77", "title": "The momentum equation of a cell balances what flows through its faces", "statement": "The system that the PISO flow solver sets up for the velocity says of every cell of positive volume: rate of change of momentum, plus what convection and friction carry out of its faces, equals pressure gradient and gravity; what leaves one cell through a common face enters the other, so that over the whole mesh only the boundary counts; and a fluid that moves as a whole, at one pressure and with its boundary, keeps moving like that.", "quantifier": "all finite-volume meshes, geometries, states of the solver, velocities and components", "why_tests_cant": "A test replays one history; the claim must hold after every finite sequence of API calls.", "anchors": ["trunk/src/solvers/FvmPisoSolver_Imp.hpp: calculateVelocityField"]}
{"id": "C78", "title": "The phase fraction of two fluids stays between zero and one", "statement": "Whatever calls a user makes to the solver for two fluids, with cells filled by fractions between zero and one: the phase fraction of every cell stays between zero and one, the density and viscosity of every cell stay between those of the two fluids, and each step takes the last fractions from the balance of the second fluid with the fluxes of the flow step.", "quantifier": "all histories of calls, meshes, geometries, fluids, boundary values and results of the linear solvers", "why_tests_cant": "A test replays one history; the claim must hold after every finite sequence of API calls.", "anchors": ["trunk/src/solvers/FvmVofSolver_Imp.hpp: iterate, calculateGammaField, updateProperties, predictBeta, correctBeta, setInitialGamma, setMaterialProperties, s"]}
{"id": "C79", "title": "The volume of each of two fluids is conserved", "statement": "In a step of the solver for two fluids the second fluid that leaves a cell through a face enters the cell on the other side: its total volume changes by the flow through the boundary only, it stays the same in a closed vessel, and a vessel full of one fluid that the same fluid flows through stays full.", "quantifier": "all histories of calls, meshes, geometries, fluids and boundary values; linear solvers that solve exactly", "why_tests_cant": "A test replays one history; the claim must hold after every finite sequence of API calls.", "anchors": ["trunk/src/solvers/FvmVofSolver_Imp.hpp: calculateGammaField, iterate, setBoundaryGamma, s"]}
{"id": "C80", "title": "The temperature solver balances heat", "statement": "After a time step of the solver for flow and temperature, with the linear equations solved exactly, the heat of every cell changes by what is conducted and carried through its faces; what leaves a cell through a face to another cell enters that cell, so that the total heat changes only by what passes the boundary.", "quantifier": "every mesh, material, boundary condition, flow field and time step", "why_tests_cant": "A test fixes one input; the claim ranges over infinitely many inputs of unbounded size.", "anchors": ["trunk/src/solvers/FvmTemperatureSolver_Imp.hpp: calculateTemperatureField, iterate, setMaterialProperties"]}
{"id": "C81", "title": "Temperatures in a closed vessel stay between those of the fluid and the walls", "statement": "In a vessel with walls all around the temperatures after a time step lie between the lowest and the highest of the temperatures of the fluid before the step and of the walls, for every size of the time step.", "quantifier": "every mesh, material, wall temperature, flow field and time step", "why_tests_cant": "A test fixes one input; the claim ranges over infinitely many inputs of unbounded size.", "anchors": ["trunk/src/solvers/FvmTemperatureSolver_Imp.hpp: calculateTemperatureField, iterate, setBoundaryTemperature"]}
{"id": "C82", "title": "Element quality lies between zero and one and tells the best and the degenerate shapes", "statement": "For a triangle with sides longer than the tolerance, a quadrilateral, a tetrahedron or a prism, the quality CMshMesh::quality reports is a number from 0 to 1: 1 exactly for equilateral triangles, squares (flat parallelograms with equal perpendicular diagonals) and regular tetrahedra, 0 exactly for quadrilaterals with parallel diagonals and tetrahedra without volume; for a triangle it is twice the inradius over the circumradius, so it does not depend on the order of the vertices nor on the size. meshQuality gives the least, the greatest and the mean of them.", "quantifier": "all coordinates of the vertices in the reals, all meshes with any number of elements", "why_tests_cant": "A test fixes one input; the claim ranges over infinitely many inputs of unbounded size.", "anchors": ["trunk/src/mesh/MshTriangle_Imp.hpp: CMshTriangle::calculateQuality", "trunk/src/mesh/MshQuadrilateral_Imp.hpp: CMshQuadrilateral::calculateQuality", "trunk/src/mesh/MshTetrahedron_Imp.hpp: CMshTetrahedron::calculateQuality", "trunk/src/mesh/MshTriangularPrism_Imp.hpp: CMshTriangularPrism::calculateQuality", "trunk/src/mesh/MshMesh_Imp.hpp: CMshMesh::quality, CMshMesh::meshQuality"]}
{"id": "C83", "title": "A mesh saved to a Gmsh file and loaded again is the same mesh", "statement": "For every consistent mesh, saving with CPosGmsh::save and loading the file gives a mesh with the same nodes (up to the printed digits) and the same elements in the same order, every id replaced by its position; saving and loading again changes nothing. The field values are written beside the numbers of their nodes.", "quantifier": "all meshes with any number of nodes and elements, all ids, all fields, any rounding of the printed numbers", "why_tests_cant": "A test fixes one input; the claim ranges over infinitely many inputs of unbounded size.", "anchors": ["trunk/src/post/PosGmsh_Imp.hpp: CPosGmsh::save, CPosGmsh::load, CPosGmsh::findSection"]}
{"id": "C84", "title": "Two segments are reported to meet exactly where they meet", "statement": "For two segments that are not parallel, and tolerance zero, the intersection test of a line reports a point only if it lies on both segments, and it reports every common point, classified as a vertex exactly when it is an end of both. Exceptions: a common point at the start of the second segment that is not an end of the first is missed, and parallel segments that lie side by side within one degree are reported as crossing.", "quantifier": "all pairs of non-parallel segments in space with exact coordinates", "why_tests_cant": "A test fixes one input; the claim ranges over infinitely many inputs of unbounded size.", "anchors": ["trunk/src/geometry/GeoLine_Imp.hpp: CGeoLine::intersects(CGeoLine&), contains", "trunk/src/geometry/GeoVector_Imp.hpp: CGeoVector::angle"]}
{"id": "C85", "title": "The triangle mesher covers the region inside the boundary", "statement": "When CMshTriangleMesher::generate returns a mesh, the triangles tile the region that the boundary beams enclose: a point of the region lies in a triangle, off the sides it is inside an odd number of them (exactly one if triangles do not overlap), and a point outside the region inside an even number (none); sides that are not on the boundary are shared in pairs.", "quantifier": "all boundary meshes, interior points, mesh sizes and limits, with exact coordinates", "why_tests_cant": "A test fixes one input; the claim ranges over infinitely many inputs of unbounded size.", "anchors": ["trunk/src/mesh/MshTriangleMesher_Imp.hpp: generate, advancingFrontTriMeshing, addTriangle, cleanDuplicateEdges, adjustConnectivity"]}
{"id": "C86", "title": "The triangle mesher returns proper triangles", "statement": "Every element of a mesh that CMshTriangleMesher::generate returns is a triangle on three stored nodes, traversed counter-clockwise and with area greater than zero; nodes and elements are numbered from 0 and every node is used by a triangle.", "quantifier": "all boundary meshes, interior points, mesh sizes and limits, with exact coordinates", "why_tests_cant": "A test fixes one input; the claim ranges over infinitely many inputs of unbounded size.", "anchors": ["trunk/src/mesh/MshTriangleMesher_Imp.hpp: generate, advancingFrontTriMeshing", "trunk/src/mesh/MshMesh_Imp.hpp: removeDanglingNodes, renumber"]}
{"id": "C87", "title": "The triangle mesher keeps the boundary and adds nodes only inside its bounding box", "statement": "Every beam of the boundary (that is not listed an even number of times) is a side of a triangle of the mesh; every node of the mesh is a node of the boundary, a given interior point, or lies within the bounding box of the boundary up to the tolerance.", "quantifier": "all boundary meshes, interior points, mesh sizes and limits, with exact coordinates", "why_tests_cant": "A test fixes one input; the claim ranges over infinitely many inputs of unbounded size.", "anchors": ["trunk/src/mesh/MshTriangleMesher_Imp.hpp: generate, advancingFrontTriMeshing"]}
{"id": "C88", "title": "The triangle mesher stops", "statement": "With a positive limit on the number of elements, generate ends after a number of steps bounded by the numbers of beams and of elements allowed, and never returns more elements than the limit.", "quantifier": "all boundary meshes, interior points, mesh sizes and limits", "why_tests_cant": "A test fixes one input; the claim ranges over infinitely many inputs of unbounded size.", "anchors": ["trunk/src/mesh/MshTriangleMesher_Imp.hpp: generate, advancingFrontTriMeshing, addTriangle"]}
{"id": "C89", "title": "The triangle mesher refuses open boundaries and depends on nothing else", "statement": "If generate returns, every boundary beam had both ends paired with another beam. The result depends on the beams and the arguments only: a mesher that was used before, or a boundary mesh that also holds other elements, gives the same result. (The second part is false: two counterexamples.)", "quantifier": "all boundary meshes and all histories of calls", "why_tests_cant": "A test replays one history; the claim must hold after every finite sequence of API calls.", "anchors": ["trunk/src/mesh/MshTriangleMesher_Imp.hpp: generate"]}
{"id": "C90", "title": "Flipping edges keeps a triangulation of the same region and makes no triangle worse", "statement": "On every plane triangulation (triangles counter-clockwise, no point inside two) with up-to-date faces, flipEdges is defined, moves no node, keeps the element ids and returns a plane triangulation with up-to-date faces: it covers the same points (off the sides), has the same area and the same boundary sides, and its worst triangle is not worse than the worst before. generateFaces gives every plane triangulation up-to-date faces.", "quantifier": "all plane triangulations, tolerances >= 0 and measures of quality that do not depend on the starting corner", "why_tests_cant": "A test fixes one input; the claim ranges over infinitely many inputs of unbounded size.", "anchors": ["trunk/src/mesh/MshTriangleMesher_Imp.hpp: flipEdges", "trunk/src/mesh/MshMesh_Imp.hpp: generateFaces"]}
{"id": "C91", "title": "Relaxing nodes keeps a triangulation of the same region and improves it", "statement": "On every plane triangulation with up-to-date faces, relaxNodes is defined, changes positions of nodes only, does not move the nodes of the boundary and returns a plane triangulation that covers the same points (off the sides) with the same area. Either no node moves or the sum of the qualities of the triangles increases, and no node leaves a half-space that contained all the nodes.", "quantifier": "all plane triangulations, tolerances >= 0 and measures of quality", "why_tests_cant": "A test fixes one input; the claim ranges over infinitely many inputs of unbounded size.", "anchors": ["trunk/src/mesh/MshTriangleMesher_Imp.hpp: relaxNodes"]}
{"id": "C92", "title": "Remeshing a surface splits its long sides and keeps the region", "statement": "For every triangulation of a plane region with its faces in order, and for every mesh size, remesh ends after at most two rounds per triangle. The result is again a triangulation with its faces in order, covers the same region with the same area and the same boundary sides, keeps every node, and has at most twice as many triangles. Each new node is the midpoint of a side between two triangles that is longer than one and a half times the mesh size. A triangle without such a side is left alone, and of the two triangles at such a side at least one is split.", "quantifier": "every triangulation, every symmetric length, every mesh size, tolerance and hash-grid machine", "why_tests_cant": "A test fixes one input; the claim ranges over infinitely many inputs of unbounded size.", "anchors": ["trunk/src/mesh/MshTriangleMesher_Imp.hpp: CMshTriangleMesher::remesh"]}
{"id": "C93", "title": "Remeshing an edge mesh cuts every beam into equal parts", "statement": "For every mesh of beams and every positive mesh size, remesh ends. A beam of length L becomes max(1, round(L / size)) equal parts, joined by new nodes from its first to its last node; these parts are exactly the beams of the result. Old nodes keep their ids and places. Parts of beams at least half as long as the mesh size have a length between one half and three halves of it.", "quantifier": "every mesh of beams with two different ends, every homogeneous positive length, every positive mesh size", "why_tests_cant": "A test fixes one input; the claim ranges over infinitely many inputs of unbounded size.", "anchors": ["trunk/src/mesh/MshTriangleMesher_Imp.hpp: CMshTriangleMesher::remesh"]}
{"id": "C94", "title": "Collapsing short sides keeps the mesh valid", "statement": "CMshTriangleMesher::collapseEdges removes short sides that end inside a mesh of triangles. The result is a consistent mesh of triangles with three different nodes each, no two nodes within the tolerance, no more elements than before, nodes only at places of old nodes, a node within the tolerance of every old boundary node, and the triangles still cover the same region, traversed the same way, without overlap. If no side is short, the triangles stay.", "quantifier": "all consistent meshes of triangles with node ids in ascending order and all collapse sizes and tolerances", "why_tests_cant": "A test fixes one input; the claim ranges over infinitely many inputs of unbounded size.", "anchors": ["trunk/src/mesh/MshTriangleMesher_Imp.hpp: CMshTriangleMesher::collapseEdges"]}
{"id": "C95", "title": "Fixed edges lose their pairs and nothing else changes", "statement": "CMshTriangleMesher::applyFixedBoundary marks as unpaired exactly the faces of the surface mesh whose centre is within the tolerance of the centre of an element of the edge mesh; all other faces keep their marks, and nodes, elements and all other data of the faces stay.", "quantifier": "all consistent surface and edge meshes and all tolerances", "why_tests_cant": "A test fixes one input; the claim ranges over infinitely many inputs of unbounded size.", "anchors": ["trunk/src/mesh/MshTriangleMesher_Imp.hpp: CMshTriangleMesher::applyFixedBoundary"]}
{"id": "C96", "title": "A surface set from a mesh, joined with another one, or measured", "statement": "After set(mesh) a surface has one facet per triangle of the mesh, in the order of the mesh and under the triangle's id, whose vertices are the positions of the triangle's nodes. add(other) keeps every facet and appends a copy of each facet of the other surface, in order, under new ids. After calculateStatistics the stored bounds are the least box that contains every vertex.", "quantifier": "every mesh, every pair of surfaces, every number of facets", "why_tests_cant": "A test fixes one input; the claim ranges over infinitely many inputs of unbounded size.", "anchors": ["trunk/src/stl/StlUtils_Imp.hpp: set, add, calculateStatistics", "trunk/src/stl/StlFile_Imp.hpp: addFacet, nextFacetId"]}
{"id": "C97", "title": "Cleaning a surface removes the right facets", "statement": "removeInvalidFacets removes exactly the facets that have two corners closer than the tolerance or no edge with a neighbour; the others stay in order, unchanged. removeDuplicateFacets keeps every facet when no two centroids lie within the tolerance, and leaves one of each set of duplicates.", "quantifier": "every surface and tolerance", "why_tests_cant": "A test fixes one input; the claim ranges over infinitely many inputs of unbounded size.", "anchors": ["trunk/src/stl/StlUtils_Imp.hpp: removeInvalidFacets, removeDuplicateFacets"]}
{"id": "C98", "title": "A surface saved in binary form loads with the same facets", "statement": "saveBinary followed by load gives the same facets in the same order, numbered from 0, with the coordinates and normals that a float holds and the same extra bytes.", "quantifier": "every surface", "why_tests_cant": "A test fixes one input; the claim ranges over infinitely many inputs of unbounded size.", "anchors": ["trunk/src/stl/StlUtils_Imp.hpp: saveBinary, load, writeFloat, getFloat"]}
{"id": "C99", "title": "A surface saved as text loads with the same facets", "statement": "saveAscii followed by load gives the same facets in the same order, numbered from 0, with the coordinates and normals that eight digits hold.", "quantifier": "every surface", "why_tests_cant": "A test fixes one input; the claim ranges over infinitely many inputs of unbounded size.", "anchors": ["trunk/src/stl/StlUtils_Imp.hpp: saveAscii, load"]}
{"id": "C100", "title": "Neighbours of STL facets", "statement": "generateConnectivity keeps the facets, their vertices and normals. Each edge gets as neighbour a facet that has another edge with its middle within the tolerance, and the vertex of that facet off that edge; an edge has no neighbour exactly when there is no such edge. On a surface where edges with close middles are the same edge in opposite directions and no three are close, neighbours are mutual and meet along equal edges in opposite directions.", "quantifier": "all files of triangular facets with non-negative ids whose edge middles can be put in a hash grid, all tolerances", "why_tests_cant": "A test fixes one input; the claim ranges over infinitely many inputs of unbounded size.", "anchors": ["trunk/src/stl/StlUtils_Imp.hpp: CStlUtils::generateConnectivity"]}
{"id": "C101", "title": "Mesh of an STL surface", "statement": "When neighbours meet along equal edges in opposite directions, mesh() gives a well formed mesh with one triangle per facet, in order and under the same id, whose nodes lie at the facet's vertices. When neighbours are mutual, facets are not degenerate and at most 99 facets meet in a fan, two corners share a node exactly when a chain of neighbours around the vertex links them.", "quantifier": "all files of triangular facets with consistent connectivity, of any size", "why_tests_cant": "A test fixes one input; the claim ranges over infinitely many inputs of unbounded size.", "anchors": ["trunk/src/stl/StlUtils_Imp.hpp: CStlUtils::mesh"]}
{"id": "C102", "title": "The analytical temperatures solve the heat equation", "statement": "Every reference solution offered by CAnaTemperature (except the radiation one) satisfies its differential equation exactly at every point: the steady profiles are harmonic, the beam with convection satisfies k A T'' = h P (T - Tinf) with the given temperatures at its two ends, and the transients satisfy T_t = alpha Laplace(T); all take the documented values on the sides given as zero or insulated, and start close to the documented initial temperature at the centre.", "quantifier": "all points, all times, all diffusivities, and all positive film coefficients, conductivities, perimeters, areas and non-zero lengths", "why_tests_cant": "A test fixes one input; the claim ranges over infinitely many inputs of unbounded size.", "anchors": ["trunk/src/analytical/AnaTemperature_Imp.hpp: CAnaTemperature::steadyStateHeatConduction1D, steadyStateHeatConduction2D, steadyStateHeatConduction3D, transientHeatConduction1D, transientHeatConduction2D, transientHeatConduction3D"]}
{"id": "C103", "title": "The analytical flow solves the viscous Burgers equation", "statement": "As the step dx tends to zero, the velocity computed by viscousBurgersEquation tends at every point and time to a function that satisfies u_t + u u_x = mu u_xx exactly.", "quantifier": "all positions, all non-negative times, all lengths L and all positive viscosities", "why_tests_cant": "A test fixes one input; the claim ranges over infinitely many inputs of unbounded size.", "anchors": ["trunk/src/analytical/AnaFlow_Imp.hpp: CAnaFlow::phi, viscousBurgersEquation"]}
{"id": "C104", "title": "Flipping faces of a tetrahedral mesh keeps the region, its boundary and the worst quality", "statement": "Let a mesh consist of tetrahedra of positive volume such that no point is inside two of them, with faces as generateFaces gives them. Then CMshTetrahedronMesher::flipEdges23 with a tolerance >= 0 ends without an exception; it moves no node and removes no element; afterwards all volumes are positive, no point is inside two tetrahedra and the faces are up to date. Every point of space is in a tetrahedron after the call iff it was before, the sum of the volumes is the same, the triangles with a tetrahedron on one side only are the same, and no tetrahedron is worse than the worst before.", "quantifier": "every mesh of tetrahedra that fills a region, every tolerance >= 0, every point, every triangle, every measure of quality that does not depend on the order of the corners (that of the code is one)", "why_tests_cant": "A test fixes one input; the claim ranges over infinitely many inputs of unbounded size.", "anchors": ["trunk/src/mesh/MshTetrahedronMesher_Imp.hpp: CMshTetrahedronMesher::flipEdges23", "trunk/src/mesh/MshMesh_Imp.hpp: CMshMesh::generateFaces", "trunk/src/mesh/MshTetrahedron_Imp.hpp: CMshTetrahedron::calculateQuality"]}
{"id": "C105", "title": "Moving nodes of a tetrahedral mesh keeps the region, its boundary and the worst quality", "statement": "Let a mesh consist of tetrahedra of positive volume such that no point is inside two of them, with faces as generateFaces gives them. Then CMshTetrahedronMesher::relaxNodes with a tolerance > 0 and any factor ends without an exception and changes positions of nodes only. Nodes of the boundary do not move, all volumes stay positive, no point is inside two tetrahedra, every point of space is in a tetrahedron after the call iff it was before, the sum of the volumes is the same, the triangles with a tetrahedron on one side only are the same, and no tetrahedron is worse than the worst before.", "quantifier": "every mesh of tetrahedra that fills a region, every tolerance > 0, every factor, every point, every triangle, every measure of quality that is at most one", "why_tests_cant": "A test fixes one input; the claim ranges over infinitely many inputs of unbounded size.", "anchors": ["trunk/src/mesh/MshTetrahedronMesher_Imp.hpp: CMshTetrahedronMesher::relaxNodes"]}
{"id": "C106", "title": "Smoothing a tetrahedral mesh does not depend on where the mesh lies", "statement": "Moving or turning the whole mesh and then calling CMshTetrahedronMesher::relaxNodes gives the same as calling it first and moving or turning the result, because a node is moved towards the mean of the centres of the tetrahedra around it, weighted by their volumes.", "quantifier": "every mesh, every factor, every rigid motion", "why_tests_cant": "A test fixes one input; the claim ranges over infinitely many inputs of unbounded size.", "anchors": ["trunk/src/mesh/MshTetrahedronMesher_Imp.hpp: CMshTetrahedronMesher::relaxNodes"]}
{"id": "C107", "title": "Replacing three tetrahedra around an edge by two (flipEdges32) keeps the region", "statement": "On a mesh of tetrahedra of positive volume that do not overlap, with up-to-date faces, CMshTetrahedronMesher::flipEdges32 is defined, moves no node, and gives a mesh of tetrahedra of positive volume that do not overlap; it fills exactly the same points with the same total volume, has the same boundary, up-to-date faces, and no tetrahedron worse than the worst before. This holds if no tetrahedron at an edge that can be removed has a second inner edge in three tetrahedra; otherwise it fails: the call can leave holes or overlapping tetrahedra, because tetrahedra that an earlier flip has already changed are changed again.", "quantifier": "all meshes of tetrahedra (any number, any positions in an ordered field) with isolated edges, all tolerances >= 0, all measures of quality; two counterexamples without isolation", "why_tests_cant": "A test fixes one input; the claim ranges over infinitely many inputs of unbounded size.", "anchors": ["trunk/src/mesh/MshTetrahedronMesher_Imp.hpp: CMshTetrahedronMesher::flipEdges32", "trunk/src/mesh/MshMeshQuery_Imp.hpp: elementsSharingNodes"]}
{"id": "C108", "title": "Orienting an STL surface from a pivot facet makes neighbours run against each other", "statement": "After setOrientation(pivot, tolerance) on a surface with connectivity whose facets can be oriented consistently, every facet that can be reached from the pivot through neighbours runs in the opposite direction to its neighbour along their common edge. The call returns for every such surface. The pivot itself and facets that cannot be reached keep their corners in order, every other facet is either unchanged or has two corners exchanged, and the neighbour relation is kept in order.", "quantifier": "all surfaces of three-cornered facets with mutual neighbours (open or closed, connected or not, any ids), all norms and tolerances below the shortest edge, all pivots", "why_tests_cant": "A test fixes one input; the claim ranges over infinitely many inputs of unbounded size.", "anchors": ["trunk/src/stl/StlUtils_Imp.hpp: CStlUtils::setOrientation(pivot), invertFacet", "trunk/src/stl/StlFile_Imp.hpp: CStlEdge", "trunk/src/geometry/GeoVertexList_Imp.hpp: setVertex, vertex"]}
{"id": "C109", "title": "Orienting an STL surface outwards keeps its facets", "statement": "setOrientation(pointOut, tolerance) only turns facets. This is FALSE: the loop that counts intersections assigns through a reference to the first facet, so for two or more facets, whenever the call returns, the first facet has the corners of the last one and the surface has lost a facet. The argument pointOut is not used.", "quantifier": "all surfaces of two or more three-cornered facets, all outcomes of the intersection tests, all norms and tolerances", "why_tests_cant": "A test fixes one input; the claim ranges over infinitely many inputs of unbounded size.", "anchors": ["trunk/src/stl/StlUtils_Imp.hpp: CStlUtils::setOrientation(bPointOut)"]}
{"id": "C110", "title": "Splitting the facets of an STL surface keeps the surface", "statement": "splitFacets(size, quality) on a surface whose facets have ids equal to their positions, mutual neighbours and a consistent orientation never fails, and after any number of rounds leaves such a surface again. It covers the same region: every quantity that adds up when triangles are cut (area, enclosed volume, sum of the normals, ...) has the same sum, every new facet lies in the convex hull of an old one, every old corner is still there, and the rim consists of the same edges. With a positive least quality and a size that is not tiny the loop ends. With ids that are not positions the neighbours are wrong after one round, and a complete call can leave good facets with edges longer than the size, because each facet is visited once.", "quantifier": "all sound surfaces of any number of facets (open or closed), all measures of length and quality, all sizes and least qualities, any number of rounds; for termination the measures of the code over the real numbers", "why_tests_cant": "A test replays one history; the claim must hold after every finite sequence of API calls.", "anchors": ["trunk/src/stl/StlUtils_Imp.hpp: CStlUtils::splitFacets, getFacetQuality", "trunk/src/geometry/GeoVector_Imp.hpp: CGeoVector::angle"]}
{"id": "C111", "title": "Relaxing the vertices of an STL surface keeps the surface together", "statement": "relaxVertices() on a surface whose facets have ids equal to their positions, mutual neighbours, a consistent orientation and no facet that meets a vertex twice never fails. Facets and neighbours stay, neighbouring facets still share their edges, vertices on the rim or at which a marked outline edge starts stay where they are, every vertex ends in the convex hull of the old ones, and every quantity that depends on the rim only (the sum of the area vectors) is kept. Each step moves a whole vertex (all corners of facets there, and nothing else) to the mean of its neighbours, or nothing at all. If the facets are stored in another order than their ids, a closed surface can be torn.", "quantifier": "all sound surfaces of any number of facets, open or closed, all outline marks, and all outcomes of the test of the normals", "why_tests_cant": "A test replays one history; the claim must hold after every finite sequence of API calls.", "anchors": ["trunk/src/stl/StlUtils_Imp.hpp: CStlUtils::relaxVertices"]}
{"id": "C112", "title": "Collapsing the short edges of an STL surface keeps the surface together", "statement": "collapseEdges(quality, angle) on a surface as in C111 never fails, keeps the facets, their neighbours and the fit of neighbouring edges, keeps the vertices of the rim, makes no new vertices, and keeps every quantity that depends on the rim only. Each step leaves the surface alone, or takes a facet of at most the given quality and moves all corners at the end of its shortest edge to the start of it, so that this facet and its neighbour become flat; flat facets stay in the file.", "quantifier": "all sound surfaces of any number of facets, open or closed, all measures of length and quality, all least qualities, and all outcomes of the test of the normals", "why_tests_cant": "A test replays one history; the claim must hold after every finite sequence of API calls.", "anchors": ["trunk/src/stl/StlUtils_Imp.hpp: CStlUtils::collapseEdges, getFacetQuality"]}
{"id": "C113", "title": "Flipping the edges of an STL surface exchanges disjoint pairs of facets", "statement": "flipEdges(angle) on facets with mutual neighbours and a consistent orientation never fails. The result is the surface with some edges flipped: no facet takes part in two flips, each flipped edge a-b between a-b-c and b-a-d gives the facets a-d-c and b-c-d, the worse of the two new facets is better than the worse of the two old ones, all other facets stay. An edge that would gain is left only if one of its facets has been changed. Every quantity that depends on the rim only is kept, and the worst quality does not drop. But the tests of area and normals compare values kept from before the flip with themselves: a flat kite with a dent is flipped into facets that overlap, and the neighbours recorded are not brought up to date, so that the surface is no longer glued along common edges.", "quantifier": "all surfaces of any number of facets with any ids, all measures of quality that do not depend on where a facet starts, all kept normals and areas, all angles; the overlap for the measures of the code over the real numbers and any positive angle", "why_tests_cant": "A test replays one history; the claim must hold after every finite sequence of API calls.", "anchors": ["trunk/src/stl/StlUtils_Imp.hpp: CStlUtils::flipEdges, getFacetQuality", "trunk/src/geometry/GeoTriangle_Imp.hpp: CGeoTriangle::calculateNormal, calculateArea", "trunk/src/geometry/GeoVertexList_Imp.hpp: CGeoVertexList::insertVertex"]}
{"id": "C114", "title": "The marks of edges are right, and relaxing respects them", "statement": "checkEdges(angle) on facets with mutual neighbours and a consistent orientation never fails and changes nothing but marks: an edge is naked exactly when it has no neighbour, and outline exactly when the normals of its two facets differ by more than the angle; both sides of an edge agree. relaxVertices() afterwards keeps both ends of every naked edge and of every outline edge where they are, for all facets that meet there.", "quantifier": "all such surfaces of any number of facets, all kept normals, all angles, and all outcomes of the test of the normals in relaxVertices", "why_tests_cant": "A test fixes one input; the claim ranges over infinitely many inputs of unbounded size.", "anchors": ["trunk/src/stl/StlUtils_Imp.hpp: CStlUtils::checkEdges, relaxVertices"]}
{"id": "C115", "title": "Thermal finite elements impose convective edges as a Robin condition", "statement": "For a thermal field discretised with finite elements, the laplacian of a mesh with convective conditions on its edges is the discrete Robin problem: the diffusion form equals the sum over the convective edges of h times the integral of the test function times (T - Tinf), so that heat flows from the body to colder surroundings; the matrix is symmetric, the exchanged heat is balanced, and without conditions the operator is the generic laplacian.", "quantifier": "all consistent meshes with any ids and non-degenerate elements, all sets of boundary conditions on elements, all temperatures and test functions", "why_tests_cant": "A test fixes one input; the claim ranges over infinitely many inputs of unbounded size.", "anchors": ["trunk/src/pde/fem/thermal/FemThermalOperators_Imp.hpp: ddt, laplacian, divergence, source", "trunk/src/fem/thermal/FemLinearTemperatureBeam_Imp.hpp: setConvectionOnEdge", "trunk/src/fem/thermal/FemLinearTemperatureTriangle_Imp.hpp: setConvectionOnEdge, setDiffusionTerm", "trunk/src/fem/thermal/FemThermalElement_Imp.hpp: CFemThermalElement"]}
{"id": "C116", "title": "Structural finite elements assemble the elastic energy of the displacement", "statement": "For a displacement field discretised with finite elements, the assembled system has one row per node and degree of freedom and its form is the virtual work of linear elasticity: plane stress with the element's thickness on triangles, isotropic elasticity on tetrahedra. The matrix is symmetric, rigid motions need no force, and the energy is non-negative and vanishes only when no element is strained.", "quantifier": "all consistent meshes with any ids, all materials and thicknesses, all displacement fields", "why_tests_cant": "A test fixes one input; the claim ranges over infinitely many inputs of unbounded size.", "anchors": ["trunk/src/pde/fem/structural/FemStructuralOperators_Imp.hpp: ddt, laplacian, divergence, source", "trunk/src/fem/structural/FemConstantStrainTriangle_Imp.hpp: setDiffusionTerm", "trunk/src/fem/structural/FemConstantStrainTetrahedron_Imp.hpp: setDiffusionTerm", "trunk/src/mesh/MshElement_Imp.hpp: CMshElement, thickness, setThickness"]}
{"id": "C117", "title": "Flow finite element operators assemble the weak form of momentum and continuity", "statement": "For a flow field discretised with finite elements, the operators yield the matrices of the weak form: ddt the mass integral with the matrix times the field on the right, laplacian minus the integral of the product of the gradients times the thickness, divergence the convection by the given velocities with a streamline stabilisation scaled with the time step, gradient the integral of the test function times a partial derivative. Constants are in the kernel of divergence and gradient, and no matrix depends on the ids or the orientation of the elements.", "quantifier": "all consistent meshes with any ids, all fields and velocities, all time steps, all thicknesses", "why_tests_cant": "A test fixes one input; the claim ranges over infinitely many inputs of unbounded size.", "anchors": ["trunk/src/pde/fem/flow/FemFlowOperators_Imp.hpp: ddt, laplacian, divergence, gradient, source", "trunk/src/fem/flow/FemFlowTriangle_Imp.hpp: setConvectiveTerm, setGradientTerm", "trunk/src/fem/flow/FemFlowTetrahedron_Imp.hpp: setGradientTerm"]}
{"id": "C118", "title": "A step of the characteristic based split solver predicts, projects and corrects the velocity", "statement": "iterate(dt) of the two-dimensional CBS solver advances the velocity and pressure fields by one time step of the flow equations: velocities that satisfy the weak momentum equations with the body force, a pressure whose weak Laplacian is the divergence of these velocities (times density over dt), and velocities corrected by dt over density times the pressure gradient; prescribed values hold in all results. A fluid at rest without forces stays at rest, a free fluid under gravity g gets the velocity dt g, and the scheme is stable along streamlines.", "quantifier": "all consistent plane triangle meshes, all fields with prescribed values at any nodes, all materials, gravities and time steps, any number of steps, every linear solver that returns solutions", "why_tests_cant": "A test replays one history; the claim must hold after every finite sequence of API calls.", "anchors": ["trunk/src/solvers/FemCbsSolver_Imp.hpp: calculateVelocityField, calculatePressureField, correctVelocityField, iterate", "trunk/src/solvers/FemCbsSolver.hpp: CFemCbsSolver<Real, 2>"]}
{"id": "C119", "title": "The finite volume flow operators balance what the cells exchange", "statement": "For a flow problem discretised by finite volumes, the divergence operator gives for each cell the sum of the fluxes through its faces, weighted with the transporting value, over the volume of the cell; it vanishes for a constant field in a closed cell, and what leaves one cell through a common face enters its neighbour. The time derivative gives the change from the old value, or from the prescribed one.", "quantifier": "all meshes with faces, all fields, boundary conditions and values, all cells", "why_tests_cant": "A test fixes one input; the claim ranges over infinitely many inputs of unbounded size.", "anchors": ["trunk/src/pde/fvm/flow/FvmFlowOperators_Imp.hpp: ddt, divergence"]}
{"id": "C120", "title": "The mesher of solids fills what its surface encloses", "statement": "A mesh that MshTetrahedronMesher::generate returns fills exactly the solid that the given closed surface encloses by the even-odd rule: for a point in general position, the number of tetrahedra around it has the same parity as the number of surface triangles a half line from it pierces, so no enclosed point is left out; every face of a tetrahedron that is not on the surface is shared by an even number of tetrahedra, and every surface triangle is a face of a tetrahedron.", "quantifier": "all consistent surface meshes, sizes, limits, interior points, quality and intersection functions, callbacks; all points and half lines", "why_tests_cant": "A test fixes one input; the claim ranges over infinitely many inputs of unbounded size.", "anchors": ["trunk/src/mesh/MshTetrahedronMesher_Imp.hpp: generate, advancingFrontTetraMeshing, addTetrahedron, cleanDuplicateTriangles, adjustConnectivity, repair, rebuildConnectivity, reduceFront"]}
{"id": "C121", "title": "The mesher of solids returns proper tetrahedra", "statement": "Every element of a mesh that MshTetrahedronMesher::generate returns is a tetrahedron on four stored nodes with a volume larger than the cube of the tolerance and faces seen from outside; element and node ids are contiguous, every node is used, and every node is a node of the surface, a given interior point, or in the box of the surface grown by the tolerance.", "quantifier": "all consistent surface meshes, sizes, limits, interior points, quality and intersection functions, callbacks", "why_tests_cant": "A test fixes one input; the claim ranges over infinitely many inputs of unbounded size.", "anchors": ["trunk/src/mesh/MshTetrahedronMesher_Imp.hpp: generate, addTetrahedron, repair"]}
{"id": "C122", "title": "The mesher of solids ends, refuses open surfaces, and can be used once", "statement": "With a positive limit on the number of elements, MshTetrahedronMesher::generate ends on every consistent surface mesh, by returning a mesh with at most that many elements or by throwing. A surface with an open side is refused. A mesher that has been used can be used again.", "quantifier": "all consistent surface meshes, all limits, all interior points and callbacks; all later calls", "why_tests_cant": "A test replays one history; the claim must hold after every finite sequence of API calls.", "anchors": ["trunk/src/mesh/MshTetrahedronMesher_Imp.hpp: generate, advancingFrontTetraMeshing, repair, frontSize"]}
{"id": "C123", "title": "The quadrilateral mesher fills the region", "statement": "A mesh returned by the quadrilateral mesher fills the region bounded by the given closed chains of beams: a point is inside an odd number of its elements exactly if it is inside the region by the even-odd rule, every point of the region is inside an element, and the sides that are not on the boundary are shared by an even number of elements; the boundary is not subdivided.", "quantifier": "all consistent boundary meshes, all points, all tolerances, sizes, interior points and limits, every call that returns", "why_tests_cant": "A test fixes one input; the claim ranges over infinitely many inputs of unbounded size.", "anchors": ["trunk/src/mesh/MshQuadrilateralMesher_Imp.hpp: generate, advancingFrontQuadMeshing, addQuadrilateral, cleanDuplicateEdges", "trunk/src/mesh/MshQuadrilateralMesher.hpp: CMshQuadrilateralMesher"]}
{"id": "C124", "title": "Elements of the quadrilateral mesher", "statement": "Every element of a mesh returned by the quadrilateral mesher is a triangle, or a strictly convex quadrilateral traversed counter-clockwise; ids are 0, 1, ... and every node is a corner of an element.", "quantifier": "all consistent boundary meshes and parameters, every element of every mesh that is returned", "why_tests_cant": "A test fixes one input; the claim ranges over infinitely many inputs of unbounded size.", "anchors": ["trunk/src/mesh/MshQuadrilateralMesher_Imp.hpp: generate, advancingFrontQuadMeshing, addQuadrilateral, cleanDuplicateEdges", "trunk/src/mesh/MshQuadrilateralMesher.hpp: CMshQuadrilateralMesher"]}
{"id": "C125", "title": "The quadrilateral mesher ends and refuses open boundaries", "statement": "With a positive limit on the number of elements the quadrilateral mesher ends, by returning or throwing, and does not exceed the limit; a boundary with an open end is refused.", "quantifier": "all consistent boundary meshes and parameters with a positive limit", "why_tests_cant": "A test fixes one input; the claim ranges over infinitely many inputs of unbounded size.", "anchors": ["trunk/src/mesh/MshQuadrilateralMesher_Imp.hpp: generate, advancingFrontQuadMeshing, addQuadrilateral, cleanDuplicateEdges", "trunk/src/mesh/MshQuadrilateralMesher.hpp: CMshQuadrilateralMesher"]}
{"id": "C126", "title": "Flipping edges of the quadrilateral mesher keeps the mesh, its region and its boundary and does not worsen the worst element", "statement": "Call flipEdges of the quadrilateral mesher, with any tolerance that is not negative, on a mesh of triangles and strictly convex quadrilaterals in the plane, traversed counter-clockwise, of which no two overlap, whose faces have been generated. Then the call completes. No node moves, the elements keep their ids and types, and the result is again such a mesh with up-to-date faces. It covers the same region with the same area and has the same boundary sides. If the measures of quality do not depend on the corner from which an element is read, no element is worse than the worst before.", "quantifier": "all meshes of triangles and convex quadrilaterals in the plane, of any size, all tolerances that are not negative, all measures of quality, all sequences of calls", "why_tests_cant": "A test fixes one input; the claim ranges over infinitely many inputs of unbounded size.", "anchors": ["trunk/src/mesh/MshQuadrilateralMesher_Imp.hpp: CMshQuadrilateralMesher::flipEdges", "trunk/src/mesh/MshMesh_Imp.hpp: CMshMesh::generateFaces"]}
{"id": "C127", "title": "Moving nodes with the quadrilateral mesher changes positions only and keeps nodes in every half-space; but it moves boundary nodes and misses interior ones", "statement": "relaxNodes of the quadrilateral mesher, on a mesh of triangles and quadrilaterals whose faces have been generated, completes and changes nothing but positions of nodes, and no node leaves a half-space that contains all nodes. A user would also expect that nodes of the boundary stay, that elements stay convex, and that interior nodes are moved to better places. These fail.", "quantifier": "all consistent meshes of triangles and quadrilaterals with up-to-date faces, of any size, all measures of quality and tolerances", "why_tests_cant": "A test fixes one input; the claim ranges over infinitely many inputs of unbounded size.", "anchors": ["trunk/src/mesh/MshQuadrilateralMesher_Imp.hpp: CMshQuadrilateralMesher::relaxNodes"]}
{"id": "C128", "title": "The CSG sphere and cylinder are closed convex solids of the right size", "statement": "For a positive radius, at least three slices and (sphere) at least two stacks, CCsgSphere::create gives nSlices x nStacks polygons whose corners are all at the radius from the centre, and CCsgCylinder::create, for two different end points, gives three polygons per slice between the end planes and within the radius of the axis. In both cases the surface is closed (every side is walked as often in one direction as in the other), the normals point outward, and the BSP tree built from the polygons keeps them uncut. The sphere's inside contains the ball of radius r cos(pi/n) cos(pi/2m) and lies in the ball of radius r. The cylinder's inside contains what is between the ends and within r cos(pi/n) of the axis, and lies between the ends and within r of the axis. Points at or beyond the radius or the ends are outside.", "quantifier": "every centre, pair of end points, radius, number of slices and stacks, epsilon of the normal calculation, and every point of space asked about", "why_tests_cant": "A test fixes one input; the claim ranges over infinitely many inputs of unbounded size.", "anchors": ["trunk/src/csg/CsgSphere_Imp.hpp: CCsgSphere::vertex, create", "trunk/src/csg/CsgCylinder_Imp.hpp: CCsgCylinder::point, create", "trunk/src/csg/CsgBspNode_Imp.hpp: build"]}
{"id": "C129", "title": "A mesh saved to a VTK file can be read as a VTK grid and is the same mesh", "statement": "CPosVtk::save writes a file that a reader of the legacy VTK format accepts and that describes the mesh: the points are the nodes in their order, the cells are the elements in their order with the right cell type and the positions of their nodes, tetrahedra are oriented as VTK wants them, and if the field has values at the nodes the file holds one value per point.", "quantifier": "every consistent mesh, every id assignment, every field and number of values per node, every rounding by printing", "why_tests_cant": "A test fixes one input; the claim ranges over infinitely many inputs of unbounded size.", "anchors": ["trunk/src/post/PosVtk_Imp.hpp: CPosVtk::save, load"]}
{"id": "C130", "title": "Every row of a Gnuplot file has the number, the coordinates and the value of one node", "statement": "CPosGnuplot::save writes one row per node (or per element, for values at element centres) with the node's number, its coordinates and the value of the field at that node.", "quantifier": "every mesh, every id assignment, every field", "why_tests_cant": "A test fixes one input; the claim ranges over infinitely many inputs of unbounded size.", "anchors": ["trunk/src/post/PosGnuplot_Imp.hpp: CPosGnuplot::save"]}
{"id": "C131", "title": "The boundary element coefficients are the layer potentials of the triangle", "statement": "CBemTriangle::laplacianCoeff of a triangle with itself returns h = 0 and for g exactly the integral of 1/(4 pi |x-c|) over the triangle, c its centroid. For two different triangles g is positive, and rotating both triangles and scaling them by s keeps h and multiplies g by s.", "quantifier": "every non-degenerate triangle whose vectors are longer than the square root of epsilon, every pair of triangles, every rotation and scale", "why_tests_cant": "A test fixes one input; the claim ranges over infinitely many inputs of unbounded size.", "anchors": ["trunk/src/bem/BemTriangle_Imp.hpp: CBemTriangle::laplacianCoeff, getIntegrationPoints", "trunk/src/geometry/GeoVector_Imp.hpp: CGeoVector::angle"]}
{"id": "C132", "title": "The boundary element operator assembles the boundary integral equations of the mesh", "statement": "For a mesh of triangles with ids 0..n-1, pde::bem::thermal::laplacian returns the system whose row i, applied to any values x, minus the right hand side, is the sum of h_ij x_j minus x_i/2 minus the sum over the fixed elements of g_ij/area_j (x_j - u_j). If all fixed values are c, the constant c misses equation i by c times (sum of h_ij minus one half). Meshes with other ids make it throw; elements of another type get an empty row and column.", "quantifier": "every mesh of triangles, every set of fixed values, every vector of unknowns", "why_tests_cant": "A test fixes one input; the claim ranges over infinitely many inputs of unbounded size.", "anchors": ["trunk/src/pde/bem/thermal/BemThermalOperators_Imp.hpp: laplacian"]}
{"id": "C133", "title": "The search for boundary faces near a point is complete, exact and unaffected by earlier meshes", "statement": "After `set(mesh)` and `build()`, `findClosestBoundaryFaces(point, distance)` returns every boundary face of the mesh whose centre is nearer to the point than the distance, exactly once, and no other face, also when the same search object was used for any number of other meshes before.", "quantifier": "every finite-volume mesh with a consistent face list whose boundary centres are representable and do not all coincide, every sequence of meshes searched before with the same object, every point and every distance", "why_tests_cant": "A test replays one history; the claim must hold after every finite sequence of API calls.", "anchors": ["trunk/src/fvm/FvmMeshSearch_Imp.hpp: set, build, findClosestBoundaryFaces", "trunk/src/geometry/GeoHashGrid_Imp.hpp: reset, build, find"]}
{"id": "C134", "title": "Whether two triangles meet", "statement": "The test whether two triangles intersect, and whether a segment meets a triangle, answers the geometric question: for triangles in general position it finds every common point (kind \"internal\" when no corners coincide), it reports two neighbours that share an edge as \"edge\" and not as a crossing, and with tolerance zero what it reports is a common point; the same for a segment and a triangle, with the point.", "quantifier": "all triangles of non-zero area, all segments, all tolerances in the stated ranges, every norm function", "why_tests_cant": "A test fixes one input; the claim ranges over infinitely many inputs of unbounded size.", "anchors": ["trunk/src/geometry/GeoTriangle_Imp.hpp: intersects(CGeoTriangle, CGeoIntersectionType, tolerance), intersects(CGeoLine, ...)"]}
{"id": "C135", "title": "STL export and import of a solid", "statement": "A solid bounded by closed polygons that is converted to STL facets and read back is the same solid: every facet is read, each polygon with n corners becomes n-2 triangles with corners of that polygon, the result is closed exactly when the solid is, its total vector area is the same, for flat polygons its volume is the same, and for convex ones the triangles face the same way.", "quantifier": "all lists of closed polygons with any number of corners, every angle function below the literal bound, every norm function", "why_tests_cant": "A test fixes one input; the claim ranges over infinitely many inputs of unbounded size.", "anchors": ["trunk/src/csg/CsgBoolean_Imp.hpp: fromSTL, toStl", "trunk/src/geometry/GeoPolygon_Imp.hpp: triangulate, close, calculateNormal", "trunk/src/stl/StlFile_Imp.hpp: addFacet"]}
{"id": "C136", "title": "Closing unpaired edges only moves nodes, and by a bounded distance", "statement": "CMshMesh::collapseNakedEdges(tolerance) keeps all nodes, faces, elements and ids; only first nodes of unpaired edges move, each ends where some node was, nothing moves when the tolerance is not positive, a node at which one unpaired edge begins moves by less than the shortest unpaired edge plus the tolerance, and every unpaired edge shorter than that bound has zero length afterwards.", "quantifier": "every consistent mesh whose edges have two ends, every tolerance, every length function", "why_tests_cant": "A test fixes one input; the claim ranges over infinitely many inputs of unbounded size.", "anchors": ["trunk/src/mesh/MshMesh_Imp.hpp: CMshMesh::collapseNakedEdges"]}
{"id": "C137", "title": "Bounding boxes and scaling of meshes", "statement": "CMshMesh::boundingBox() and boundingBox(id) are the least boxes around the nodes of the mesh and of the element; scale(c) multiplies every node by c, changes nothing else, and composes.", "quantifier": "every consistent mesh with nodes within the range of the number type, every element, every factor", "why_tests_cant": "A test fixes one input; the claim ranges over infinitely many inputs of unbounded size.", "anchors": ["trunk/src/mesh/MshMesh_Imp.hpp: CMshMesh::boundingBox, CMshMesh::scale"]}
{"id": "C138", "title": "Every equation a user writes for a field has one row per unknown", "statement": "For a field of any discretisation method and simulation type, every left-hand side written with ddt, laplacian, divergence, gradient and multiples of the field, and an optional source(field, value), gives a system with one row per unknown of the method, declared symmetric only if it has no divergence or gradient; a combination that is not supported is reported.", "quantifier": "all fields (method, simulation type, mesh sizes, degrees of freedom) and all expressions", "why_tests_cant": "A test fixes one input; the claim ranges over infinitely many inputs of unbounded size.", "anchors": ["trunk/src/pde/PdeEquation_Imp.hpp: ddt, laplacian, divergence, gradient, source", "trunk/src/pde/fem/FemOperators_Imp.hpp: ddt, laplacian, divergence, gradient, source", "trunk/src/pde/fdm/FdmOperators_Imp.hpp: ddt, laplacian, divergence, source", "trunk/src/pde/fvm/FvmOperators_Imp.hpp: ddt, laplacian, divergence, source", "trunk/src/pde/bem/BemOperators_Imp.hpp: ddt, laplacian, divergence, source"]}
{"id": "C139", "title": "A control volume reports the shape it was last clipped to", "statement": "After any sequence of calls that clip a finite-volume control volume, switch its clipped shape on or off and calculate volumes, surface areas, face areas and face normals, the faces it lists and the quantities it reports are those of the shape asked for (the given faces, or the last clip of them), whatever was calculated before; and after a clip by a volume fraction its volume is that fraction of the original volume.", "quantifier": "all lists of faces, all sequences of public calls (any length, any order, forced or cached calculation) about faces that are there, all clip normals, fractions, iteration limits and tolerances", "why_tests_cant": "A test replays one history; the claim must hold after every finite sequence of API calls.", "anchors": ["trunk/src/fvm/FvmControlVolume_Imp.hpp: clip, calculateVolume, calculateSurfaceArea, calculateOriginalVolume, calculateFaceArea, calculateFaceNormal, faceArea, faceNormal, nbFaces, faceId, containsFace, setClipped, setClippedFaceId, addFace", "trunk/src/geometry/GeoPolyhedron_Imp.hpp: clip, calculateVolume, calculateSurfaceArea", "trunk/src/fvm/FvmFace_Imp.hpp: set"]}
{"id": "C140", "title": "Centroids, boxes, normals, areas and volumes of polygons, polyhedra, spheres and circles are those of the shape", "statement": "The centroid of a polygon or polyhedron moves with the shape, lies inside every half-space that contains it, does not depend on where a closed polygon starts and is its centre of mass; the bounding box of a polyhedron, sphere or circle is the smallest box that contains it; the normal of a circle is perpendicular to it; the volume of a sphere and the area of a circle are their measures.", "quantifier": "all vertex lists and polyhedra (any number of faces and vertices), all centres, radii and translations, over any ordered field", "why_tests_cant": "A test fixes one input; the claim ranges over infinitely many inputs of unbounded size.", "anchors": ["trunk/src/geometry/GeoPolygon_Imp.hpp: calculateCentroid", "trunk/src/geometry/GeoPolyhedron_Imp.hpp: calculateCentroid, calculateBoundingBox, addPolygon, set", "trunk/src/geometry/GeoSphere_Imp.hpp: calculateCentroid, calculateSurfaceArea, calculateVolume, calculateBoundingBox", "trunk/src/geometry/GeoCircle_Imp.hpp: calculateCentroid, calculateNormal, calculateArea, calculateBoundingBox"]}
{"id": "C141", "title": "The check for crossing elements finds a crossing exactly if there is one", "statement": "checkIntersections says yes for a mesh exactly if two of its elements that are beams, or two that are triangles, pass through each other or coincide; elements that only share an edge or a corner as neighbours in a sound mesh do not count; the answer does not depend on the other elements of the mesh.", "quantifier": "all meshes (any number of elements, any ids, any kinds of elements), all tolerances, all shapes of the search tree", "why_tests_cant": "A test fixes one input; the claim ranges over infinitely many inputs of unbounded size.", "anchors": ["trunk/src/mesh/MshCheckMesh_Imp.hpp: checkIntersections", "trunk/src/geometry/GeoRtree_Imp.hpp: addGeometricObject, find", "trunk/src/geometry/GeoTriangle_Imp.hpp: intersects", "trunk/src/mesh/MshMesh_Imp.hpp: boundingBox"]}
{"id": "C142", "title": "Steady conduction in a rod gives the straight line between the prescribed ends", "statement": "A program that prescribes the values a and b at the two end nodes of a rod, writes laplacian(T) = 0 with the finite difference method and solves it finds in the field the values of the straight line from a at the first node to b at the last; with only one end prescribed it finds that value everywhere.", "quantifier": "all numbers of nodes from two on, all spacings, all prescribed values, all linear solvers that solve every solvable system", "why_tests_cant": "A test fixes one input; the claim ranges over infinitely many inputs of unbounded size.", "anchors": ["trunk/examples/fdmheat/main.cpp: steadyHeatConduction1D", "trunk/src/pde/PdeEquation_Imp.hpp: laplacian, setSources, solve", "trunk/src/pde/fdm/thermal/FdmThermalOperators_Imp.hpp: laplacian"]}
{"id": "C143", "title": "Heat conduction in time: every step balances heat, stays within bounds and approaches the exact solution", "statement": "A program that repeatedly writes rho Cp/dt ddt(T) - k laplacian(T) = 0 with the finite difference method and solves it gets in each step the one field with balanced heat at every node; over any number of steps the temperatures stay between the smallest and largest of the initial and prescribed ones, an insulated rod keeps its heat, initial differences die out when both ends are prescribed, and the temperatures approach those of the heat equation as spacing and time step shrink.", "quantifier": "all numbers of nodes, spacings, time steps and material constants, all initial and prescribed values, all numbers of steps, all sound linear solvers; all smooth solutions of the heat equation with bounded derivatives", "why_tests_cant": "A test replays one history; the claim must hold after every finite sequence of API calls.", "anchors": ["trunk/examples/fdmheat/main.cpp: unsteadyHeatConduction1D", "trunk/src/pde/PdeEquation_Imp.hpp: ddt, laplacian, solve", "trunk/src/sle/SleSystem_Imp.hpp: operator*, operator-, operator="]}
{"id": "C144", "title": "Steady conduction with finite elements: a result with the least energy, and exact for linear temperatures", "statement": "A program that writes laplacian(T) = 0 with the finite element method on any mesh of beams, triangles and tetrahedra, eliminates the prescribed values and solves always gets a result; it has the prescribed values, and among all fields that have them it has the least energy (the integral of the squared gradient), strictly when every node hangs together with a prescribed one. If the prescribed values are those of a linear function and all other nodes are surrounded by elements, the result is that function exactly.", "quantifier": "all meshes of non-degenerate beams, triangles and tetrahedra of any size and shape, all sets of prescribed values, all linear functions, all sound linear solvers", "why_tests_cant": "A test fixes one input; the claim ranges over infinitely many inputs of unbounded size.", "anchors": ["trunk/examples/femheat/main.cpp: steadyHeatConduction1D, steadyHeatConduction2D", "trunk/src/pde/PdeEquation_Imp.hpp: laplacian, setElimination, solve", "trunk/src/pde/fem/thermal/FemThermalOperators_Imp.hpp: laplacian"]}
{"id": "C145", "title": "Conduction in time with finite elements: stable for every step length, keeps heat, tends to the steady result, but overshoots", "statement": "A program that repeatedly writes rho Cp/dt ddt(T) - k laplacian(T) = 0 with the finite element method, eliminates the prescribed values and solves always gets a result, the only one that makes the squared change plus the energy smallest; without prescribed values the integral of the temperature is kept; the energy never rises after the first step; initial differences die out; with prescribed values the run tends to the result of the steady program. The temperatures need not stay between the initial and prescribed ones.", "quantifier": "all meshes of non-degenerate beams, triangles and tetrahedra with elements numbered from zero, all prescribed and initial values, material constants, step lengths and numbers of steps, all sound linear solvers", "why_tests_cant": "A test replays one history; the claim must hold after every finite sequence of API calls.", "anchors": ["trunk/examples/femheat/main.cpp: unsteadyHeatConduction1D, unsteadyHeatConduction2D, unsteadyHeatConduction3D", "trunk/src/pde/PdeEquation_Imp.hpp: ddt, laplacian, setElimination, solve", "trunk/src/pde/fem/thermal/FemThermalOperators_Imp.hpp: ddt, laplacian", "trunk/src/sle/SleSystem_Imp.hpp: operator*, operator-, operator="]}
{"id": "C146", "title": "Steady conduction with finite volumes finds the one balanced temperature field, within the prescribed values and exact on linear ones", "statement": "On a mesh with generated faces and calculated centroids whose cells all hang together with a face of fixed value, writing laplacian(T) = 0 and solving succeeds, whatever sound linear solver is used, and leaves in T the only temperatures for which what flows into every cell through its faces adds up to zero. They lie between the smallest and the largest fixed value; the heat through the fixed faces adds up to zero; and where lines between centroids are perpendicular to the faces between them, a linear temperature is reproduced exactly at the centroids.", "quantifier": "all meshes of cells with faces, centroids and conditions on faces, either orientation of the faces, all sound solvers, all linear fields", "why_tests_cant": "A test fixes one input; the claim ranges over infinitely many inputs of unbounded size.", "anchors": ["trunk/src/pde/fvm/thermal/FvmThermalOperators_Imp.hpp: laplacian", "trunk/src/pde/PdeEquation_Imp.hpp: CPdeEquation, solve", "trunk/examples/fvmheat/main.cpp: steadyHeatConduction1D", "trunk/tests/TestPdeEquation.cpp: fvmSteadyLaplaceLine"]}
{"id": "C147", "title": "Time steps of conduction with finite volumes store what flows in, stay within bounds, keep the heat of an insulated body and settle", "statement": "Writing rho Cp / dt ddt(T) - k laplacian(T) = 0 and solving advances T by one implicit step of any length: the heat stored in a cell is what flowed in through its faces. Any number of steps stays within the range of initial and fixed temperatures; an insulated body keeps its heat; the initial temperatures are forgotten geometrically and the steps approach the steady result. The result does not depend on the order in which the nodes of a cell are numbered.", "quantifier": "all meshes as in C146, all parameters, step lengths, numbers of steps, initial fields and sound solvers", "why_tests_cant": "A test replays one history; the claim must hold after every finite sequence of API calls.", "anchors": ["trunk/src/pde/fvm/thermal/FvmThermalOperators_Imp.hpp: ddt, laplacian", "trunk/src/geometry/GeoPolyhedron_Imp.hpp: calculateVolume", "trunk/src/mesh/MshElement_Imp.hpp: generateFaces", "trunk/examples/heat1d/MainWindow.cpp: FVM part of unsteady conduction", "trunk/examples/fvmheat/main.cpp: unsteadyHeatConduction1D"]}
{"id": "C148", "title": "Heat carried along a line with finite differences: one result per step, balance, centre moving with the flow, stability; but ends that never change and temperatures out of bounds", "statement": "On a line of equally spaced nodes, rho*Cp/dt*ddt(T) + u*divergence(T) = 0 should, for every step length, have one solution that carries the heat along with velocity u/(rho*Cp), lets it leave at the end of the line, and keeps the temperatures within the bounds of the initial ones. Every step has exactly one result; between the ends the heat held changes by what the flow carries in and out; the centre of the heat moves with the flow; runs that agree at the ends do not move apart in the mean square, for any step length. But the values at both ends never change, so nothing ever leaves; and temperatures between 0 and 1 become negative after one step, however short the step and fine the line.", "quantifier": "all numbers of nodes, spacings, step lengths, velocities, initial fields, numbers of steps and sound solvers", "why_tests_cant": "A test replays one history; the claim must hold after every finite sequence of API calls.", "anchors": ["trunk/examples/fdmheat/main.cpp: unsteady heat convection", "trunk/src/pde/fdm/thermal/FdmThermalOperators_Imp.hpp: ddt, divergence", "trunk/src/pde/PdeEquation_Imp.hpp: CPdeEquation, solve"]}
{"id": "C149", "title": "Option prices with finite differences: one result, never negative, right where the share is worthless; but wrong at the ends of the line", "statement": "calculate(DM_FDM, ..) should, for every rate, volatility, maturity, strike, range of share prices and number of nodes and steps, follow the equation of Black and Scholes backwards from the payoff and print a price between those at the two nodes around the share price. For mild data (volatility that outweighs the drift between neighbours, a step short enough for the highest share price) every step has exactly one result, satisfying the equation with central differences between the ends; prices never become negative and grow by at most a fixed factor per step; at share price zero the option is worth its discounted payoff; and for a share price on the line a nonnegative price is printed. But at the ends the drift multiplies the value instead of its slope: a certain payment is worth more than its discounted amount at the highest share price after any number of steps; with a longer step a price becomes negative; and a share price below the line makes the program read before the first value.", "quantifier": "all rates, volatilities, steps, ranges, numbers of nodes and steps, strikes, share prices, switches of the three terms and sound solvers", "why_tests_cant": "A test replays one history; the claim must hold after every finite sequence of API calls.", "anchors": ["trunk/examples/finance/BlackScholes.cpp: CBlackScholes::calculate", "trunk/src/pde/fdm/generic/FdmGenericOperators_Imp.hpp: ddt, laplacian, divergence", "trunk/src/sle/SleSystem_Imp.hpp: operator+, operator*", "trunk/src/pde/PdeEquation_Imp.hpp: operator*, CPdeEquation, solve"]}
{"id": "C150", "title": "The equation of Burgers with finite differences: one result, velocities within bounds; but a uniform flow is slowed down at the ends and a backward one sped up until there is no solution", "statement": "1/dt*ddt(u) + u.u*divergence(u) - mu*laplacian(u) = 0 followed by u(0) = u(n-1) should, on a line fine enough for the viscosity, have one result per step, keep the velocities between their bounds and leave a uniform cyclic flow as it is. Where nothing flows backwards and u*dx <= 2*mu, a step of any length has exactly one result; velocities between 0 and M stay there through any number of steps; after every step the first and the last are equal. But a uniform positive flow is slower at the last node after any number of steps; and a uniform backward flow doubles in one step and then has no solution, whatever the viscosity.", "quantifier": "all numbers of nodes, spacings, steps, viscosities, initial fields, numbers of steps and sound solvers", "why_tests_cant": "A test replays one history; the claim must hold after every finite sequence of API calls.", "anchors": ["trunk/examples/burgers1d/MainWindow.cpp: finite difference part", "trunk/src/pde/fdm/generic/FdmGenericOperators_Imp.hpp: ddt, divergence, laplacian", "trunk/src/sle/SleSystem_Imp.hpp: operator*(vector, system)"]}
{"id": "C151", "title": "Heat convection along a line with finite elements: one result for every step and velocity on an even line, linear profiles carried exactly, balance; but the inlet is extrapolated, and uneven lines may have no result", "statement": "rho*Cp/dt*ddt(T) + u*divergence(T) = 0 on a line of beams, solved step after step, should carry T with the flow. On every line of the mesher a step of any length and with any velocity has exactly one result, and it satisfies the equation weighed with every function that is linear on the beams; a linear profile is carried exactly through any number of steps, and constants stay; what the line gains is what enters at the first node less what leaves at the last, and the integral of T^2 does not grow by more than the flow brings in. But nothing is prescribed at the inlet: a non-negative profile that rises along the flow becomes negative there in one step. And on an unevenly divided line the equations may have no solution: with beams of the lengths h and 3h and a flow that passes the first in a step the program ends without an error and leaves values that satisfy nothing.", "quantifier": "all lines, numbers of beams, velocities of either sign, heat capacities, time steps, initial fields, numbers of steps and sound solvers", "why_tests_cant": "A test replays one history; the claim must hold after every finite sequence of API calls.", "anchors": ["trunk/examples/femheat/main.cpp: unsteadyHeatConvection1D", "trunk/src/pde/fem/thermal/FemThermalOperators_Imp.hpp: ddt, divergence", "trunk/src/fem/thermal/FemLinearTemperatureBeam_Imp.hpp: beam matrices", "trunk/src/mesh/MshBasicMesher_Imp.hpp: generate(line)"]}
{"id": "C152", "title": "Heat convection with finite volumes: one result for every step that is not too long, balance in every cell; but nothing leaves at the outlet, so heat piles up and a uniform temperature is not kept", "statement": "rho*Cp/dt*ddt(T) + u*divergence(T) = 0 on a mesh of cells, solved step after step, should carry T with the flow (with the same velocity along all axes, as the operator has it) and out of the mesh. On every mesh whose faces are paired and seen oppositely from both sides, a step in which less enters or leaves at each cell than twice its volume has exactly one result, whatever sound solver is used, and in it every cell has gained what the flow brought through the faces with a neighbour, less what it took. The sum of T^2 weighed with the volumes grows at most by what enters in the cells at the ends. But faces without a neighbour pass nothing: the total heat is the same after any number of steps, although the flow leaves the mesh, and a uniform temperature is kept exactly when the flow crosses no boundary; three cubes at 1 become 3/5, 1/5 and 11/5 in a step.", "quantifier": "all meshes with regular faces, velocities of either sign, heat capacities, time steps below the bound, initial fields, numbers of steps and sound solvers", "why_tests_cant": "A test replays one history; the claim must hold after every finite sequence of API calls.", "anchors": ["trunk/examples/fvmheat/main.cpp: unsteadyHeatConvection1D", "trunk/src/pde/fvm/thermal/FvmThermalOperators_Imp.hpp: ddt, divergence", "trunk/src/pde/PdeEquation_Imp.hpp: solve"]}
{"id": "C153", "title": "Stresses of plates with finite elements: equilibrium, least energy, reciprocity, superposition, rigid motions and the patch test; an unbalanced load gets a result too", "statement": "laplacian(u) = 0 with forces set as sources, prescribed displacements eliminated, and solve(u) gives the displacements of a plate. On every plane mesh of triangles with thicknesses, for every material with a positive modulus and a Poisson coefficient between -1 and 1, and whatever sound solver is used: if the supports allow no motion without strain there is exactly one result that is as prescribed and in equilibrium (the stresses do the same work as the forces on every displacement that keeps the supports), and the program finds it. It has the least potential energy of all displacements that are as prescribed. With supports at rest the work of the forces is that of the stresses, and of two load cases each does the same work on the displacements of the other. Load cases add up. Supports moved rigidly move the whole plate rigidly. With the displacements of a constant strain prescribed at the border, the nodes inside get those of the constant strain. If the forces do work on a motion without strain that the supports allow, no equilibrium exists, and the program still returns a result.", "quantifier": "all plane triangle meshes, thicknesses, materials, supports, prescribed displacements, forces and sound solvers", "why_tests_cant": "A test fixes one input; the claim ranges over infinitely many inputs of unbounded size.", "anchors": ["trunk/examples/femintro/main.cpp: runExample56", "trunk/src/pde/fem/structural/FemStructuralOperators_Imp.hpp: laplacian", "trunk/src/pde/PdeEquation_Imp.hpp: setSources, setElimination, solve", "trunk/src/pde/PdeField_Imp.hpp: setFixedValue, setSource"]}
{"id": "C154", "title": "Poisson's equation with finite elements: least potential; the source neglects the size of the elements, so refining the mesh makes the result diverge", "statement": "laplacian(T) = source(T, a) with eliminated prescribed values and solve(T) gives the finite element solution of Poisson's equation: among all nodal fields with the prescribed values the one with the least sum of half the energy and a times the integral. In fact the program minimises half the energy plus a times the sum over the corners of all elements, which is the integral only if every element measures as many units as it has corners (beams of length 2, triangles of area 3, as in the torsion example, tetrahedra of volume 4). On a rod of length L in n equal beams with zero at both ends the result is 2n/L times the exact solution at every node, so the finer the mesh the larger the error, without bound. With zero prescribed values the energy of the result is -a times the sum over the corners; for a > 0 that sum, from which the torsion example computes its result, is never positive.", "quantifier": "all meshes of beams, triangles and tetrahedra in which every node is connected to a prescribed one, all source values, prescribed values and sound solvers; all lengths and numbers of beams", "why_tests_cant": "A test fixes one input; the claim ranges over infinitely many inputs of unbounded size.", "anchors": ["trunk/examples/femintro/main.cpp: runExample105", "trunk/src/pde/PdeEquation_Imp.hpp: setElimination, solve, laplacian, source", "trunk/src/sle/SleSystem_Imp.hpp: operator="]}
{"id": "C155", "title": "The penalty method converges to the exact treatment of prescribed values; for a given factor constants are not reproduced and refinement makes it worse", "statement": "setPenaltyFactor(T, p) and solve(T) impose prescribed values approximately. Whenever the remaining equations determine the remaining values, exactly one vector has the prescribed values and satisfies the remaining equations, and for all large enough factors p the result differs from it by at most a constant over p; the prescribed values themselves are exact in the result. In particular steady temperatures on every mesh of beams, triangles and tetrahedra differ by at most a constant over p from those of the program with setElimination. The penalty replaces the diagonal instead of being added to it, so a rod of n >= 2 beams with both ends kept at c gets c p / (p + n / L) between the ends instead of c.", "quantifier": "all systems, prescribed values, penalty factors above a bound and sound solvers; all meshes of beams, triangles and tetrahedra; all lengths and numbers of beams", "why_tests_cant": "A test fixes one input; the claim ranges over infinitely many inputs of unbounded size.", "anchors": ["trunk/src/pde/PdeEquation_Imp.hpp: setPenaltyFactor, solve", "trunk/examples/femintro/main.cpp: runExample104"]}
{"id": "C156", "title": "Heat conduction with particles at rest: bounds and approach to the steady state; heat is not conserved", "statement": "init(T, mass, diff, h, dt) and any number of solve(T): no particle moves, densities are the kernel sums and prescribed values are kept. If no share of a neighbour is negative and the shares of every particle add up to at most one (a short enough step), temperatures between two bounds stay between them for ever. If moreover every particle hangs together with one of prescribed value, there is exactly one field that a step does not change, and from all initial temperatures the program approaches it geometrically. The heat of insulated particles should stay the same, and the result should not depend on the mass that all particles have; neither is true: temperatures are changed in place, so two particles that exchange the share c gain c*c degrees in a step, and t times the mass acts like the conductivity divided by t.", "quantifier": "all particles, kernels, neighbour lists, conductivities, steps below the limit, initial and prescribed values, numbers of steps", "why_tests_cant": "A test replays one history; the claim must hold after every finite sequence of API calls.", "anchors": ["trunk/src/sph/SphParticles_Imp.hpp: init, solve, addDiffusion, calculateDensity", "trunk/examples/sphheat/main.cpp: steadyHeatConduction1D, steadyHeatConduction2D"]}
{"id": "C157", "title": "Two meshes that fit together are joined without loss and without cracks", "statement": "a.addMesh(b) and a.mergeNodes(tol), for two consistent meshes without repeated nodes whose nodes are pairwise farther apart than tol within each mesh, and at the same point or farther apart than tol between the meshes: the result is a consistent mesh that has the elements of a and then those of b, in order, with the same types and the same corners, and exactly one node at every point where a or b has a node. In it generateFaces gives a face a pair exactly if another face of the same type has the same corners, so nothing is left open where the parts touch. Elements with two nodes within the tolerance are lost.", "quantifier": "all pairs of meshes that fit, of every size and numbering, tolerances and hash grid constants", "why_tests_cant": "A test fixes one input; the claim ranges over infinitely many inputs of unbounded size.", "anchors": ["trunk/src/mesh/MshMesh_Imp.hpp: addMesh, mergeNodes, generateFaces", "trunk/examples/merge/main.cpp"]}
{"id": "C158", "title": "The boundary extracted from a mesh of solids is a watertight, consistently oriented surface that encloses the volume of the solids", "statement": "extractBoundary(tol) of a consistent mesh of tetrahedra, triangular prisms and hexahedra in which no three element faces coincide and two that coincide run against each other: the elements of the returned surface run through every side as often in one direction as in the other; generateFaces on the surface finds a pair for every side, so nbBoundaryFaces() is 0 and checkOpen() is false; and for tetrahedra the signed volume the surface encloses is minus the sum of the signed volumes of the tetrahedra, that is, its triangles point inwards when the tetrahedra are positively oriented.", "quantifier": "all conforming meshes of tetrahedra, prisms and hexahedra of every size and numbering, tolerances and hash grid constants", "why_tests_cant": "A test fixes one input; the claim ranges over infinitely many inputs of unbounded size.", "anchors": ["trunk/src/mesh/MshMesh_Imp.hpp: generateFaces, extractBoundary, checkOpen", "trunk/src/mesh/MshElement_Imp.hpp: generateFaces", "trunk/examples/bemheat/main.cpp: solve1"]}
{"id": "C159", "title": "A block meshed into hexahedra or tetrahedra has no hanging faces; its extracted boundary is watertight and encloses the block's volume", "statement": "generate(hexahedron, nu, nv, nw) and generate(box, size) with or without decimation: of all faces of the elements no three coincide, and two that coincide are run through in opposite directions. extractBoundary on the mesh of a hexahedron that is not flat returns a surface whose sides are run through as often in one direction as in the other, on which generateFaces finds a pair for every side, so checkOpen() is false; with tetrahedra the signed volume the surface encloses is volume() of the given hexahedron.", "quantifier": "all hexahedra and boxes, all positive numbers of divisions and sizes, tolerances and hash grid constants", "why_tests_cant": "A test fixes one input; the claim ranges over infinitely many inputs of unbounded size.", "anchors": ["trunk/src/mesh/MshBasicMesher_Imp.hpp: generate", "trunk/src/mesh/MshMesh_Imp.hpp: generateFaces, extractBoundary, checkOpen", "trunk/src/geometry/GeoHexahedron_Imp.hpp: calculateVolume, decimate"]}
{"id": "C160", "title": "The fluid in the lid-driven cavity is conserved up to what crosses the border, and mirror images of flows are flows; but marking the border as walls has no effect and the cavity leaks", "statement": "For the lattice Boltzmann solver, any state whose densities and velocities are those of its populations, and any sequence of relaxation times: the mass of the nodes inside changes in every step exactly by what the border nodes send in less what is sent out; the program of the example starts with mass (nx - 1)(ny - 1). evolve on the left-right mirror image of a state gives the mirror image of the result. A user marks the border with setBoundary(i, j, 1) and expects walls that keep the fluid: they do not. Marking border nodes changes no velocity, density or population in any step, and the closed cavity of the example loses mass.", "quantifier": "all sizes, states, lid velocities, relaxation times and numbers of steps", "why_tests_cant": "A test fixes one input; the claim ranges over infinitely many inputs of unbounded size.", "anchors": ["trunk/src/solvers/LbmLidDrivenSolver_Imp.hpp: evolve, init, setBoundary, setVelocity, setDensity", "trunk/examples/lbmflow/main.cpp: init, update"]}
{"id": "C161", "title": "The programs for rods and plates give the exact rod, exact linear plates, plates within the prescribed temperatures, and rods that cool down", "statement": "Generating the mesh, prescribing values at the nodes near given coordinates and solving, one after the other. Rod with T0 and T1 at the ends: the temperature at node i of 0..nu is exactly T0 + (i/nu)(T1 - T0). Parallelogram divided into triangles with linear temperatures prescribed on its sides: the linear temperatures, exactly, at every node. Rectangle with at least one prescribed node: all temperatures are between the least and the greatest prescribed one (in a parallelogram that is not a rectangle they need not be); in the program of the example they are 1 on the upper side with its corners, 0 on the other sides, and between 0 and 1 inside. Rod with one end kept at 0, from any initial temperatures and with any time steps: the temperatures tend to 0 like the powers of a number below one.", "quantifier": "all numbers of cells, prescribed values, initial values, tolerances not larger than a cell, materials, time steps, parallelograms and solvers that solve solvable systems", "why_tests_cant": "A test fixes one input; the claim ranges over infinitely many inputs of unbounded size.", "anchors": ["trunk/examples/femheat/main.cpp: steadyHeatConduction1D, unsteadyHeatConduction1D, steadyHeatConduction2D", "trunk/src/mesh/MshBasicMesher_Imp.hpp: generate", "trunk/src/pde/PdeField_Imp.hpp: setFixedValue", "trunk/src/pde/PdeEquation_Imp.hpp: setElimination, solve"]}
{"id": "C162", "title": "Generated plates that are clamped along one side have a result under any load, and stretched plates deform exactly linearly", "statement": "Generating the triangles of a parallelogram and computing the displacements, one after the other. If the displacements of the nodes on the left side are prescribed, then, whatever else is prescribed and whatever the forces, there is a result: it is as prescribed and in equilibrium with the forces, and no other displacement is. If the displacements of all nodes on the sides are prescribed, all prescribed displacements are those of one linear displacement and there are no forces, every node moves by exactly that linear displacement.", "quantifier": "all parallelograms in the plane with positive area, numbers of cells, materials with positive modulus and Poisson number between -1 and 1, thicknesses, prescribed displacements, forces and solvers that solve solvable systems", "why_tests_cant": "A test fixes one input; the claim ranges over infinitely many inputs of unbounded size.", "anchors": ["trunk/src/mesh/MshBasicMesher_Imp.hpp: generate", "trunk/examples/femintro/main.cpp: runExample56", "trunk/src/pde/fem/structural/FemStructuralOperators_Imp.hpp: laplacian", "trunk/src/pde/PdeEquation_Imp.hpp: setSources, setElimination, solve"]}
{"id": "C163", "title": "Generated blocks of tetrahedra conduct linear temperatures exactly, stay within the prescribed temperatures, and settle in time", "statement": "Generating the tetrahedra of a parallelepiped and solving for the temperatures, one after the other. If all nodes on the sides have prescribed values and all prescribed values are those of one linear function, the result is that linear function, exactly, at every node. In a box with perpendicular edges and at least one prescribed node all temperatures lie between the least and the greatest prescribed one. With at least one prescribed node, time steps of any length from any initial temperatures tend to the steady result at every node, like the powers of a number below one that depends on neither the initial temperatures nor the node.", "quantifier": "all parallelepipeds whose volume() is positive, numbers of cells, prescribed values, initial values, materials, time steps and solvers that solve solvable systems", "why_tests_cant": "A test fixes one input; the claim ranges over infinitely many inputs of unbounded size.", "anchors": ["trunk/src/mesh/MshBasicMesher_Imp.hpp: generate", "trunk/examples/femheat/main.cpp: unsteadyHeatConduction3D", "trunk/src/pde/PdeEquation_Imp.hpp: ddt, laplacian, setElimination, solve", "trunk/src/pde/fem/thermal/FemThermalOperators_Imp.hpp: ddt, laplacian"]}
{"id": "C164", "title": "The temperatures in a generated block do not depend on the orientation of its corners", "statement": "Generating the tetrahedra of a parallelepiped whose corners are in the usual order, with the third edge up, so that volume() is negative, and solving for the temperatures. The steady results are those of the mirror image of the block: linear prescribed values on the sides give that linear function exactly, and in a box all temperatures lie between the least and the greatest prescribed one. Time steps give the temperatures of the mirror image for the same material.", "quantifier": "all parallelepipeds whose volume() is negative, numbers of cells, prescribed values, initial values, materials, time steps and solvers that solve solvable systems", "why_tests_cant": "A test fixes one input; the claim ranges over infinitely many inputs of unbounded size.", "anchors": ["trunk/src/fem/FemTetrahedron_Imp.hpp: setTransientTerm, setDiffusionTerm", "trunk/src/mesh/MshBasicMesher_Imp.hpp: generate", "trunk/examples/femheat/main.cpp: steadyHeatConduction3D, unsteadyHeatConduction3D", "trunk/src/pde/fem/thermal/FemThermalOperators_Imp.hpp: ddt, laplacian"]}
