{"id": "C01", "title": "Octree rendering never skips a cell the surface passes through", "statement": "If the shape's Evaluate never overestimates distance (it is 1-Lipschitz), then every cell of the finest rendering grid at whose eight corners Evaluate takes both negative and non-negative values, with some corner strictly positive, is handed to marching cubes during a complete run of the octree renderer; octree pruning loses no part of the surface.", "quantifier": "every 1-Lipschitz SDF3 with non-degenerate bounds, every meshCells >= 2, every cell of the finest grid", "why_tests_cant": "a pruned cell simply leaves a hole in the mesh for the one shape/resolution/position where the centre sample is large; tests render a handful of shapes", "anchors": ["render/octree_renderer.go: NewOctreeRenderer, processCube, dc3.IsEmpty, newDc3"]}
{"id": "C02", "title": "The rendered grid covers the shape", "statement": "The top-level cube of the octree built by NewOctreeRenderer contains the whole (enlarged) bounding box of the shape, and the subdivision reaches leaf cells of edge length exactly longest-side*1.01/meshCells after a number of levels that depends only on meshCells.", "quantifier": "every SDF3 with non-degenerate bounds, every meshCells >= 2", "why_tests_cant": "rounding the level count the wrong way loses the far corner of the model only for non powers of two", "anchors": ["render/octree_renderer.go: NewOctreeRenderer", "internal/d3/box.go: ScaleAboutCenter, NewBox"]}
{"id": "C03", "title": "ReadTriangles stream does not depend on buffer sizes", "statement": "Concatenating the triangles delivered by successive ReadTriangles calls until io.EOF gives the same multiset of triangles, whatever non-empty buffers the caller passes: no triangle is lost, duplicated or altered because of a small or changing buffer.", "quantifier": "every SDF3, every meshCells, every infinite sequence of positive buffer lengths", "why_tests_cant": "the overflow path (fewer than five free slots) is hit at arbitrary points of the traversal and depends on the caller's buffer sizes", "anchors": ["render/octree_renderer.go: ReadTriangles, readTriangles", "render/io.go: TriangleBuffer"]}
{"id": "C04", "title": "ReadTriangles terminates and respects the reader protocol", "statement": "For any sequence of non-empty buffers, each call returns 0 <= n <= len(dst), io.EOF is returned after finitely many calls, every call after EOF returns (0, EOF), and only an empty buffer makes it panic.", "quantifier": "every SDF3 (any Evaluate function, Lipschitz or not), every meshCells, every sequence of buffer lengths", "why_tests_cant": "termination for every distance function and every buffer schedule is not observable from finitely many runs", "anchors": ["render/octree_renderer.go: ReadTriangles, readTriangles, processCube"]}
{"id": "C05", "title": "RenderAll returns every triangle of the renderer", "statement": "RenderAll(r) returns exactly the triangles r delivers up to and including the call that returns io.EOF.", "quantifier": "every Renderer obeying the ReadTriangles protocol, in particular every octree renderer", "why_tests_cant": "only models whose last batch comes together with EOF lose triangles, which depends on the position of the last surface cell in traversal order", "anchors": ["render/io.go: RenderAll", "render/octree_renderer.go: ReadTriangles"]}
{"id": "C06", "title": "Concurrent rendering gives the same mesh", "statement": "Rendering with the octree's multi-goroutine mode produces, for every schedule of the workers and every buffer size, the same multiset of triangles as single-threaded rendering, and triangles are packed contiguously at the front of the caller's buffer.", "quantifier": "every worker count >= 1, every interleaving of worker steps, every SDF3, every buffer size", "why_tests_cant": "goroutine schedules and chunk remainders cannot be enumerated by tests", "anchors": ["render/octree_renderer.go: readTrianglesThreaded, readTriangles, processCube"]}
{"id": "C07", "title": "The distance cache is transparent under any interleaving", "statement": "Every distance returned through the octree's cache equals the shape's Evaluate at that grid point, for any interleaving of concurrent cache reads, evaluations and writes.", "quantifier": "every number of concurrent evaluators, every interleaving, every history", "why_tests_cant": "read-check-evaluate-write is not atomic; races are schedule dependent", "anchors": ["render/octree_renderer.go: dc3.Evaluate, dc3.read, dc3.write"]}
{"id": "C08", "title": "Marching-cubes mesh is closed and consistently oriented", "statement": "For any assignment of inside/outside to the vertices of the integer grid with finitely many inside vertices, the triangles produced by marching cubes over all cells form a closed, consistently oriented surface: every directed edge is matched by exactly as many copies of the reversed edge, across cells as well as inside one.", "quantifier": "every sign field on the infinite grid with finite inside set", "why_tests_cant": "2^(number of grid points) sign fields; a single wrong entry of the 256-row table makes a hole only for particular neighbouring configurations", "anchors": ["render/marchingcubes.go: mcToTriangles, mcEdgeTable, mcTriangleTable, mcPairTable"]}
{"id": "C09", "title": "Marching-cubes vertices sit where the shape changes sign", "statement": "Every vertex of every triangle emitted for a cell lies on a cell edge whose end values lie on opposite sides of the iso value, between the two end points; and for a 1-Lipschitz shape the vertex is within one cell edge length of the true surface.", "quantifier": "every cell position, all eight corner values (any reals), every 1-Lipschitz SDF3", "why_tests_cant": "all 256 sign cases times arbitrary real corner values, including values within the 1e-12 snapping window", "anchors": ["render/marchingcubes.go: mcToTriangles, mcInterpolate"]}
{"id": "C10", "title": "A cell never overflows the triangle buffer", "statement": "A marching-cubes cell yields at most five triangles, a cell without sign change yields none, a cell with a sign change has a non-empty table entry, and mcToTriangles panics exactly when the destination has room for fewer than five triangles.", "quantifier": "all corner values and every destination length", "why_tests_cant": "requires the whole table and all values", "anchors": ["render/marchingcubes.go: mcToTriangles, mcTriangleTable, marchingCubesMaxTriangles"]}
{"id": "C11", "title": "STL round trip", "statement": "Reading back the bytes WriteSTL produced yields the same triangles in the same order (as the float32 values written), for every non-empty mesh of finite non-degenerate triangles with fewer than 2^32 triangles; WriteSTL rejects an empty mesh.", "quantifier": "every non-empty list of triangles of length < 2^32", "why_tests_cant": "byte layout and count header must agree for every length and every bit pattern", "anchors": ["render/stl.go: WriteSTL, readBinarySTL, stlTriangle"]}
{"id": "C12", "title": "STL files have the standard size and layout", "statement": "A file written by WriteSTL or CreateSTL for n triangles is exactly 84+50n bytes, holds n little-endian at offset 80 and the k-th triangle's twelve floats at 84+50k.", "quantifier": "every triangle count below 2^32, every k < n", "why_tests_cant": "must hold for all counts and offsets", "anchors": ["render/stl.go: WriteSTL, createSTL, stlHeader, stlTriangle"]}
{"id": "C13", "title": "Streaming CreateSTL writes the same file as WriteSTL", "statement": "CreateSTL, which streams from the renderer, writes byte for byte the file WriteSTL would write for the complete list of triangles, whatever chunk sizes (>= 50 bytes) the copy loop uses and however the renderer splits its output.", "quantifier": "every Renderer obeying the protocol, every sequence of read sizes >= 50, fewer than 2^32 triangles", "why_tests_cant": "chunk boundaries never align with triangle boundaries in general; EOF may come with or without data", "anchors": ["render/stl.go: stlReader.Read, createSTL, CreateSTL, WriteSTL"]}
{"id": "C14", "title": "3MF export is lossless and deduplicated", "statement": "The mesh object made for a list of triangles has pairwise distinct vertices, all indices in range, and looking the indices of the k-th 3MF triangle up in the vertex list gives exactly the corners of the k-th input triangle; it is rejected exactly when some vertex is used fewer than three times.", "quantifier": "every list of triangles, any number of previously added objects", "why_tests_cant": "index bookkeeping over arbitrary sharing patterns", "anchors": ["render/3mf.go: AddObject, Create3MF"]}
{"id": "C15", "title": "Bounds really bound the shape", "statement": "For every shape assembled from the library's constructors with sharp (unblended) minimum and maximum functions, every point where Evaluate is negative lies inside Bounds().", "quantifier": "every expression tree of constructors with all admissible parameters, every point", "why_tests_cant": "infinitely many trees and points; the renderer silently clips geometry outside Bounds", "anchors": ["sdf3.go: Bounds of all constructors", "sdf2.go: Bounds of all constructors", "form2/must2", "form3/must3"]}
{"id": "C16", "title": "Boolean operations are set operations", "statement": "A point is strictly inside Union3D/Union2D, Difference3D/2D, Intersect3D/2D, Cut3D/2D (sharp min/max) exactly when it is inside by the corresponding set operation on the operands (union; inside s0 and strictly outside s1; intersection; inside and on the kept side of the plane), for any number of operands.", "quantifier": "all operand shapes with any Evaluate function (for Union2D, contained in their Bounds as the interface requires), every number of operands >= 2, every point", "why_tests_cant": "quantifies over all shapes and points", "anchors": ["sdf3.go: Union3D, Difference3D, Intersect3D, Cut3D", "sdf2.go: Union2D, Difference2D, Intersect2D, Cut2D"]}
{"id": "C17", "title": "Distances are never overestimated (1-Lipschitz) through composition", "statement": "Every shape assembled from exact primitives with rigid transforms, uniform scaling, sharp booleans, cuts, offsets, shells, arrays, elongation, linear/rounded extrusion and revolution has a 1-Lipschitz Evaluate, so |Evaluate| never exceeds the true distance to the surface and sphere tracing and octree pruning are safe.", "quantifier": "every such expression tree, every pair of points", "why_tests_cant": "Lipschitz failures show only at particular pairs of points", "anchors": ["sdf3.go", "sdf2.go", "form2/must2/basic.go", "form3/must3/cylinders.go"]}
{"id": "C18", "title": "Primitive shapes report the exact signed distance", "statement": "Sphere, Box (unrounded and rounded), Cylinder and capsule, truncated Cone (while the rounding leaves non-negative radii), Circle and 2D Box/Line evaluate to the exact Euclidean signed distance: magnitude equals the distance to the nearest surface point and sign is negative exactly inside.", "quantifier": "all valid dimensions, every point of space", "why_tests_cant": "case splits by region; needs all points", "anchors": ["form3/must3/cylinders.go: sphere, box, cylinder, cone, sdfBox3d", "form2/must2/basic.go: circle, box, line, sdfBox2d"]}
{"id": "C19", "title": "Transform moves the shape by the matrix", "statement": "Transform3D(s,m)/Transform2D contain the image point m*q exactly when s contains q, for every invertible affine m, have bounds containing the image of s's bounds, and preserve distances when m is a rotation/translation; ScaleUniform by k>0 scales the shape and its distances by k.", "quantifier": "every shape, every invertible affine matrix, every k>0, every point", "why_tests_cant": "all matrices and points", "anchors": ["sdf3.go: Transform3D, ScaleUniform3D", "sdf2.go: Transform2D, ScaleUniform2D, Center2D, CenterAndScale2D", "matrix.go: Inverse, MulBox, MulPosition"]}
{"id": "C20", "title": "Matrix algebra used by transforms is correct", "statement": "Inverse is a two-sided inverse whenever the determinant is non-zero, MulPosition of a product is the composition for affine matrices, the rotation constructors are orthogonal with determinant 1, mirrors are isometric involutions, and MulBox contains the image of every point of the box.", "quantifier": "all matrices with non-zero determinant, all angles and axes, all boxes and points", "why_tests_cant": "polynomial identities over all reals", "anchors": ["matrix.go: Mul, MulPosition, Inverse, Determinant, MulBox, Rotate3D, RotateX, RotateY, RotateZ, Rotate, Mirror*, Translate*, Scale*"]}
{"id": "C21", "title": "Orient3D turns base onto each direction by a rotation", "statement": "The matrix used by Orient3D maps the base direction to the requested direction and is a proper rotation, for all pairs of non-zero vectors.", "quantifier": "all pairs of non-zero vectors, including parallel and opposite ones", "why_tests_cant": "the special opposite/parallel cases are measure zero", "anchors": ["matrix.go: rotateToVec", "sdf3.go: Orient3D"]}
{"id": "C22", "title": "Arrays and rotational unions contain exactly their copies", "statement": "Array3D/Array2D contain a point exactly when one of the num[0]*num[1](*num[2]) stepped copies does; RotateUnion3D/2D exactly when one of the num copies step^i does; non-positive counts give an empty shape.", "quantifier": "every shape bounded below MaxFloat64, every count, step vector and matrix, every point", "why_tests_cant": "loop bounds and matrix accumulation over all counts", "anchors": ["sdf3.go: Array3D, RotateUnion3D", "sdf2.go: Array2D, RotateUnion2D"]}
{"id": "C23", "title": "RotateCopy is the n-fold rotational pattern", "statement": "RotateCopy3D/2D(s,n) are invariant under rotation by 2*pi/n and, for a shape confined to one sector, contain a point exactly when one of the n rotated copies of the shape does.", "quantifier": "every n >= 1, every shape inside one sector, every point", "why_tests_cant": "atan2 branch cut and sawtooth wrap-around", "anchors": ["sdf3.go: RotateCopy3D", "sdf2.go: RotateCopy2D", "utils.go: sawTooth"]}
{"id": "C24", "title": "Offset and Shell grow and hollow by the stated distance", "statement": "For a shape with exact distance, Offset by d contains exactly the points with signed distance below d (for d>0: within d of the shape), Shell with thickness t contains exactly the points within t/2 of the surface, both with sufficient bounds; thickness <= 0 gives an empty shape.", "quantifier": "every exact-distance shape, every offset and thickness, every point", "why_tests_cant": "all shapes and distances", "anchors": ["sdf3.go: Offset3D, Shell3D", "sdf2.go: Offset2D"]}
{"id": "C25", "title": "Elongation stretches the shape", "statement": "Elongate3D/2D by h contains a point exactly when some translate of the shape by an offset within [-h/2,h/2] that clamps to it contains it: the shape is split at the coordinate planes and pulled apart by |h|; the result for a point in the central slab equals the shape at the clamped-away point, and h=0 changes nothing.", "quantifier": "every shape, every h, every point", "why_tests_cant": "all points, both signs of h", "anchors": ["sdf3.go: Elongate3D", "sdf2.go: Elongate2D"]}
{"id": "C26", "title": "Extrusions have the right cross sections", "statement": "Extrude3D contains (x,y,z) exactly when |z|<height/2 and the 2D shape contains (x,y); TwistExtrude3D's section at z is the 2D shape rotated by -twist*z/height; ScaleExtrude3D's section scales linearly from 1 to scale (in inverse) over the height; ScaleTwistExtrude3D's section does both; ExtrudeRounded3D has total height `height` and rounded edges; the bounding boxes contain these solids.", "quantifier": "every SDF2, all heights, twists, scales, roundings, every point", "why_tests_cant": "all parameters and points", "anchors": ["sdf3.go: Extrude3D, TwistExtrude3D, ScaleExtrude3D, ScaleTwistExtrude3D, ExtrudeRounded3D, Loft3D", "utils.go: TwistExtrude, ScaleExtrude, ScaleTwistExtrude"]}
{"id": "C27", "title": "Revolution sweeps the profile through theta", "statement": "Revolve3D(s,theta) for 0<theta<=2*pi contains a point exactly when its (radius, z) is inside the profile and its polar angle lies in (0,theta) (all angles for a full turn, angles within the library's 1e-9 tolerance of 2*pi counting as a full turn), theta<=0 is empty, and the bounding box contains the solid.", "quantifier": "every SDF2, every theta, every point", "why_tests_cant": "wedge logic changes at pi/2, pi, 3pi/2 and 2pi", "anchors": ["sdf3.go: Revolve3D"]}
{"id": "C28", "title": "Smooth minimum functions are valid blends", "statement": "MinPoly (n=1,2,3 and general), MinRound and MinExp are symmetric, never exceed math.Min, equal it when the two distances differ by at least k (poly, round outside the fillet), exceed below it by at most the documented amount, are monotone and 1-Lipschitz where documented; MaxPoly(n,k) is the negated dual of MinPoly(n,k).", "quantifier": "all real a,b, all k>0, all degrees n", "why_tests_cant": "all reals and degrees; includes the seams where the polynomial piece joins", "anchors": ["utils.go: MinRound, MinExp, MinPow, MinPoly, minQuad, minCubic, minPoly, MaxPoly, maxPoly"]}
{"id": "C29", "title": "Union2D's bounding-box pruning changes nothing", "statement": "Union2D's accelerated Evaluate returns the same value as the plain minimum over all operands.", "quantifier": "every list of >= 2 operands, every point", "why_tests_cant": "the pruning decision depends on the relative position of the point and all boxes", "anchors": ["sdf2.go: union2.Evaluate, EvaluateSlow", "internal/d2/box.go: MinMaxDist2", "internal/d2/vector.go: Overlap"]}
{"id": "C30", "title": "Box distance bounds are exact", "statement": "MinMaxDist2 returns the squared distance from the point to the nearest and to the farthest point of the box, in 2D and 3D.", "quantifier": "every box and point", "why_tests_cant": "regional case analysis over all points", "anchors": ["internal/d2/box.go: MinMaxDist2", "internal/d3/box.go: MinMaxDist2"]}
{"id": "C31", "title": "Polygon distance and sign", "statement": "Polygon(vertices).Evaluate has magnitude equal to the distance to the polygon's outline, is negative exactly when the winding number of the outline about the point is non-zero, is positive everywhere outside the vertices' bounding box, and is 1-Lipschitz wherever the sign is constant; fewer than three vertices is refused.", "quantifier": "every vertex list without repeated consecutive vertices whose first and last vertices are equal or more than 1e-9 apart, every point within 1e150 units", "why_tests_cant": "all polygons and points, including points level with vertices", "anchors": ["form2/must2/poly.go: Polygon, polygon.Evaluate, polygon.Bounds"]}
{"id": "C32", "title": "PolygonBuilder resolves every specification and is stable", "statement": "Vertices() of a builder terminates for every sequence of Add/Rel/Polar/Smooth/Chamfer/Arc calls, calling it twice gives the same vertices, un-modified absolute vertices are kept in order, and a chamfered/smoothed/arc'd corner is replaced by facet points on the fillet/arc.", "quantifier": "every sequence of builder calls", "why_tests_cant": "the rewriting loops restart after every replacement; termination and idempotence are not testable", "anchors": ["form2/must2/poly.go: PolygonBuilder, fixups, createArcs, smoothVertices, relToAbs"]}
{"id": "C33", "title": "Error-returning constructors never panic", "statement": "Every form2/form3 constructor returns an error rather than panicking for invalid dimensions, and returns a usable shape (nil error) exactly for the dimensions its must2/must3 counterpart accepts.", "quantifier": "all real parameters of every constructor", "why_tests_cant": "all parameter combinations", "anchors": ["form2/basic.go", "form2/poly.go", "form3/basic.go", "form3/must3", "form2/must2"]}
{"id": "C34", "title": "Pattern constructors accept every pattern", "statement": "LineOf3D/LineOf2D, Multi3D/Multi2D and Orient3D return the union of the placed copies for every pattern or position list, including one copy and none.", "quantifier": "every shape, pattern string and position list", "why_tests_cant": "all list lengths including 0 and 1", "anchors": ["sdf3.go: LineOf3D, Multi3D, Orient3D", "sdf2.go: LineOf2D, Multi2D"]}
{"id": "C35", "title": "Parts built from valid parameters never panic", "statement": "obj2.Panel, EuroRackPanel, obj3.Standoff, thread.Bolt, thread.Nut return a part or an error for every parameter set their documentation allows.", "quantifier": "all parameter sets", "why_tests_cant": "optional fields (no holes, no pillar hole, shank equal to length) interact", "anchors": ["form2/obj2/panel.go", "form3/obj3/standoff.go", "form3/obj3/thread/bolt.go", "form3/obj3/thread/nut.go"]}
{"id": "C36", "title": "Screw threads are helical", "statement": "A Screw with no taper evaluated inside its length is invariant under the screw motion (rotate by an angle and advance pitch*starts*angle/(2*pi)), is periodic in z with the pitch, has the requested handedness, and its bounding box contains it.", "quantifier": "every thread profile, pitch, number of starts, length, taper, point", "why_tests_cant": "all points; sawtooth wrap and atan2 branch cut", "anchors": ["form3/obj3/thread/thread.go: Screw, screw.Evaluate"]}
{"id": "C37", "title": "Raycasting is safe and terminates", "statement": "raycast3 with step scale in (0,1] on a 1-Lipschitz shape never steps past the first surface crossing, stops after at most maxSteps evaluations, reports a point where |Evaluate| < epsilon exactly when t >= 0, and that point lies t along the ray.", "quantifier": "every 1-Lipschitz SDF3, ray, epsilon>0, maxDist, maxSteps>=1", "why_tests_cant": "all shapes and rays", "anchors": ["utils.go: raycast3, raycast2"]}
{"id": "C38", "title": "NPT and thread lookup tables", "statement": "NPT.SetFromNominal succeeds exactly for nominal sizes matching a table entry within tolerance, sets a unique entry, and leaves the value unchanged on error.", "quantifier": "every real nominal size", "why_tests_cant": "real-valued input, tolerance windows", "anchors": ["form3/obj3/thread/npt.go: SetFromNominal"]}
{"id": "C39", "title": "Nearest-triangle search with the bounding-interval tree is exact", "statement": "The tree search over an imported mesh returns a triangle at minimal distance, the same distance as checking every triangle, whatever the tree shape.", "quantifier": "every mesh, every tree over it, every query point", "why_tests_cant": "pruning depends on traversal order and geometry", "anchors": ["helpers/sdfexp/bih.go: nearestDistHelper, minDistBox, minDistTri, subdivide"]}
{"id": "C40", "title": "Rigid-transform helper algebra", "statement": "The d3.Transform (stored minus identity) behaves as a 4x4 affine matrix: zero value is the identity, Mul is composition, Inv inverts when the determinant exceeds the tolerance, Translate/Scale/Rotate compose as documented.", "quantifier": "all transforms and points", "why_tests_cant": "polynomial identities over all reals", "anchors": ["internal/d3/transform.go", "internal/d2/transform.go"]}
{"id": "C41", "title": "Triangle canonical frame is a rigid motion", "statement": "The transform that brings a triangle to canonical position is an isometry taking its first vertex to the origin, second to the positive X axis and third to the upper half of the XY plane, for every non-degenerate triangle.", "quantifier": "every non-degenerate triangle", "why_tests_cant": "all triangles", "anchors": ["helpers/sdfexp/spatial3.go: canalisTransform"]}
{"id": "C42", "title": "Closest point on a triangle", "statement": "The closest-point routines return the point of the triangle nearest to the query and the feature (face, edge, vertex) it lies on.", "quantifier": "every non-degenerate triangle and query point", "why_tests_cant": "region boundaries", "anchors": ["helpers/sdfexp/spatial2.go", "helpers/sdfexp/spatial3.go", "helpers/sdfexp/bih.go: minDistTri"]}
{"id": "C43", "title": "Tetrahedral BCC mesh numbering is consistent", "statement": "The BCC grid builder gives every lattice node one index, shared by all cells touching it, every index is in range, and every tetrahedron refers to four distinct nodes at the positions of the cell corners and centres it is meant to join.", "quantifier": "every grid size", "why_tests_cant": "index bookkeeping over all grid sizes", "anchors": ["helpers/sdfexp/bccmesh.go", "helpers/sdfexp/omesh.go"]}
{"id": "C44", "title": "Grid mapping and integer vectors round trip", "statement": "Mapping a grid index to region coordinates and back is the identity for every index in the grid, with or without y flip, and mapped points lie inside the region.", "quantifier": "every box with positive size, every grid, every index", "why_tests_cant": "float-to-int truncation over all indices", "anchors": ["utils.go: map2.ToV2, map2.ToV2i, newMap2", "veci.go"]}
{"id": "C45", "title": "3D-print shrinkage compensation", "statement": "Scaling a part by the material's compensation and then letting it shrink by the material's factor gives back the nominal size, and internal dimension scaling is inverse-consistent.", "quantifier": "every material factor, every dimension", "why_tests_cant": "real parameters", "anchors": ["helpers/matter/3dprint.go"]}
{"id": "C46", "title": "Importing a mesh keeps its triangles up to the vertex tolerance", "statement": "Importing a list of triangles with the box-tree importer either fails or yields one triangle per input triangle, in which every corner has been replaced by an input corner less than twice the tolerance away along each axis, the same input corner always by the same one and corners in the same tolerance cell by one shared corner; the bounds contain all corners. Negative tolerances and tolerances larger than half the longest edge are refused.", "quantifier": "every triangle list and tolerance", "why_tests_cant": "the snapping depends on every pair of vertices and on truncation to grid cells", "anchors": ["helpers/sdfexp/bih.go: ImportModelV2, newBIH"]}
{"id": "C47", "title": "The sign of an imported mesh's distance tells inside from outside", "statement": "For a triangle mesh that is the boundary of a solid with outward normals, the imported shape evaluates to a negative value at points inside the solid and to a positive value at points outside.", "quantifier": "every closed outward-oriented mesh, every query point off the mesh", "why_tests_cant": "the sign is decided at the closest point, which for whole regions of space is a shared edge or vertex", "anchors": ["helpers/sdfexp/bih.go: bih.Evaluate", "helpers/sdfexp/import.go: ImportedSDF3.Evaluate"]}
{"id": "C48", "title": "A loft turns its first figure into its second", "statement": "A loft is bounded by its two end planes. Its section at the bottom is the first figure and its section at the top is the second; between them the section is where the blend of the two figures' values, weighted linearly by height, is negative. Rounding grows the sections of the straight part by the radius and closes the ends along quarter circles. Lofting a figure into itself gives its extrusion, and impossible heights are rejected.", "quantifier": "every pair of 2D shapes, every height and rounding, every point", "why_tests_cant": "the section changes continuously with height; tests look at a few heights of symmetric figures, where exchanging the figures goes unnoticed", "anchors": ["sdf3.go: Loft3D", "sdf3.go: loft3.Evaluate"]}
{"id": "C49", "title": "A tetrahedral mesh is the part of the lattice that touches the solid, pulled onto it", "statement": "The tetrahedral mesh of a shape consists of the tetrahedra of the body-centred cubic lattice over its box that have a corner inside the shape, all with four different nodes that exist; every node returned has coordinates; nodes outside the shape are pulled towards its surface by the given fraction of their distance and nodes inside are only smoothed between their neighbours; resolutions with fewer than three cells along an axis are refused.", "quantifier": "every shape, resolution, and pass of the smoother", "why_tests_cant": "needs every shape and box: tests show the mesh of one shape, where a node lost or a tetrahedron too many is not seen", "anchors": ["helpers/sdfexp/basicmesh.go: UniformTetrahedronMesh", "helpers/sdfexp/omesh.go: newOmesh, compressAndSmooth", "helpers/sdfexp/spatial3.go: gradient, laplacian"]}
{"id": "C50", "title": "An imported model with pseudo-normals measures distances with the right sign", "statement": "Importing a triangle model merges corners within the tolerance, gives each triangle its normal, each edge the sum of the normals of the triangles sharing it and each corner the sum of its triangles' normals weighted by their angles there. Evaluated at a point off the surface, the model's value is the distance to the nearest triangle, negative exactly inside the solid. Models with no triangles, and tolerances too large for the smallest triangle side, are rejected.", "quantifier": "every triangle model, tolerance, query point, and any order of queries", "why_tests_cant": "the sign depends on which feature of which triangle is nearest and on all the triangles around it; tests query a few points of one model, one at a time", "anchors": ["helpers/sdfexp/import.go: ImportModel, newMesh, Evaluate", "helpers/sdfexp/spatial3.go: Distance, CopySign"]}
{"id": "C51", "title": "Thread profiles have their nominal form", "statement": "The two-dimensional profile returned by Thread() of an Acme, ISO, UTS, ANSI buttress or plastic buttress thread of diameter D and pitch P is, over one pitch, exactly the region between the axis and the nominal thread form of the corresponding standard (flank angles, crest and root radii, positions of the flats), apart from the small neighbourhoods of the corners that the standard or the code rounds; and the profile of an external ISO thread never rises above the one of the internal thread of the same size.", "quantifier": "all diameters and pitches for which the thread does not cut through the axis, all points of the profile plane within one pitch", "why_tests_cant": "A test compares sampled points of particular threads; the profile is the sign of a polygon distance whose rounded corners come from an iterative vertex fix-up, for real-valued sizes and points.", "anchors": ["form3/obj3/thread/acme.go: Acme.Thread", "form3/obj3/thread/iso.go: ISO.Thread", "form3/obj3/thread/uts.go: UTS.Thread", "form3/obj3/thread/ansibuttress.go: ANSIButtress.Thread", "form3/obj3/thread/plasticbuttress.go: PlasticButtress.Thread", "form2/must2/poly.go: smoothVertex"]}
{"id": "C52", "title": "An imported model's value is the distance to its nearest triangle", "statement": "For a triangle model imported with pseudo-normals, the magnitude of the value at a query point is the distance from the point to the nearest triangle of the model, whatever the order of the triangles in the file and whatever the shape of the search tree built from them.", "quantifier": "every triangle model, every search tree sorted by the triangles' centres, every query point, whatever the triangles remember of earlier queries", "why_tests_cant": "which triangles the search leaves out depends on all centres, on the tree's pivots and on the query point; a test sees a wrong neighbour only if it hits the part of space where a long triangle is near but its centre is far", "anchors": ["helpers/sdfexp/import.go: ImportModel, Evaluate, Pivot, kdPlane.Less", "helpers/sdfexp/spatial3.go: Compare, Distance"]}
{"id": "C53", "title": "Rendered triangles face outwards and the mesh encloses the shape's volume", "statement": "Every triangle of a rendered mesh is oriented so that its normal by the right-hand rule points from inside the shape to outside; where the shape is flat the normal is exactly the outward direction. The volume enclosed by the complete mesh (the sum of the signed volumes of its tetrahedra with the origin) is at least the volume of the points deeper inside the shape than one cell diagonal and at most the volume of the points less than one cell diagonal away from it. The statement about the volume assumes that no grid vertex lies exactly on the surface (or that no sub-cube centre is at a depth of exactly half its diagonal).", "quantifier": "every shape whose distance changes by no more than the distance moved, every resolution, every buffer size and schedule; for single cells, every assignment of values to the corners", "why_tests_cant": "one entry of the 256-row triangle table with two corners exchanged turns a triangle round only in cells with that sign pattern; a test of a few shapes meets few of the patterns, and the volume bound is a statement about a measure over all points", "anchors": ["render/marchingcubes.go: mcToTriangles, mcInterpolate", "render/marchingcubes.go: mcPairTable, mcEdgeTable, mcTriangleTable", "render/octree_renderer.go: ReadTriangles, processCube"]}
{"id": "C54", "title": "Blended booleans grow or shrink by a bounded depth only", "statement": "After SetMin with a valid blend (MinPoly of degree 1 or more, MinExp) a union, array or rotated union contains the sharp one and its value is lower by at most one blend depth per operand; after SetMax with MaxPoly a difference or intersection is contained in the sharp one and its value is higher by at most one depth. With radius k the blend of two shapes changes nothing where their distances differ by k or more. Distances are still never overestimated, and the reported box still contains the shape.", "quantifier": "every blend function with the stated properties, all operands, any number of them, all copies and steps, every point", "why_tests_cant": "A blend changes the shape in a region that depends on all operands, and boxes and pruning were designed for sharp booleans; only a proof over all operands and points tells what survives.", "anchors": ["sdf2.go: Union2D, SetMin, Difference2D, SetMax, Array2D, RotateUnion2D", "sdf3.go: Union3D, SetMin, Difference3D, Intersect3D, SetMax, Array3D, RotateUnion3D", "utils.go: MinPoly, MaxPoly, MinExp, MinRound"]}
{"id": "C55", "title": "A nut screws onto a bolt of the same thread", "statement": "For a bolt and a nut made for the same thread (one untapered thread for both, or the external and internal forms of an ISO or UTS thread of equal diameter and pitch), whatever their styles and lengths, bring the nut onto the bolt's axis over the threaded part and turn it by any angle while it advances by the lead per turn: as long as the nut's lower face stays above the end of the shank, no point of space lies inside both parts.", "quantifier": "every diameter and pitch with room for the thread, every style of head and nut, every total length and shank length, every turning angle, every point of space", "why_tests_cant": "interference would show only at particular angles and points; a test evaluates the two solids at finitely many of each, and for a few sizes", "anchors": ["form3/obj3/thread/bolt.go: Bolt", "form3/obj3/thread/nut.go: Nut", "form3/obj3/thread/thread.go: Screw", "form3/obj3/thread/iso.go: ISO.Thread", "form3/obj3/thread/uts.go: UTS.Thread", "form3/obj3/thread/acme.go: Acme.Thread"]}
{"id": "C56", "title": "The rendered mesh is as close to the surface as the cell size", "statement": "For every shape with a valid distance (1-Lipschitz) whose bounding box contains it, rendered by the octree renderer with any resolution, buffers, workers and schedule: every point of every delivered triangle, not only its corners, is within one cell diagonal of a point of the surface; and when rendering has finished nothing was missed: wherever the shape has, within R of a point, both a point inside and a point outside by half a cell diagonal, the mesh has a vertex within sqrt(2)(R + half a cell diagonal) of that point. In particular a solid with a point deeper than half a cell diagonal does not vanish from the output. The cell edge is 1.01 * longest side of the box / meshCells. The second part assumes no grid vertex within 1e-12 of the surface.", "quantifier": "all 1-Lipschitz shapes and boxes, all mesh cell counts, all buffer sizes, worker counts and schedules, all triangles and all points of them, all points of space", "why_tests_cant": "The bound is over every point of every triangle of every shape at every resolution, and 'nothing missed' is a statement about an absent triangle; tests compare triangle counts or hashes for a few shapes.", "anchors": ["render/octree_renderer.go: ReadTriangles, processCube, isEmpty", "render/marchingcubes.go: mcToTriangles, mcInterpolate, mcTriangleTable, mcEdgeTable"]}
{"id": "C57", "title": "The STL file of a solid describes a closed surface", "statement": "For every solid with a valid distance and a bounding box that contains it, in particular every solid assembled from the supported constructors (trees of unbounded size), CreateSTL with the octree renderer, at any resolution, with any number of workers and any schedule, can always run to its end, and the triangles that any STL reader finds in the resulting bytes form a closed, consistently oriented surface although every coordinate was rounded to float32; each stored corner is within a cell edge plus the rounding error of the surface. Assumes that no grid vertex lies exactly on the surface (or that no sub-cube centre is at a depth of exactly half its diagonal) and fewer than 2^32 triangles.", "quantifier": "all solids, constructor trees, resolutions, worker counts, schedules, rounding functions and resulting files", "why_tests_cant": "A leak needs one unmatched edge in one file; whether rounding can open one, for any shape and any schedule of the workers, cannot be sampled.", "anchors": ["render/stl.go: CreateSTL, createSTL, stlReader.Read, stlTriangle.put", "render/octree_renderer.go: NewOctreeRenderer, ReadTriangles", "render/marchingcubes.go: mcToTriangles"]}
{"id": "C58", "title": "The rendered mesh is a closed manifold", "statement": "When the renderer has delivered all triangles of a solid with valid distances and bounds, and no grid vertex is within 1e-12 of the surface, every triangle has three different corners, every edge of a triangle belongs to exactly one other triangle, which traverses it in the opposite direction, and the triangles around a corner form a single fan: the surface does not cross or touch itself along edges or at corners. The same holds of the STL file if rounding to float32 keeps different corners apart.", "quantifier": "all solids with 1-Lipschitz distances that are contained in their bounding box, all resolutions, all buffer sizes and all goroutine schedules", "why_tests_cant": "the property involves all 256 corner patterns of a cell combined with those of the 18 cells that share a face or an edge with it; a test meshes a few shapes and sees a few of these combinations", "anchors": ["render/marchingcubes.go: mcToTriangles, mcTriangleTable, mcPairTable", "render/octree_renderer.go: ReadTriangles", "render/stl.go: CreateSTL"]}
{"id": "C59", "title": "Nagon is the regular polygon", "statement": "For every number of sides n of at least 3 and every radius (for which a side is not below the closing tolerance of the polygon), the polygon made from the vertices of Nagon has its corners on the circle of that radius; a point is inside exactly if it is closer to the centre than each of the n sides, measured perpendicular to the side, and outside exactly if it is beyond one of them; distances are never overestimated, the inscribed circle is inside and everything inside is within the circumscribed circle.", "quantifier": "all numbers of sides, all radii, all points of the plane", "why_tests_cant": "tests sample a few values of n and a few points; the claim concerns every n and every point, including those next to the corners", "anchors": ["form2/must2/poly.go: Nagon", "form2/must2/poly.go: Polygon", "form2/poly.go: Nagon", "form3/obj3/thread/hexhead.go: HexHead"]}
{"id": "C60", "title": "Heads and nuts have the size of their thread", "statement": "The size across flats of the head or nut of a metric thread exceeds the diameter of the thread, so that the thread has something to hold on to, and a hexagonal head is the rounded hexagonal prism of that size across flats and of the stated height. Partial: the size exceeds the diameter exactly for diameters below 95 (the size table ends there; for larger threads round and hexagonal nuts are constructed without error but contain no point), and hexagonal heads are 1.2 percent wider across flats than the size says.", "quantifier": "all thread diameters and pitches, all points of the heads and nuts", "why_tests_cant": "the table lookup has a continuum of inputs, and whether any point of a nut is left after the thread has been cut concerns all points of space", "anchors": ["form3/obj3/thread/basic.go: metricf2f", "form3/obj3/thread/hexhead.go: HexHead", "form3/obj3/thread/nut.go: Nut", "form3/obj3/thread: ISO, Parameters"]}
{"id": "C61", "title": "Threads hold", "statement": "A nut on the thread of a bolt of the same kind, diameter and pitch can only be where turning it has taken it: with its middle within the thread, it is free of the thread exactly in the positions of the screw motion, up to whole pitches. In particular it cannot be pulled off or shifted along the axis by less than a pitch, by however little.", "quantifier": "all diameters below 95 and pitches, thread lengths, nut styles, angles of rotation and displacements along the axis", "why_tests_cant": "for every displacement that is not a whole number of pitches a point common to both parts has to exist, and for every other one no point of space may be common", "anchors": ["form3/obj3/thread/thread.go: Screw", "form3/obj3/thread/nut.go: Nut", "form3/obj3/thread/iso.go: ISO", "form3/obj3/thread/uts.go: UTS", "form3/obj3/thread/acme.go: Acme", "form3/obj3/thread/ansibuttress.go: ANSIButtress", "form3/obj3/thread/plasticbuttress.go: PlasticButtress"]}
{"id": "C62", "title": "Convex polygons are the intersection of the half planes of their sides", "statement": "A polygon whose corners all lie on the same side of each of its sides' lines, in either order of the corners, is inside exactly where a point is strictly on that side of every side's line, and outside exactly where it is strictly beyond one of them; it is a convex set.", "quantifier": "all lists of corners in convex position, all points of the plane", "why_tests_cant": "there are infinitely many polygons with arbitrarily many corners, and the inside test must be right arbitrarily close to the sides and in line with the corners", "anchors": ["form2/must2/poly.go: Polygon", "form2/poly.go: Polygon"]}
{"id": "C63", "title": "ChamferedCylinder cuts off the chamfers and nothing else", "statement": "ChamferedCylinder of a shape is what the shape has in common with the cylinder reaching to the upper limits of its bounds, whose lower and upper rims are cut off at 45 degrees with chamfers of the lengths kb and kt times the radius. Partial: the axis is lost: its points are on the surface of every chamfered shape, so that the middle of a chamfered cylinder and the threaded part of every bolt are pierced by a line that is not inside.", "quantifier": "all shapes, chamfer factors that fit, and points of space", "why_tests_cant": "the claim concerns all points of space; the lost axis has no volume, so that sampling does not hit it", "anchors": ["form3/basic.go: ChamferedCylinder", "form3/must3/cylinders.go: ChamferedCylinder", "form2/must2/poly.go: Chamfer, Vertices", "sdf3.go: Revolve3D", "form3/obj3/thread/bolt.go: Bolt"]}
{"id": "C64", "title": "A 3MF file holds the whole mesh of the renderer", "statement": "Create3MF on a fresh octree renderer saves a document with one object, built once, whose mesh, read back by looking up its vertex indices, is exactly what the renderer delivers until io.EOF, so that a closed rendering gives a closed 3MF mesh.", "quantifier": "every solid, every number of mesh cells, every run of the renderer", "why_tests_cant": "whether triangles are dropped depends on where the last cell falls in the sequence of buffered reads", "anchors": ["render/3mf.go: Create3MF, new3MF, AddObject", "render/io.go: RenderAll", "render/octree_renderer.go: ReadTriangles"]}
{"id": "C65", "title": "TriangleBuffer is a first-in first-out queue", "statement": "After any series of Write and Read calls, the triangles read followed by those still in the buffer are those written, in order and without loss or duplication; Read fills as much of the slice as it can and leaves the rest untouched, and Len is the number of triangles still to be read.", "quantifier": "every series of writes and reads with slices of any length", "why_tests_cant": "ranges over all interleavings and lengths", "anchors": ["render/io.go: TriangleBuffer, Read, Write, Len"]}
{"id": "C66", "title": "The plain decomposition of a lattice cube fills it", "statement": "The plain decomposition of a cube of a body-centred lattice consists of twelve tetrahedra of equal volume and equal orientation, which lie in the cube, cover it and overlap only along their borders; on a face shared by two cubes, both cubes use the same triangles.", "quantifier": "every cube, every position and size, every point of space", "why_tests_cant": "covering and disjointness speak of all points of the cube, and fitting of all neighbouring cubes", "anchors": ["helpers/sdfexp/bccmesh.go: naiveTetras"]}
{"id": "C67", "title": "Normals by differences are normals", "statement": "The numerical normal of a shape has length one wherever some difference does not vanish, equals the normal of a half space exactly for every step, and, wherever the partial derivatives of the shape exist and are not all zero, tends to the direction of the gradient as the step shrinks; outside the centre of a ball it tends to the direction away from the centre.", "quantifier": "every shape, every point, every step", "why_tests_cant": "limits, and all shapes with partial derivatives", "anchors": ["utils.go: normal3, normal2"]}
{"id": "C68", "title": "Interrupted STL exports are recognised", "statement": "Reading any file, however its bytes arrive, yields exactly the triangles stored in it or an error. Every strict prefix of an STL file is rejected. WriteSTL gives its writer a prefix of the file whatever the writer does, and the whole file when it returns no error. What CreateSTL leaves behind when it fails or is interrupted at any point is rejected on reading, so a partial export is never taken for a model.", "quantifier": "every file, every way of cutting reads, every failing writer, every renderer, every crash point", "why_tests_cant": "ranges over all crash points, all short reads and all writers", "anchors": ["render/stl.go: WriteSTL, CreateSTL, createSTL, readBinarySTL"]}
{"id": "C69", "title": "Building steps obey the laws used when rewriting a model", "statement": "A sharp union of solids depends only on which solids are joined, not on order, grouping or repetition, in its values at every point and in its bounding box; cutting several tools out one after another is cutting out their union; removing, intersecting and plane-cutting pass through unions, and cuts commute; transforms compose like their matrices, are undone by the inverse, and pass through unions, differences, intersections and offsets; offsets add up and scalings multiply; a shell is the grown shape without the shrunk one. In the plane the same holds, except that the value (not the region) of a union may depend on the order when an operand claims to be nearer than its bounding box.", "quantifier": "every solid and figure, every list of operands, every point, transform, offset and scale factor", "why_tests_cant": "the laws range over all shapes, operand lists and points", "anchors": ["sdf3.go: Union3D, Difference3D, Intersect3D, Cut3D, Transform3D, ScaleUniform3D, Offset3D, Shell3D", "sdf2.go: Union2D, Difference2D, Intersect2D, Cut2D, Transform2D, ScaleUniform2D, Offset2D"]}
{"id": "C70", "title": "A saved 3MF file can be opened and holds the meshes it was made from", "statement": "If saving a 3MF document reports no error, a reader that follows the file format (content types, the relationship naming the model part, units, build items, object ids, vertex indices) opens the file and finds, for every object added, exactly its triangles in order; if saving reports an error, at whatever call, the file left behind is not accepted; and every reference inside the document resolves.", "quantifier": "every list of objects, every list of triangles, every point of failure while saving", "why_tests_cant": "indices, ids and names must agree for every document, and failures can happen at every write", "anchors": ["render/3mf.go: Create3MF, new3MF, AddObject, Create, relationships"]}
{"id": "C71", "title": "Small changes of the parts make small changes of the model, and larger parts a larger model", "statement": "If the same building steps (placements, uniform scaling, sharp and blended unions, differences and intersections, cuts, offsets, shells, arrays, rotated copies, elongation, slices, all kinds of extrusion, lofts and revolutions, nested to any depth) are carried out on parts whose values differ nowhere by more than a growth g and a shrinkage s (with the roles exchanged for what is subtracted), then the values of the two models differ nowhere by more than g and s. Hence enlarging parts and making the tools of differences smaller never loses material, and parts within a tolerance e change the model only in a skin where both values are within e of zero.", "quantifier": "every tree of building steps of any depth and width, every pair of families of parts, every allowance, every point", "why_tests_cant": "a test compares a few revisions of a few models at a few points; the claim is about every model, every revision and every point", "anchors": ["sdf3.go: Union3D, Difference3D, Intersect3D, Cut3D, Offset3D, Shell3D, Array3D, RotateUnion3D, RotateCopy3D, Elongate3D, Extrude3D, ExtrudeRounded3D, Loft3D, Revolve3D, Transform3D, ScaleUniform3D", "sdf2.go: Union2D, Difference2D, Intersect2D, Cut2D, Offset2D, Array2D, RotateUnion2D, RotateCopy2D, Elongate2D, Slice2D", "utils.go: MinPoly, MinExp, MaxPoly"]}
{"id": "C72", "title": "Cells that share an edge compute the same corner on it, also in floating point", "statement": "With floating point arithmetic that rounds every operation with a relative error of at most u, the corner computed on a cell edge is within 11u (relative to the larger coordinate of the edge's ends) of the exact one, so that two cells sharing an edge compute corners that differ by at most 22u, and not at all across the edge; the whole mesh is a closed mesh with its corners displaced by at most that. That the mesh itself is closed, as with exact arithmetic (C08), is false in float64.", "quantifier": "every arithmetic of relative error at most u <= 1/16 (float64 has u = 2^-53), every edge with ends of different sign, every grid and every set of values with finitely many inside", "why_tests_cant": "whether two cells agree depends on the last bits of the values, so that most models of a test suite show no crack, and no test can give the bound on the gap", "anchors": ["render/marchingcubes.go: mcInterpolate, mcToTriangles, mcPairTable"]}
{"id": "C73", "title": "A model is what its building steps and the blends set last say, whatever else the program does", "statement": "After any program that makes parts, moves, cuts, offsets, shells, repeats, joins, subtracts and intersects solids (sharing parts freely), and sets and resets blends in any order, every object evaluates to the solid its own building steps describe with the blends that were set last, and its box never changes; setting a blend affects only that object and those built from it. Constructors neither change nor depend on the caller's slices later.", "quantifier": "every sequence of constructor calls, setter calls and assignments to the caller's slices, of any length; every object; every later continuation", "why_tests_cant": "tests build a model and use it at once; the claim is about every later history, and failures need a slice to be used again or an array with room behind the slice", "anchors": ["sdf3.go: Union3D, SDF3Union.SetMin, Difference3D, Intersect3D, SDF3Diff.SetMax, Array3D, RotateUnion3D, Transform3D, ScaleUniform3D, Elongate3D, Cut3D, RotateCopy3D, Offset3D, Shell3D", "form2/must2/poly.go: Polygon"]}
{"id": "C74", "title": "Moving a model moves its mesh, and scaling a model scales its mesh", "statement": "Rendering a solid moved by any vector with the same number of cells delivers exactly the triangles of the solid's own mesh, each moved by that vector; rendering a solid scaled uniformly by a positive factor delivers the triangles of its own mesh scaled by that factor. So neither the place nor the unit of length in which a model is built matters.", "quantifier": "every solid with a non-degenerate box, every displacement, every positive scale factor, every cell count, every buffer size, thread count and schedule of the two renderings", "why_tests_cant": "ranges over all fields, displacements and scales; a test compares two meshes of one shape, and the failures need distances or triangles near a threshold of 1e-12", "anchors": ["render/octree_renderer.go: NewOctreeRenderer, ReadTriangles, IsEmpty", "render/marchingcubes.go: mcToTriangles, mcInterpolate", "matrix.go: Translate3D, MulBox", "sdf3.go: Transform3D, ScaleUniform3D"]}
{"id": "C75", "title": "The example programs run to the end and build parts whose openings are open and whose parts touch", "statement": "Run with the shipped settings, the metric-spacer, support-plate, board-base, sensor-cover and pipe-flange examples construct every part they name without error; a bolt of the nominal diameter passes through each printed spacer and a wall is left around it; the six spacers of the row do not touch each other; every hole the support plate and the board base are given opens a hole in them; the sensor cover, printed and shrunk, takes the connector, the pins and the sensor it is made for; the flange has its bore open from face to face, and the threaded part and the disc it is joined to meet.", "quantifier": "every bolt diameter and height of a spacer, every shrinkage model, every point of space, every sufficient fuel of the profile builder", "why_tests_cant": "the claims range over every point of a solid and over all sizes of the spacer; a rendered example shows some triangles and cannot show that a hole is nowhere blocked or that two parts nowhere meet", "anchors": ["examples/metric-spacers: spacer, main", "examples/pcb-support: main", "examples/npt-flange: main", "form3/obj3/hexhead.go: HexHead", "form3/obj3/panel.go: Panel", "form3/obj3/thread/nut.go: Nut", "helpers/matter/matter.go: InternalDimScale", "examples/adz-sensor-cover/cover.go: main", "examples/pcb-spacer/boardspacer.go: base, standoffs"]}
