{"id": "C01", "title": "Slicing is schedule independent and never deadlocks", "statement": "SliceByVector returns the same list of layers whatever the number of CPUs and whatever the interleaving of its goroutines and channel operations: layer k of the result is the contour of plane k, in increasing Order. No interleaving blocks forever.", "quantifier": "every job list, every worker count >= 1, every interleaving of main and workers", "why_tests_cant": "A test run sees one interleaving on one machine; the number of schedules is unbounded.", "anchors": ["slicers/slice_by_vector.go:SliceByVector", "slicers/slice_by_vector.go:slicingWorker", "primitives/utils.go:DoInParallel"]}
{"id": "C02", "title": "Parallel fills write every slot exactly once", "statement": "Mesh.CopyTriangles returns the same triangles in the same order, and the parallel binary STL decoder fills slot i with record i, for every worker count and every interleaving of the workers' writes; the call returns only after all writes are done.", "quantifier": "every slice length, every worker count >= 1, every interleaving of writes", "why_tests_cant": "Races show up only under particular interleavings and core counts.", "anchors": ["primitives/mesh.go:CopyTriangles", "primitives/stl.go:loadSTLBinary", "primitives/utils.go:DoInParallelAndWait"]}
{"id": "C03", "title": "Binary STL save/load round trip", "statement": "Loading the bytes written by SaveSTL yields a mesh with the same number of triangles in the same order, each vertex coordinate converted to float32 and back, and each normal recomputed from those vertices. Saving and loading a second time changes nothing further.", "quantifier": "every mesh with fewer than 2^32 triangles, every coordinate value", "why_tests_cant": "The property ranges over all meshes; a sample of files cannot show offset or endianness errors for every field and count.", "anchors": ["primitives/stl.go:SaveSTL", "primitives/stl.go:LoadSTL", "primitives/stl.go:loadSTLBinary", "primitives/stl.go:makeFloat"]}
{"id": "C04", "title": "STL loader is total and picks the format by size", "statement": "LoadSTL never panics on any file content. A file shorter than 84 bytes is rejected with an error. A file whose length is exactly 84+50*count (count = little-endian word at offset 80) is read as binary and gives exactly count triangles; any other file is read as ASCII.", "quantifier": "every byte string", "why_tests_cant": "The input space is all byte strings.", "anchors": ["primitives/stl.go:LoadSTL", "primitives/stl.go:loadSTLBinary", "primitives/stl.go:loadSTLAscii"]}
{"id": "C05", "title": "ASCII STL vertices are grouped in file order", "statement": "For every ASCII STL document in the standard facet/outer loop/vertex layout, with any indentation and any number tokens, the loader returns exactly its facets in order with their three vertices in order. For arbitrary text the number of triangles is one third (rounded down) of the number of accepted vertex lines.", "quantifier": "every list of facets, every indentation, every token text, every list of text lines", "why_tests_cant": "Unbounded documents; off-by-one in the modulo-3 grouping only appears for particular counts.", "anchors": ["primitives/stl.go:loadSTLAscii"]}
{"id": "C06", "title": "Stored normals always match the vertices", "statement": "Every triangle produced by NewTriangle, Fill, Shift, Mesh.Rotate, Mesh.Shift, the STL loaders, CutMesh or the mesh simplifier wrapper has normal (P2-P1)x(P3-P1), provided the input mesh does; a normal stored in an STL file is ignored.", "quantifier": "every triangle and mesh, every operation sequence", "why_tests_cant": "An invariant over all histories of mesh operations.", "anchors": ["primitives/triangle.go:Fill", "primitives/triangle.go:Shift", "primitives/mesh.go:Rotate", "helpers/cut_mesh.go:CutMesh", "helpers/simplify_mesh.go:toGoosliMesh"]}
{"id": "C07", "title": "Segment/plane intersection is exact", "statement": "IntersectSegment returns a point exactly when the segment is not parallel to the plane and the two ends are not strictly on the same side; the point returned is on the plane and on the segment, and it does not depend on the order of the two ends.", "quantifier": "every plane and every pair of finite points (exact arithmetic)", "why_tests_cant": "Infinitely many configurations, including touching and parallel ones.", "anchors": ["primitives/plane.go:IntersectSegment"]}
{"id": "C08", "title": "Triangle/plane intersection is sound and oriented", "statement": "When IntersectTriangle returns a line, each end is within 0.5e-8 per coordinate of a point that lies on both the plane and the boundary of the triangle, the two ends differ by at least 1e-6 in some coordinate, and the direction of the line is consistent with the triangle normal (material on the same side for every triangle).", "quantifier": "every plane, every triangle with coordinates below 9e10", "why_tests_cant": "All triangle/plane positions, including planes through vertices and edges.", "anchors": ["primitives/plane.go:IntersectTriangle", "primitives/utils.go:RoundPlaces"]}
{"id": "C09", "title": "Visible cross sections are not lost", "statement": "If a plane has a triangle vertex strictly on each side and the two crossing points differ by more than 1.02e-6 in some coordinate, IntersectTriangle returns a line.", "quantifier": "every plane and triangle in that position", "why_tests_cant": "All positions; a missed edge pair shows only for one of the three vertex arrangements.", "anchors": ["primitives/plane.go:IntersectTriangle"]}
{"id": "C10", "title": "The sweep equals brute force", "statement": "For every layer, the segments that SliceByVector feeds to contour assembly are exactly the segments obtained by intersecting the layer plane with every triangle of the mesh (and every support triangle), with the same multiplicity: the active-list optimisation never loses or invents a segment.", "quantifier": "every mesh, direction, layer height and layer index, every behaviour of the unstable sort on ties", "why_tests_cant": "The active list depends on the whole history of previous layers.", "anchors": ["slicers/slice_by_vector.go:SliceByVector"]}
{"id": "C11", "title": "Layer count and layer heights", "statement": "SliceByVector places ceil(height/layer_height) planes; plane i is at min + (i+1/2)*h where h = height/n, so planes are evenly spaced, spacing is at most the requested layer height, every plane is strictly inside the model, and at most the first and the last layer are dropped (only when empty).", "quantifier": "every non-flat mesh, direction and positive layer height", "why_tests_cant": "All heights and ratios.", "anchors": ["slicers/slice_by_vector.go:SliceByVector"]}
{"id": "C12", "title": "Degenerate slicing requests", "statement": "SliceByVector on a nil or empty mesh returns no layers. On a mesh with positive height and a positive layer height it returns normally unless there is a single empty layer. A user relies on it never crashing; the code does panic on a mesh that is flat in the slicing direction and on a zero layer height.", "quantifier": "every mesh and layer height", "why_tests_cant": "Crash freedom over all inputs.", "anchors": ["slicers/slice_by_vector.go:SliceByVector"]}
{"id": "C13", "title": "Contour assembly conserves segments", "statement": "JoinPaths3 loses, duplicates and reverses nothing: each output path is the concatenation of some input paths in order, consecutive ones (with at least one segment) meeting in points equal up to 1e-6, every input path is used in exactly one output path, and the total number of segments is unchanged. It never panics on non-empty paths and always terminates.", "quantifier": "every list of non-empty paths, every floating point behaviour, every result the sort may produce", "why_tests_cant": "All segment soups and all unspecified sort orders.", "anchors": ["primitives/path.go:JoinPaths3", "primitives/path.go:tryJoin"]}
{"id": "C14", "title": "Clean segment soups become closed loops", "statement": "If every end point in a list of segments is the start of exactly one segment and the end of exactly one segment, and distinct coordinates are at least 1e-6 apart, JoinPaths3 returns only closed paths.", "quantifier": "every such list of paths in any order", "why_tests_cant": "All sizes, all numbers of loops and all input orders.", "anchors": ["primitives/path.go:JoinPaths3"]}
{"id": "C15", "title": "Slicing a watertight mesh gives closed contours", "statement": "If a mesh is watertight and consistently oriented (each directed edge is matched by exactly one opposite edge), a plane passes through no vertex and the crossing points are well separated, then assembling the per-triangle intersections yields only closed contours.", "quantifier": "every watertight mesh and every such plane", "why_tests_cant": "A global topological consequence for all meshes.", "anchors": ["primitives/plane.go:IntersectTriangle", "primitives/path.go:JoinPaths3", "slicers/slice_by_vector.go:slicingWorker"]}
{"id": "C16", "title": "JoinPaths2 conserves segments for every map order", "statement": "JoinPaths2 (used by Plane.IntersectMesh) terminates, returns paths that are chains of the input paths (each possibly reversed), uses each input path exactly once, and turns every soup in which each rounded end point occurs an even number of times into closed paths, for every iteration order of Go maps. It also should leave no two paths that could be joined; false in the code, the result depends on the order.", "quantifier": "every list of non-empty paths, every map iteration order in every round", "why_tests_cant": "Go randomises map iteration; there are factorially many orders.", "anchors": ["primitives/path.go:JoinPaths2", "primitives/path.go:toslice", "primitives/plane.go:IntersectMesh"]}
{"id": "C17", "title": "Collinear merging keeps the path's shape data", "statement": "MinimizeLines never adds points: the result is made of input points in order. An open path keeps its first and last point; a closed path stays closed; a path with fewer than three points is unchanged; a path that turns at every vertex by more than the tolerance is unchanged.", "quantifier": "every path with finite coordinates", "why_tests_cant": "All lengths and all turning patterns, including the wrap-around case.", "anchors": ["primitives/path.go:MinimizeLines", "primitives/line.go:IsCollinear"]}
{"id": "C18", "title": "Line simplification error bound", "statement": "SimplifyLine with epsilon >= 0 keeps the first and last point, returns points of the input in order, and every input point is within epsilon of the line through the two kept points that enclose it.", "quantifier": "every polyline of at least two finite points, every epsilon >= 0", "why_tests_cant": "Recursive algorithm over all polylines.", "anchors": ["helpers/simplify_line.go:SimplifyLine", "primitives/point.go:DistanceToLine"]}
{"id": "C19", "title": "Line simplification terminates exactly for non-negative epsilon", "statement": "SimplifyLine terminates on every non-empty polyline when epsilon >= 0. For a negative epsilon it recurses without end, and on an empty polyline it panics.", "quantifier": "every polyline and epsilon", "why_tests_cant": "Non-termination cannot be observed by a finite test; termination is over all inputs.", "anchors": ["helpers/simplify_line.go:SimplifyLine"]}
{"id": "C20", "title": "Cutting separates the mesh", "statement": "Every vertex of the first mesh returned by CutMesh is in front of the cutting plane and every vertex of the second behind it, up to the 1e-8 rounding of the cut points. Triangles entirely on one side are passed through unchanged to that side.", "quantifier": "every mesh and plane", "why_tests_cant": "All triangle positions and all meshes.", "anchors": ["helpers/cut_mesh.go:CutMesh", "helpers/cut_mesh.go:splitOnThree", "primitives/plane.go:PointInFront"]}
{"id": "C21", "title": "Cutting loses no surface", "statement": "Apart from the caps, the two halves returned by CutMesh together cover the input surface: for each input triangle the pieces' area vectors add up to the triangle's. False in the code for a triangle that touches the plane in exactly one vertex from behind: it is dropped from both halves.", "quantifier": "every mesh and plane", "why_tests_cant": "All triangles; the loss happens only in a measure-zero position.", "anchors": ["helpers/cut_mesh.go:CutMesh", "helpers/cut_mesh.go:splitOnThree"]}
{"id": "C22", "title": "Caps are mirrored and face outwards", "statement": "The cap triangles that CutMesh adds to the two halves are the same triangles with opposite orientation; those of the front half have normals pointing against the plane normal and those of the back half along it.", "quantifier": "every mesh and plane", "why_tests_cant": "All cut contours.", "anchors": ["helpers/cut_mesh.go:CutMesh"]}
{"id": "C23", "title": "Rotations are rigid and reversible", "statement": "Mesh.Rotate with RotationAroundX/Z keeps the number and order of triangles, all distances and areas, leaves the rotation centre fixed, rotates normals with the surface, and rotating by angle and then -angle about the same centre restores the mesh.", "quantifier": "every mesh, angle and centre (exact arithmetic)", "why_tests_cant": "All angles and meshes.", "anchors": ["primitives/mesh.go:Rotate", "primitives/rotation_matrix.go", "primitives/vector.go:Rotate"]}
{"id": "C24", "title": "Shifting is a translation", "statement": "Mesh.Shift moves every vertex by exactly the vector, keeps normals, and shifting by v and then by w equals shifting by v+w; a nil mesh is ignored.", "quantifier": "every mesh and vector (exact arithmetic)", "why_tests_cant": "All meshes and vectors.", "anchors": ["primitives/mesh.go:Shift", "primitives/triangle.go:Shift"]}
{"id": "C25", "title": "Bounding interval is tight", "statement": "MinMaxZ(dir) of a non-empty mesh returns numbers lo <= hi such that the projection of every vertex on dir is between them, and both are attained; an empty mesh gives (0,0).", "quantifier": "every mesh and direction", "why_tests_cant": "All meshes, all vertex orders.", "anchors": ["primitives/mesh.go:MinMaxZ", "primitives/triangle.go:MinMaxZ"]}
{"id": "C26", "title": "Projections are orthogonal and nearest", "statement": "Projecting a vector on a plane gives a vector orthogonal to its normal; projecting a point on a line or a plane gives the nearest point of that line or plane and is idempotent; Normalize gives length one or the zero vector; a zero plane normal makes the point projection exit fatally.", "quantifier": "every vector, point, line and plane (exact arithmetic)", "why_tests_cant": "All real inputs.", "anchors": ["primitives/vector.go:ProjectOn", "primitives/vector.go:ProjectOnPlane", "primitives/vector.go:Normalize", "primitives/point.go:ProjectOnLine", "primitives/plane.go:ProectionPointToPlane"]}
{"id": "C27", "title": "Angles are angles", "statement": "Angle of two non-zero vectors is between 0 and 180, symmetric, unchanged by positive scaling, a+b=180 for the reversed vector, 0 exactly for parallel and 180 exactly for antiparallel vectors; with a zero vector it is NaN.", "quantifier": "every pair of finite vectors (exact arithmetic)", "why_tests_cant": "All real inputs.", "anchors": ["primitives/vector.go:Angle"]}
{"id": "C28", "title": "Overhang classification", "statement": "ColorizeTriangles returns one flag per triangle in order; the flag is set exactly when the angle between the facet normal and the reversed build direction is below 90-angle; degenerate facets are never flagged; the flags do not depend on the length of the direction vector; FilterTrianglesByColor returns exactly the flagged triangles in order.", "quantifier": "every mesh, angle and direction", "why_tests_cant": "All meshes and angles.", "anchors": ["helpers/colorize_triangles.go:ColorizeTriangles", "helpers/colorize_triangles.go:FilterTrianglesByColor"]}
{"id": "C29", "title": "Centroid of a horizontal contour", "statement": "For every closed contour in a horizontal plane with non-negligible area, FindCentroid returns the area centroid in that plane; it moves with the contour under horizontal translation and does not depend on traversal direction.", "quantifier": "every closed horizontal polygon", "why_tests_cant": "All polygons of all sizes.", "anchors": ["primitives/path.go:FindCentroid"]}
{"id": "C30", "title": "Hole/solid classification", "statement": "IsWindingCW depends only on the sign of the enclosed area: it is unchanged by translation and by the choice of starting vertex, and reversing a contour of non-zero area flips it, so exactly one of a contour and its reverse is solid. An empty path makes it panic.", "quantifier": "every path", "why_tests_cant": "All polygons.", "anchors": ["primitives/path.go:IsWindingCW", "primitives/path.go:IsHole", "primitives/path.go:IsSolid"]}
{"id": "C31", "title": "Path reversal and closing", "statement": "Reverse is an involution that swaps the end points; Close returns a closed path that starts with the original points, adds at most one point and is idempotent.", "quantifier": "every path", "why_tests_cant": "All lengths.", "anchors": ["primitives/path.go:Reverse", "primitives/path.go:Close", "primitives/path.go:IsClosed"]}
{"id": "C32", "title": "Layer numbering in the G-code", "statement": "The ;LAYER:k comments in the output of ToOutput are numbered 0,1,2,... without gaps or repeats over all commands, and their number is LayerCount(), the value printed in the header.", "quantifier": "every command list", "why_tests_cant": "All command sequences.", "anchors": ["gcode/gcode.go:ToOutput", "gcode/gcode.go:LayerCount", "gcode/cmds.go:LayersMoving", "cmd/goosli/goosli.go:CommandsWithTemplates"]}
{"id": "C33", "title": "Filament fed equals path length times cross section", "statement": "Executing the produced G-code on a printer with absolute extrusion feeds, over the whole job, filament equal to (4*line_width*layer_height/(pi*d^2)) times the total length of all printed segments, up to the three-decimal rounding once per extruder reset, whatever bed rotations are interleaved (retraction off).", "quantifier": "every command list and settings", "why_tests_cant": "Accumulation over the whole history of commands and resets.", "anchors": ["gcode/cmds.go:pathesToGCode", "gcode/cmds.go:decreaseEOff", "gcode/cmds.go:RotateZ", "gcode/cmds.go:InclineX"]}
{"id": "C34", "title": "Extruder coordinate never goes backwards", "statement": "With retraction off, during printing the E coordinate never decreases except by an explicit G92 reset, and is reset at the end of any layer that left it above 4000.", "quantifier": "every command list with non-negative widths", "why_tests_cant": "All histories.", "anchors": ["gcode/cmds.go:pathesToGCode", "gcode/cmds.go:decreaseEOff"]}
{"id": "C35", "title": "Fan protocol", "statement": "While printing any layer the fan is on, except layer 0 when FanOffLayer1 is set, when it is off; the fan is switched at most once in the whole job.", "quantifier": "every command list", "why_tests_cant": "All command sequences.", "anchors": ["gcode/cmds.go:switchFanGCode", "gcode/cmds.go:LayersMoving"]}
{"id": "C36", "title": "Print moves run at the configured speed", "statement": "Every extruding move of layer 0 runs at PrintSpeedLayer1, every other wall move at PrintSpeedWall and every fill move at PrintSpeed. True when there is no retraction and no bed rotation; false in the code otherwise, because F300 and the retraction speed stay modal.", "quantifier": "every command list and settings", "why_tests_cant": "Modal state over all histories.", "anchors": ["gcode/cmds.go:printSpeedToGCode", "gcode/cmds.go:retractionToGCode", "gcode/cmds.go:RotateZ", "gcode/cmds.go:InclineX"]}
{"id": "C37", "title": "Bed axes end where they were told", "statement": "After any command sequence the physical rotation axis is at the last RotateZ angle and the tilt axis at 60 after InclineX and at 0 after InclineXBack, the extruder tool is selected again and the E register is what the extruder state says.", "quantifier": "every command list", "why_tests_cant": "All histories of bed moves and prints.", "anchors": ["gcode/cmds.go:RotateZ", "gcode/cmds.go:InclineX", "gcode/cmds.go:InclineXBack"]}
{"id": "C38", "title": "The nozzle follows the path", "statement": "Executing the G-code of a path, the nozzle extrudes along exactly the path's segments and ends at its last point, with at most 0.0005 per coordinate error. True when every coordinate changes by 0 or at least 0.001 per segment; false in the code otherwise: coordinates changing by less than 0.001 are dropped and the drift is unbounded.", "quantifier": "every path", "why_tests_cant": "Drift accumulates over arbitrarily long paths.", "anchors": ["gcode/cmds.go:pathesToGCode", "primitives/point.go:StringGcode"]}
{"id": "C39", "title": "Retraction pulls the configured distance", "statement": "With retraction on, each retraction pulls the filament back by RetractionDistance. False in the code: the retraction is an absolute E coordinate in absolute mode, so it pulls back everything extruded since the last reset plus the distance.", "quantifier": "every extruder state and settings", "why_tests_cant": "Depends on the whole history of extrusion.", "anchors": ["gcode/cmds.go:retractionToGCode", "data/header_template.txt"]}
{"id": "C40", "title": "Flow setting scales extrusion", "statement": "Changing the Flow setting changes the amount extruded. False in the code: the produced G-code is the same for every Flow value.", "quantifier": "every command list and pair of flow values", "why_tests_cant": "A statement about all outputs.", "anchors": ["gcode/gcode.go:GcodeSettings", "gcode/cmds.go:pathesToGCode"]}
{"id": "C41", "title": "Template substitution does not depend on map order", "statement": "PrepareDataFile replaces every placeholder by its value and leaves all other text alone, with the same result for every iteration order of the settings map, for every template in which each opening brace is closed before the next one is opened, as long as no value contains an opening brace. For a template with nested braces the result depends on the order.", "quantifier": "every template text without nested braces, every settings map without opening braces in values, every map iteration order", "why_tests_cant": "Go randomises map iteration.", "anchors": ["primitives/utils.go:PrepareDataFile", "slicers/settings.go:ToMap"]}
{"id": "C42", "title": "Top and bottom layers are filled solid", "statement": "FillLayers fills layer i with the full-density planes exactly when i < BottomLayers or i >= n-TopLayers and with the sparse planes otherwise, uses the innermost wall when present and the outer contour otherwise, and changes nothing but the fill.", "quantifier": "every list of layers and settings", "why_tests_cant": "All layer counts, including overlapping top and bottom ranges.", "anchors": ["slicers/fill_layer.go:FillLayers"]}
{"id": "C43", "title": "Fill lines lie in the fill plane between contour crossings", "statement": "Each fill segment joins two points of the layer contours that lie in the fill plane; segments on one fill line are disjoint in their interiors and sorted; with fewer than two crossings there is none, with an even number of crossings every crossing is used exactly once.", "quantifier": "every contour set and plane, every result the unstable sort may produce", "why_tests_cant": "All crossing counts.", "anchors": ["slicers/fill_layer.go:intersectByPlane"]}
{"id": "C44", "title": "Fill ordering keeps every fill line exactly once", "statement": "The travel-minimising reorder of fill lines returns a permutation of the input lines, each possibly reversed, keeps the first one first, and each next line is a nearest remaining one.", "quantifier": "every list of non-empty fill lines with coordinates below 1e37", "why_tests_cant": "Greedy selection over all list sizes.", "anchors": ["slicers/fill_layer.go:sortFillPathes"]}
{"id": "C45", "title": "Infill planes are evenly spaced and cover the model", "statement": "The infill planes for a direction are exactly one step apart, at integer multiples of the step, and for the Lines pattern every abscissa of the model is within one step of a plane.", "quantifier": "every mesh and positive step", "why_tests_cant": "All extents and steps.", "anchors": ["slicers/fill_layer.go:calcFillPlanesCommon", "slicers/fill_layer.go:CalcFillPlanesLines"]}
{"id": "C46", "title": "Infill is produced for every positive density", "statement": "A positive fill density gives at least one infill plane on a model of positive extent. True for Lines; false in the code for Squares at density 1 and Triangles at density 1 or 2, where integer division gives zero and no infill is produced.", "quantifier": "every mesh, density and pattern", "why_tests_cant": "All densities.", "anchors": ["slicers/fill_layer.go:CalcFillPlanes", "slicers/fill_layer.go:CalcFillPlanesSquares", "slicers/fill_layer.go:CalcFillPlanesTriangles"]}
{"id": "C47", "title": "Walls", "statement": "PrepareLayers always returns the same layers in the same order with the outer contours untouched; each contour gets its successive offsets by one line width, at most int(wall/line_width)-1 of them and fewer only if there is no further offset, the last one of each contour being the inner wall; what is filled is the inside of the inner walls if there are any.", "quantifier": "every layer list and settings", "why_tests_cant": "All wall counts and contours.", "anchors": ["slicers/vip/utils.go:PrepareLayers", "slicers/vip/utils.go:offset"]}
{"id": "C48", "title": "Skirt", "statement": "SkirtPathes only adds paths: every contour with at least two points is still printed once, preceded by its skirt loops from the outermost in, at most count of them (one for a negative count); a zero count changes nothing.", "quantifier": "every layer and count", "why_tests_cant": "All layers.", "anchors": ["slicers/vip/utils.go:SkirtPathes"]}
{"id": "C49", "title": "Offset contour is parallel at the nozzle distance", "statement": "MakeOffset shifts each side of the contour parallel to itself by the nozzle width in the layer plane, into the model, and joins neighbouring sides at their intersection. False in the code for the first side of a closed contour: its end is not trimmed, so the offset of a square has a corner on the original contour.", "quantifier": "every path, width and normal", "why_tests_cant": "All polygons.", "anchors": ["slicers/vip/offset_path.go:MakeOffset", "primitives/line.go:IntersectLine2"]}
{"id": "C50", "title": "Slicing by planes emits a well formed bed program", "statement": "SliceByPlanes with k planes emits k+1 groups of layers in order; part i>0 is printed after a RotateZ to plane i's angle; the bed is tilted exactly while parts with a tilted plane are printed; it is left as the last plane has it. It fails only if slicing one of the turned parts fails.", "quantifier": "every plane list and mesh", "why_tests_cant": "All sequences of tilted and flat planes.", "anchors": ["slicers/vip/slice_by_planes.go:SliceByPlanes", "slicers/vip/slice_by_planes.go:calcBedPlanes"]}
{"id": "C51", "title": "Analysis terminates with alternating planes", "statement": "Analyze ends on every mesh: it returns at most six planes, alternating tilted and flat starting with a tilted one, each through a vertex of a triangle of the mesh that is not in the first layer; or it ends with an index out of range (see C62).", "quantifier": "every mesh and angle, every floating point behaviour", "why_tests_cant": "Loop over meshes produced by cutting.", "anchors": ["slicers/vip/analyze.go:Analyze"]}
{"id": "C52", "title": "Plane file round trip", "statement": "Writing an analysed plane with String and reading it with ParsePlane gives back the same tilt flag, the point and angle up to printing precision, and the same cutting plane. The last part is false in the code for facets whose normal has a negative y component: the reread plane is mirrored; and for horizontal facets, whose plane has a zero normal and the angle NaN. A line with fewer than five words, such as a blank line, ends the program.", "quantifier": "every analysed plane", "why_tests_cant": "All directions.", "anchors": ["slicers/vip/analyze.go:ParsePlane", "slicers/vip/analyze.go:String", "slicers/vip/analyze.go:Analyze"]}
{"id": "C53", "title": "Middle of failed directions is a direction", "statement": "MiddleOnTheRing of a non-empty ascending list of angles in [0,biggest) terminates and returns the whole part of the mean of representatives of the angles (each angle or the angle plus one turn) that all lie within half a turn of the last one, taken modulo biggest; so the result is in [0,biggest).", "quantifier": "every ascending list and positive ring size", "why_tests_cant": "All lists.", "anchors": ["slicers/slice_5axes.go:MiddleOnTheRing"]}
{"id": "C54", "title": "Support outline is the boundary of the overhang", "statement": "MakeUndoubledLinesFromTriangles returns exactly the edges that occur once (in either direction) among the given triangles; DeleteInternalLines returns one line for each edge that occurs an odd number of times and none for the others.", "quantifier": "every list of triangles without NaN", "why_tests_cant": "All meshes and edge multiplicities.", "anchors": ["helpers/supports_by_vector.go:MakeUndoubledLinesFromTriangles", "helpers/supports_by_vector.go:DeleteInternalLines"]}
{"id": "C55", "title": "Point in triangle", "statement": "Triangle.PointBelongs accepts every point of the triangle and, for a non-vertical triangle, only points whose vertical projection is in it and that are within tolerance of its plane. For a vertical triangle the code accepts every point of its plane.", "quantifier": "every triangle and point", "why_tests_cant": "All positions.", "anchors": ["primitives/triangle.go:PointBelongs", "primitives/plane.go:PointBelongs"]}
{"id": "C56", "title": "Planar segment intersection", "statement": "For segments in a horizontal plane whose orientation tests report a proper crossing, IntersectLine returns the point common to both lines; IsIntersectingSegment is symmetric in that case; the result is never a NaN point.", "quantifier": "every pair of horizontal segments", "why_tests_cant": "All positions, including vertical and axis parallel ones that take the NaN fallbacks.", "anchors": ["primitives/line.go:IntersectLine", "primitives/point.go:Orientation"]}
{"id": "C57", "title": "Mesh simplifier wrapper", "statement": "SimplifyMesh reports an error on a nil mesh, returns the mesh itself when it has at most the requested number of triangles, and otherwise passes all triangles to the simplifier in order and returns its triangles in order with recomputed normals.", "quantifier": "every mesh, size and simplifier behaviour", "why_tests_cant": "All sizes around the boundary.", "anchors": ["helpers/simplify_mesh.go:SimplifyMesh"]}
{"id": "C58", "title": "Rounding helpers", "statement": "RoundPlaces(a,n) is within half a unit of the last place of a, is odd, monotone and idempotent while a*10^n fits an int64; Equal of points is reflexive and symmetric but not transitive.", "quantifier": "every finite value in range", "why_tests_cant": "All reals.", "anchors": ["primitives/utils.go:RoundPlaces", "primitives/utils.go:Round", "primitives/utils.go:AlmostZero", "primitives/point.go:Equal"]}
{"id": "C59", "title": "Caps fill the cut contours", "statement": "The cap triangles CutMesh adds for a closed contour have together exactly the area the contour encloses. False in the code for contours that are not seen in one rotational sense from their first point (most concave ones): every fan triangle is oriented by itself, so parts outside the contour are covered too.", "quantifier": "every closed contour, every plane", "why_tests_cant": "All contours; a test with a convex section passes.", "anchors": ["helpers/cut_mesh.go:CutMesh"]}
{"id": "C60", "title": "Infill stays inside the contours", "statement": "Every point of an infill line is inside the closed contours of the layer by the even-odd rule. True for fill planes through no contour vertex; false in the code for a plane through a vertex, which is counted as two crossings and shifts the pairing, so that fill is printed in the gap between two islands.", "quantifier": "every set of closed horizontal contours, every vertical fill plane, every result the unstable sort may produce", "why_tests_cant": "The failing positions are those where a fill plane meets a vertex exactly; a test on other positions passes.", "anchors": ["slicers/fill_layer.go:intersectByPlane"]}
{"id": "C61", "title": "The file announces its layers", "statement": "The file written by cmd/goosli with the templates that come with it is the header with the settings filled in, the program, and the footer; the number after ;LAYER_COUNT: is the number of ;LAYER: comments of the program. The four fields for print time and filament are never filled in: the file contains their placeholders.", "quantifier": "every program, all settings, every order of the settings map, every floating point behaviour", "why_tests_cant": "All programs and map orders.", "anchors": ["cmd/goosli/goosli.go:CommandsWithTemplates", "slicers/settings.go:ToMap", "data/header_template.txt", "data/footer_template.txt"]}
{"id": "C62", "title": "Analysis does not crash", "statement": "Analyze returns planes for every model of small finite size. False in the code: the flags of the cut mesh are used to index the triangles of the original mesh. For a model of two tetrahedra standing on the bed, one of them overhanging, the program ends with an index out of range for every angle from 0 to below 60 degrees, the default 30 included.", "quantifier": "every sorting routine, every angle in [0,60), the given model", "why_tests_cant": "The crash needs the cut mesh to have more triangles than the original one before a flagged triangle.", "anchors": ["slicers/vip/analyze.go:Analyze"]}
{"id": "C63", "title": "Rotation about an axis", "statement": "RotateAbout with a non-zero axis is the right-hand rotation about that axis: it keeps lengths and the component along the axis and turns perpendicular vectors by exactly the angle; with a zero axis it only scales. Rotate with RotationAroundX or RotationAroundZ turns the other way round.", "quantifier": "every vector, axis and angle", "why_tests_cant": "All directions and angles.", "anchors": ["primitives/vector.go:RotateAbout", "primitives/vector.go:Rotate", "primitives/rotation_matrix.go"]}
{"id": "C64", "title": "The bed is turned so that the part is printed upright", "statement": "Before a part is printed in a new direction the mesh is turned rigidly so that this direction becomes vertical, the same angles are written to the program, and the turn back restores the mesh. True for all planes from a planes file. For SliceByProfile, Slice5Axes and SliceDefault2 true only if the direction leans towards positive y; for negative y the part is slanted after the turn; for a vertical profile all coordinates become NaN. For SliceBridge it is false unless the bridge is parallel to the x axis.", "quantifier": "every mesh, direction, tilt and angle", "why_tests_cant": "All directions; a test with a direction of positive y passes.", "anchors": ["slicers/slice_by_profile.go:SliceByProfile", "slicers/slice_5axes.go:Slice5Axes", "slicers/vip/slice_default.go:SliceDefault2", "slicers/vip/slice_bridge.go:SliceBridge", "slicers/vip/slice_by_planes.go:SliceByPlanes"]}
{"id": "C65", "title": "Running goosli twice gives the same file", "statement": "Two runs of cmd/goosli with the same input files, flags and time of day end in the same way and write the same file, whatever the scheduling of the slicing goroutines and whatever the iteration order of the settings map.", "quantifier": "every STL file, planes file, flag value and slicing type; every pair of arrival orders and map orders; templates without nested braces", "why_tests_cant": "Go randomises map iteration and goroutine scheduling; a test sees a few of the orders.", "anchors": ["cmd/goosli/goosli.go:main", "cmd/goosli/goosli.go:CommandsWithTemplates", "slicers/slice_by_vector.go:SliceByVector"]}
{"id": "C66", "title": "Cutter, simplifier and colorizer end cleanly", "statement": "The programs cutter, simplifier and colorizer never panic. All five programs end with an error message and write nothing if the STL file is missing or malformed. If its output files can be written the cutter writes the two parts of CutMesh and LoadSTL reads both back; the simplifier writes the simplified mesh; the colorizer writes one byte per triangle, in order. If a file cannot be written the program ends with an error.", "quantifier": "every file system content, every set of flags, every set of writable paths, every arithmetic", "why_tests_cant": "All file contents, planes and write failures.", "anchors": ["cmd/goosli_cutter/goosli_cutter.go:main", "cmd/goosli_simplifier/goosli_simplifier.go:main", "cmd/goosli_colorizer/goosli_colorizer.go:main", "cmd/goosli_analyzer/goosli_analyzer.go:main", "cmd/goosli/goosli.go:main"]}
{"id": "C67", "title": "The analyzer's file drives goosli", "statement": "If the analyzer found at least one plane, running goosli with slicing type vip on the same model and the analyzer's output file slices the model by exactly the analysed planes, up to the rounding of the printed numbers. The analyzer's flags for the rotation centre have no effect.", "quantifier": "every model on which the analysis succeeds, every flag value, every arithmetic whose numbers print shortly and without blanks", "why_tests_cant": "Two programs communicate through a text file; all contents of that file have to survive.", "anchors": ["cmd/goosli_analyzer/goosli_analyzer.go:main", "cmd/goosli/goosli.go:main", "slicers/vip/slice_main.go:Slice", "slicers/vip/analyze.go:AnalyzedPlane"]}
{"id": "C68", "title": "The flags reach the program", "statement": "A run of goosli that ends normally was asked for one of the four slicing types, writes exactly one file made of header, program and footer, and the program was computed from the loaded mesh shifted by the origin with the settings of the flags: speeds in mm/s become feed rates of 60 times that value, for every print move of the file. (The retraction speed is not multiplied. With retraction, or for the vip slicer, the feed rate of print moves is not always the chosen one, see C36.)", "quantifier": "every STL file, flag value and slicing type", "why_tests_cant": "All flag combinations and models.", "anchors": ["cmd/goosli/goosli.go:main", "slicers/settings.go", "gcode/gcode.go"]}
{"id": "C69", "title": "The bed during the print and at the end", "statement": "SliceDefault2 prints alternately on the level bed and on the bed inclined by 60 degrees, Slice5Axes in the same way with two groups before each swing, SliceByProfile one group per side of the simplified profile at the angles of that side. At the end of the program the bed is level again: true for 3axes, SliceBridge and SliceRotation; false for SliceByPlanes and SliceByProfile, which leave the bed as the last part needed it, and the footer does not move it back.", "quantifier": "every mesh, every setting, every run of the loops that ends", "why_tests_cant": "All numbers of turns.", "anchors": ["slicers/vip/slice_default.go:SliceDefault2", "slicers/slice_5axes.go:Slice5Axes", "slicers/slice_by_profile.go:SliceByProfile", "slicers/vip/slice_bridge.go:SliceBridge", "slicers/vip/slice_rotation.go:SliceRotation", "slicers/vip/slice_by_planes.go:SliceByPlanes"]}
{"id": "C70", "title": "The vip slicer does not crash", "statement": "vip.Slice returns a program for every model. False in the code: without planes file it ends with an index out of range for a model without layers, if no contour of the first layer is taken for an outside contour, for a first layer with two outside contours if no layer overhangs, for a bridge whose deck begins before an overhang of the legs was found, and for a body of rotation (a cylinder, for instance) if no layer overhangs.", "quantifier": "every mesh, setting, arithmetic and planes file without planes", "why_tests_cant": "The crash depends on the shape of all layers; a test with an overhanging bridge passes.", "anchors": ["slicers/vip/slice_main.go:Slice", "slicers/vip/slice_bridge.go:SliceBridge", "slicers/vip/slice_rotation.go:SliceRotation"]}
{"id": "C71", "title": "A model without overhangs is printed flat and completely", "statement": "If no layer overhangs the one below, SliceDefault2 and Slice5Axes never move the bed and print every layer of the model once and in order. True for two layers or more. False for lower models: nothing of a model at most one layer high is printed by Slice5Axes, or by vip.Slice without planes file.", "quantifier": "every mesh and setting, every floating point behaviour", "why_tests_cant": "All models; the failing ones are thin.", "anchors": ["slicers/slice_5axes.go:Slice5Axes", "slicers/vip/slice_default.go:SliceDefault2", "slicers/vip/slice_main.go:Slice"]}
{"id": "C72", "title": "What the slicers with bed turns print", "statement": "The programs of SliceBridge, SliceRotation, SliceDefault2, Slice5Axes and SliceByProfile are exactly: the layers below the first overhang on the bed as it is; the part of the rest below the plane of that overhang, on the same bed; a turn of the bed to that plane; and then the same with what is above the plane, turned with the bed; SliceByProfile prints one part per side of the profile. First overhang means that no pair of neighbouring layers below it overhangs.", "quantifier": "every mesh and setting, every run that ends, every floating point behaviour", "why_tests_cant": "All numbers of turns and all shapes.", "anchors": ["slicers/vip/slice_bridge.go:SliceBridge", "slicers/vip/slice_rotation.go:SliceRotation", "slicers/vip/slice_default.go:SliceDefault2", "slicers/slice_5axes.go:Slice5Axes", "slicers/slice_by_profile.go:SliceByProfile"]}
{"id": "C73", "title": "Outside contours and holes", "statement": "Of the closed contours of a layer exactly the clockwise ones are treated as outside contours and the counterclockwise ones as holes. True for contours that run around their centroid at their first corner; false in general: only the first side of a contour is tested, and the same clockwise U is an outside contour or a hole depending on the corner it starts with.", "quantifier": "every list of contours", "why_tests_cant": "All shapes and starting corners.", "anchors": ["slicers/vip/slice_bridge.go:getAllOutsidePathes", "slicers/slice_5axes.go:CalculateFails"]}
{"id": "C74", "title": "Which slicer is used", "statement": "The slicing type selects the slicer: 3axes cuts the whole model along the z axis, prints all layers in one group with infill; an unknown type ends the program. vip.Slice follows the planes file if it has planes; otherwise two outside contours in the first layer make a bridge, one round outside contour in the first and in the last layer a body of rotation, and everything else is sliced by SliceDefault2. Round means at least 14 points, none further than half a millimetre from the distance of the first point to the centroid.", "quantifier": "every mesh, setting, planes file and word given as type", "why_tests_cant": "All shapes of the first and last layer.", "anchors": ["cmd/goosli/goosli.go:main", "slicers/vip/slice_main.go:Slice", "slicers/vip/slice_main.go:isRotation", "slicers/slice_by_vector.go:SliceByVectorToGcode"]}
{"id": "C75", "title": "Settings without effect", "statement": "The layers depend only on the layer height and, with supports on, on the four support settings. The programs of 5axes and 5axes_by_profile print contours only: wall thickness, infill density and pattern, numbers of solid layers, skirt, rotation centre and planes file have no effect on them. The program of 3axes does not depend on wall thickness, skirt, rotation centre and planes file.", "quantifier": "every mesh and every pair of settings that agree otherwise", "why_tests_cant": "Independence of a setting is a statement about all pairs of values.", "anchors": ["slicers/slice_5axes.go:Slice5Axes", "slicers/slice_by_profile.go:SliceByProfile", "slicers/slice_by_vector.go:SliceByVectorToGcode", "slicers/slice_by_vector.go:SliceByVector"]}
{"id": "C76", "title": "What counts as an overhang", "statement": "A contour overhangs the contour below if in one of the 36 horizontal directions, ten degrees apart, the way from the point met on the lower contour out to the point met on the upper contour leans outwards more than 40 degrees from the vertical. The report is a plane through the lower point that rises by 60 degrees in that direction. What the code does is proved exactly, and that vertical walls are never reported. The property is false: the test does not tell inwards from outwards, so that every pyramid or roof flatter than 50 degrees is reported as an overhang and the bed is turned for it. For the legs of a bridge the plane is mirrored if the leg leans to positive y.", "quantifier": "every pair of level contours, every layer", "why_tests_cant": "All shapes and directions; the wrong reports need shapes that are printable without any turn.", "anchors": ["slicers/slice_5axes.go:CalculateFails", "slicers/vip/slice_bridge.go:failExistBridge", "slicers/vip/slice_rotation.go:failRotaion", "slicers/slice_5axes.go:findPrevPath"]}
{"id": "C77", "title": "Inside a contour", "statement": "A point is found inside a level closed contour exactly if a ray from it, avoiding the corners, meets an odd number of sides; which ray does not matter. Proved for points at the height of the contour and near it, if no corner lies on the line through the point square to the first side and the point is not on the line of the first side. False otherwise: a point on the line of the first side is never found inside, a corner straight ahead is counted twice, and a point above the middle of a part narrower than twice the difference in height is not found inside. The overhang analysis asks this question for points one layer above the contour.", "quantifier": "every point and every closed level contour", "why_tests_cant": "All shapes; the failing positions are exact coincidences or thin parts.", "anchors": ["primitives/point.go:Inside", "slicers/slice_5axes.go:findPrevPath"]}
{"id": "C78", "title": "Layers are level and printed from the bottom up", "statement": "As the nozzle sees it, every layer is level: everything that is printed in one layer, contours, supports, walls and infill, is at exactly the same height, the middle of the layer rounded to eight decimals; layers come in increasing order, so heights never decrease, and increase if the layers are thicker than the rounding. Proved for 3axes, and with walls for every part that is sliced along the z axis. False for bodies of rotation (SliceRotation): the upper part is tilted by 60 degrees and then sliced along the tilted axis, so that every layer climbs by 1.7 millimetres per millimetre.", "quantifier": "every mesh of moderate size, layer height and setting", "why_tests_cant": "Exact equality of all heights of a layer is a statement about all points of all models.", "anchors": ["slicers/slice_by_vector.go:SliceByVector", "slicers/slice_by_vector.go:SliceByVectorToGcode", "slicers/vip/utils.go:PrepareLayers", "slicers/vip/slice_rotation.go:SliceRotation"]}
{"id": "C79", "title": "Supports are left out where they cut through the model", "statement": "Under each edge of the overhanging part stand two support triangles. Such a triangle is sliced exactly if it does not cut through the model: no triangle of the model has a point in common with the segment in which its plane cuts the support triangle (triangles of the model that contain a corner of the support triangle are passed over). Proved if no triangle of the model is vertical and all are in general position to the support triangle. False for vertical walls: a support triangle that crosses the plane of a wall along an axis is left out, no matter how far away the wall is.", "quantifier": "every mesh, support triangle and setting", "why_tests_cant": "Relative positions of all pairs of triangles in space.", "anchors": ["helpers/supports_by_vector.go:IntersectTriangles", "primitives/triangle.go:IntersectTriangle", "primitives/triangle.go:PointBelongs", "slicers/slice_by_vector.go:SliceByVector"]}
{"id": "C80", "title": "Centroid of a flat contour and centre of a layer", "statement": "FindCentroid returns the area centroid of every closed flat contour, in whatever plane, and the centre of a layer, through which the profile of the model runs, is the centroid of what is printed in the layer. The first is proved for contours whose views along the axes are empty or have at least 1e-6 square millimetres, the second for layers with a single contour. False otherwise: for smaller contours the x coordinate of the centroid is 0, wherever the contour is; a hole counts as much as the part it is in, because the centre is the plain mean of the centroids; a layer without contours has its centre at the origin.", "quantifier": "every closed flat contour, every layer", "why_tests_cant": "All contours in all planes; the sums have no bound.", "anchors": ["primitives/path.go:FindCentroid", "slicers/slice_by_profile.go:calculateCenter", "slicers/vip/slice_default.go:calculateCenter"]}
{"id": "C81", "title": "Two level segments", "statement": "For two segments at the same height IsIntersectingSegment reports exactly whether they have a point in common, touching ends and overlapping segments of one line included, and IntersectLine returns a point of both. Proved for segments of which each end is exactly on the line of the other or not near it (twice the area of the triangle with the other segment 0 or at least 1e-6). False for shorter ones: two segments of a thousandth of a millimetre that cross in the middle are not found to meet, and two that do not meet are.", "quantifier": "every pair of level segments at one height", "why_tests_cant": "All positions of two segments, including the collinear ones.", "anchors": ["primitives/line.go:IntersectLine", "primitives/line.go:IsIntersectingSegment", "primitives/line.go:IsCollinearPointOnSegment", "primitives/point.go:Orientation"]}
{"id": "C82", "title": "One contour inside another", "statement": "p.IsInside(p1) for level contours at the same height reports whether the whole of p, not only its corners, is inside p1: a contour that has no point in common with a closed contour is inside or outside as a whole. Proved for contours whose sides are in clear position (C81), for corners of p that are not on the line of the first side of p1 and have no corner of p1 opposite square to this line (C77). False otherwise: a square of a quarter of a thousandth that sticks out of another one by half its side is reported to be inside.", "quantifier": "every pair of contours, the second closed", "why_tests_cant": "All polygons; a proof that the parity does not change along a path that avoids the contour.", "anchors": ["primitives/path.go:IsInside", "primitives/point.go:Inside", "primitives/line.go:IsIntersectingSegment"]}
{"id": "C83", "title": "The contours of a layer bound the cross-section of the model", "statement": "If a mesh is watertight, consistently oriented and without degenerate triangles, a plane that is not vertical passes through no vertex and the crossing points are well separated, then the contours assembled for the plane are, up to rounding of their corners to eight decimals, closed contours in the plane that enclose the material of the model: a point of the plane off the surface is inside an odd number of them exactly if a ray in the plane from it, avoiding the crossing points, meets the surface of the model an odd number of times. Which ray is used does not matter. The layer that SliceByVector sends for such a plane (supports off) consists of these contours, rounded and with collinear points removed.", "quantifier": "every watertight mesh, every such plane, every point of it off the surface, every order the unstable sort may return", "why_tests_cant": "A statement about all points of the plane and all meshes; needs the parity theorem for polygons.", "anchors": ["primitives/plane.go:IntersectTriangle", "primitives/path.go:JoinPaths3", "slicers/slice_by_vector.go:slicingWorker", "slicers/slice_by_vector.go:SliceByVector"]}
{"id": "C84", "title": "Fill lines are exactly the material of the layer on their plane", "statement": "For closed level contours and a vertical fill plane, the fill lines are the material in the plane: every point strictly inside a fill line is off the contours and inside an odd number of them, and every point of the plane at this level that is off the contours and inside an odd number of them is strictly inside a fill line. Inside is the usual parity of a ray in any direction, not only along the plane. Proved for planes that pass through no corner. False otherwise: a plane through the ridge of a house with a square behind it gives a fill line through the air between the two.", "quantifier": "every set of closed level contours, every vertical plane, every order the unstable sort may return", "why_tests_cant": "All contours with any nesting, all points of the plane.", "anchors": ["slicers/fill_layer.go:intersectByPlane", "primitives/plane.go:IntersectSegment"]}
{"id": "C85", "title": "Lines that are too long are not read silently", "statement": "A text file with a line of 64 KiB or more is never taken for a complete one: LoadSTL on a text file returns an error exactly if the file has such a line. False for files of planes: readPlanes only prints a message, and the planes after the long line are missing without failure.", "quantifier": "every content of a file", "why_tests_cant": "All byte sequences; lines of this length are in no test.", "anchors": ["primitives/stl.go:loadSTLAscii", "slicers/vip/utils.go:readPlanes"]}
{"id": "C86", "title": "Which triangles a plane meets, which paths are equal", "statement": "Plane.Intersect reports exactly whether the plane and the triangle have a point in common, also for degenerate triangles and for triangles that touch the plane; IntersectTriangle finds a section only where it says yes. Path.Equal holds exactly for paths with the same number of points whose points are equal one by one within the tolerance, and is not transitive.", "quantifier": "every plane and every triangle, every pair of paths", "why_tests_cant": "All positions, including touching ones.", "anchors": ["primitives/plane.go:Intersect", "primitives/plane.go:IntersectTriangle", "primitives/triangle.go:MinMaxZ", "primitives/path.go:Equal"]}
{"id": "C87", "title": "Rounding the corners does not move material", "statement": "If the corners of a closed contour move by at most e and it stays closed, a point farther than e from the original contour is off the moved one and inside the one exactly if it is inside the other. So the contours assembled for a plane, with their corners as stored (rounded to eight decimals), enclose the material of the model in the plane for every point that is, seen from above, farther than 1e-8 from the surface.", "quantifier": "every closed contour, every movement, every point; every watertight mesh and plane as in C83", "why_tests_cant": "A homotopy argument about all points and all contours.", "anchors": ["primitives/plane.go:IntersectTriangle", "primitives/point.go:RoundPlaces", "primitives/path.go:JoinPaths3"]}
{"id": "C88", "title": "Merging collinear lines keeps the inside of a contour", "statement": "MinimizeLines on a closed contour gives a closed contour of corners of the old one, and a point off the contour is inside the one exactly if it is inside the other. Proved for points that are, seen from above, in no triangle of corners so slim that two of its sides count as collinear. False otherwise: a square of half a thousandth is merged into a single point.", "quantifier": "every closed contour with finite coordinates, every point off it and off its slim triangles", "why_tests_cant": "All contours and all points; repeated merging can carry a line away from the contour step by step.", "anchors": ["primitives/path.go:MinimizeLines", "primitives/line.go:IsCollinear"]}
{"id": "C89", "title": "Fill lines are the material of the model", "statement": "From the triangles to the fill: for a watertight mesh sliced vertically (supports off) and filled by vertical planes, the lines of each layer are the material of the model at the height of the layer on the fill planes: every point strictly inside a line is, seen from above, in the material, and every point of the material on a fill plane is strictly inside a line. Filling does not fail, and the fill of the layer is these lines, each exactly once. Proved for layers through no vertex with well separated crossing points, for fill planes through no stored corner, and for points farther than 1e-8 from the surface and in no slim triangle of crossing points. False for fill planes through a corner (C84) and in slim triangles (C88).", "quantifier": "every watertight mesh, every layer and every fill plane in this position, every order the unstable sorts may return", "why_tests_cant": "A statement about all points, over slicing, joining, rounding, merging and filling together.", "anchors": ["slicers/slice_by_vector.go:SliceByVector", "slicers/slice_by_vector.go:slicingWorker", "primitives/path.go:JoinPaths3AndMinimize", "slicers/fill_layer.go:FillLayers", "slicers/fill_layer.go:intersectByPlane"]}
{"id": "C90", "title": "A vertical slice is the model, layer by layer", "statement": "SliceByVectorToGcode on a watertight mesh taller than the layer thickness, sliced vertically with supports off, does not fail; its layers are numbered consecutively without gaps; the contours of each layer bound the material of the model at the height of the layer and its fill lines are the material on the fill planes that the pattern and the density ask for (the dense ones for the first and last solid layers); a level without a layer is the first or the last one and has no material. Proved for each level through no vertex with well separated crossing points, and up to what C84 and C88 exclude.", "quantifier": "every watertight mesh, all settings with supports off, every arrival order and every order the unstable sorts may return", "why_tests_cant": "The whole slicer at once, for all meshes and all points of all levels.", "anchors": ["slicers/slice_by_vector.go:SliceByVectorToGcode", "slicers/slice_by_vector.go:SliceByVector", "slicers/fill_layer.go:FillLayers", "slicers/fill_layer.go:CalcFillPlanes"]}
{"id": "C91", "title": "The file prints the model", "statement": "The text of the G-code of a vertical slice, read back by a printer, extrudes along exactly the sides of the contours and the fill lines of the layers, in order of the layers, contours first, each rounded to the printed decimals; and these bound and fill the material of the model as in C90. Proved for lines whose ends differ visibly after rounding; false for shorter ones (C38).", "quantifier": "every watertight mesh and all settings as in C90 with all levels in good position, every state of the printer with the first tool", "why_tests_cant": "From the triangles to the movements of the nozzle, for all inputs.", "anchors": ["slicers/slice_by_vector.go:SliceByVectorToGcode", "gcode/gcode.go:ToOutput", "gcode/cmds.go:pathesToGCode"]}
{"id": "C92", "title": "The section of a model by a plane", "statement": "Plane.IntersectMesh does not fail and assembles the sections of the triangles, each used exactly once. For a watertight mesh it returns closed contours in the plane, their corners rounded to eight decimals, that enclose the material of the model in the plane and leave out its holes, for every iteration order of Go maps.", "quantifier": "every mesh and plane; contours for watertight meshes and planes through no vertex with well separated crossing points", "why_tests_cant": "Go randomises map iteration; a statement about all points of the plane.", "anchors": ["primitives/plane.go:IntersectMesh", "primitives/path.go:JoinPaths2"]}
{"id": "C93", "title": "The line in which two triangles meet", "statement": "Triangle.IntersectTriangle returns exactly the part of the cut line of the other triangle that is in the triangle, and nil if there is none. Proved if the cut line is in general position to the sides. False through a corner: if the line enters at a corner and leaves through the opposite side, nil is returned, since the code compares pointers instead of points; two triangles with a segment of length 4 in common are then taken not to meet.", "quantifier": "every triangle that is not vertical, every triangle cut by its plane", "why_tests_cant": "Relative positions of all pairs of triangles in space.", "anchors": ["primitives/triangle.go:IntersectTriangle", "primitives/line.go:IntersectLine", "primitives/triangle.go:PointBelongs"]}
{"id": "C94", "title": "Contours close in float64", "statement": "Computed in float64 with its rounding, the section of a watertight mesh by a horizontal plane is the exact section with every coordinate replaced by the nearest float64, and joining its segments gives closed contours only. It holds if coordinates are at most a metre, no vertex is within 1e-11 of the plane, cut triangles are not almost horizontal, crossing points are equal or 1.03e-6 apart in each coordinate, and no crossing coordinate is within 1e-11 of the middle between two multiples of 1e-8.", "quantifier": "every watertight mesh and every height that keep these distances, every order of the segments, every sort.Slice", "why_tests_cant": "Rounding errors of every intermediate result for every mesh.", "anchors": ["primitives/plane.go:IntersectTriangle", "primitives/plane.go:IntersectSegment", "primitives/point.go:RoundPlaces", "primitives/path.go:JoinPaths3"]}
{"id": "C95", "title": "Slicing in float64", "statement": "SliceByVector along the vertical, computed in float64: the number of planes is the height divided by the layer height rounded up, up to three parts in 10^16 of the quotient; plane m is in the middle of the m-th of n equal layers up to (m+10)*2e-13 mm; if every plane keeps the distances of C94, every contour of every layer is closed and its corners are the exact crossing points rounded to eight decimals.", "quantifier": "every watertight mesh of at most a metre, every layer height from a micrometre to a metre, every sort.Slice, every order in which layers arrive", "why_tests_cant": "Errors accumulate over thousands of planes; no test covers all meshes.", "anchors": ["slicers/slice_by_vector.go:SliceByVector", "primitives/mesh.go:MinMaxZ", "primitives/path.go:JoinPaths3AndMinimize"]}
{"id": "C96", "title": "A model of k layer heights gets k layers", "statement": "A model that is k layer heights high is sliced into k layers. False: STL files hold float32 numbers, and math.Ceil turns the last bit into a layer; a model of height 0.3 with layer height 0.1 gets four layers of 0.075. Proved: k if the height is exactly k times the float64 layer height, k or k+1 otherwise.", "quantifier": "every mesh of at most a metre, every layer height from a micrometre to a metre", "why_tests_cant": "Depends on the last bit of every height.", "anchors": ["slicers/slice_by_vector.go:SliceByVector"]}
{"id": "C97", "title": "Binary STL files in float64", "statement": "A binary STL file whose coordinates are finite is loaded as exactly the numbers its words denote in IEEE-754 binary32. Loading and saving keeps the length, the number of triangles and every vertex word except NaN and minus zero. Saving and loading a mesh replaces every coordinate by the nearest number of binary32, off by at most a part in 2^24; doing it again changes nothing.", "quantifier": "every file, every mesh with coordinates of at most 2^127", "why_tests_cant": "There are 2^32 words and every one is to be converted right.", "anchors": ["primitives/stl.go:loadSTLBinary", "primitives/stl.go:SaveSTL"]}
{"id": "C98", "title": "Numbers as text in float64", "statement": "StrF prints the nearest thousandth (ties to even), in digits, a point and perhaps a minus sign, and keeps the order. ParseFloat reads every decimal number, with sign, point and exponent, as the nearest number of binary32; so an ASCII STL file is loaded as the mesh with the nearest numbers. A number printed and read is off by at most half a thousandth and a part in 2^24. A plane file that is read and written again is the same file, for coordinates below 16000.", "quantifier": "every finite float64, every decimal text up to 2^127, every ASCII document of the standard layout, every list of planes", "why_tests_cant": "Every last digit of every number has to be right.", "anchors": ["primitives/utils.go:StrF", "primitives/utils.go:ParseFloat", "primitives/stl.go:loadSTLAscii", "slicers/vip/analyze.go:ParsePlane"]}
{"id": "C99", "title": "Filament and extruder coordinate in float64", "statement": "For settings and paths of ordinary size and without retraction: no move with the extruder selected lowers the E coordinate, however long the job, and every layer starts with E of at most 4000. The filament fed by the file is the volume of the lines over the section of the bar, up to half a thousandth per reset and a part in 2^31 of a millimetre per point, for jobs of up to 400 metres of filament and 10^9 points.", "quantifier": "every job with line width, layer height and bar diameter in [2^-10, 2^7] mm and coordinates of at most 2^20 mm", "why_tests_cant": "The sum of rounding errors over millions of segments is never looked at by a test.", "anchors": ["gcode/cmds.go:pathesToGCode", "gcode/cmds.go:decreaseEOff"]}
{"id": "C100", "title": "The moves in the file are the moves of the job", "statement": "Whatever the arithmetic: the print moves in the produced text are, in order, exactly the segments of the paths of the job, each under the number of its layer and the name of its section; a path starts at its first point with three decimals and a coordinate that changes by less than 0.001 over a segment is left as it was. In float64, for paths whose coordinates change by nothing or at least 0.001 per segment, the moves are the segments rounded to thousandths.", "quantifier": "every program whose text is produced, every printer state with the extruder selected; the float64 part for coordinates of at most 2^20 mm", "why_tests_cant": "Tests compare the text of a few short programs; that no sequence of commands, layers and sections loses, adds, moves or mislabels a segment is a statement about all programs.", "anchors": ["gcode/cmds.go:pathesToGCode", "primitives/point.go:StringGcode", "gcode/gcode.go:ToOutput"]}
{"id": "C101", "title": "In float64 the contours of a layer enclose the material of the model", "statement": "For a watertight mesh sliced along the vertical in float64, where every plane keeps the stated distances from vertices and from rounding ties: the contours of the layer of each plane are closed, their corners are the exact crossing points rounded to eight decimals, and every point of the plane that is farther than 1e-8 from the surface and in no triangle of corners with an area below 5.1e-7 is inside an odd number of contours exactly if it is in the material of the model.", "quantifier": "every watertight mesh with float64 coordinates of at most 1000 mm, every layer height in [0.001, 1000], every order of the segments", "why_tests_cant": "A test samples points of a few models; that rounding, joining and merging never lose or add material holds for all models and points only by proof.", "anchors": ["slicers/slice_by_vector.go:SliceByVector", "primitives/path.go:MinimizeLines", "primitives/path.go:JoinPaths3", "primitives/line.go:IsCollinear"]}
{"id": "C102", "title": "In float64 the fill lines of a layer are the material of the model on the fill planes", "statement": "For contours that enclose the material at their height and vertical fill planes running rather along Y (all planes the program uses): filling a layer in float64 succeeds and changes nothing else of it; the fill lines are the lines of the planes, each exactly once, possibly reversed; they end within 1e-12 of the contours; and on a plane from which all corners of the contours keep a distance g of 1e-7 or more, the lines are within 2e-11 of the plane, and every point of the plane farther than 3e-8/g from the contours (and not too close to the surface or in a thin triangle) is in the material exactly if it is on a fill line.", "quantifier": "every watertight mesh with float64 coordinates of at most 1000 mm, every set of vertical fill planes with such normals, every g, every point", "why_tests_cant": "Whether rounding can drop, add or swap a crossing, and so invert the fill of a whole line, depends on all corners and planes; a test tries a few.", "anchors": ["slicers/fill_layer.go:FillLayers", "slicers/fill_layer.go:intersectByPlane", "slicers/fill_layer.go:sortFillPathes", "primitives/plane.go:IntersectSegment"]}
{"id": "C103", "title": "In float64 slicing and filling a model vertically gives the model, layer by layer", "statement": "For a watertight mesh whose float64 levels all keep the distances of FloatSafe, supports off, line width 0.02 to 10 mm and a density of at least one percent per direction of the pattern: slicing and filling in float64 succeeds; the fill planes are, for every direction of the pattern, planes at the distance of the step from each other up to 1e-6 mm, over the whole extent of the model, and along X no abscissa of the model is farther than a step from one; the layers are numbered without gaps and leave out at most the first and the last level; the layer of each level has contours that enclose the material at its height and fill lines that are the material on the planes of its place (solid for the first and last layers, the pattern otherwise); and where a level is left out there is nothing of the model.", "quantifier": "every such mesh with float64 coordinates of at most 1000 mm, every layer height from 0.001 to 1000 mm, every pattern, density and line width in the range", "why_tests_cant": "The statement is about every level, every plane and every point of the model under rounding; a test has a few models and compares with stored output.", "anchors": ["slicers/slice_by_vector.go:SliceByVector", "slicers/slice_by_vector.go:SliceByVectorToGcode", "slicers/fill_layer.go:CalcFillPlanes", "slicers/fill_layer.go:calcFillPlanesCommon", "slicers/fill_layer.go:FillLayers"]}
{"id": "C104", "title": "From the bytes of a model to the moves of the nozzle, in float64: the file prints the model", "statement": "A run of the program in float64 with slicing type 3axes, supports off, on a file that loads as a model which, moved by the origin, is watertight and whose levels keep the distances of FloatSafe, ends normally and writes one file: a header, the program and a footer. A printer that reads the program moves, layer by layer from the bottom up, along the contours and then along the fill lines of the model at the heights of the levels. At the i-th point of a path the nozzle is off by at most 0.0005 + 0.001 i mm in each coordinate, so a fill line by at most 0.0015; a path whose coordinates change by nothing or by 0.001 or more per segment is printed at its points rounded to thousandths; and all moves of a layer are at one height. Levels without a layer have nothing of the model.", "quantifier": "every file that loads with float64 coordinates of at most 1000 mm after the shift, every layer height, line width, pattern and density in the ranges, every printer state with tool 0", "why_tests_cant": "The claim relates the bytes of any input to the moves of any output through loading, rounding, slicing, joining, filling and printing; a test compares single pairs.", "anchors": ["cmd/goosli/goosli.go:main", "slicers/slice_by_vector.go:SliceByVectorToGcode", "slicers/fill_layer.go:FillLayers", "gcode/gcode.go:ToOutput", "primitives/mesh.go:Shift"]}
{"id": "C105", "title": "The whole file on a whole machine: hot before it prints, absolute, nothing laid down outside the program", "statement": "With the two templates that come with the program, a machine with relative and absolute modes, homing and heaters, in any state when it starts, executes the whole output file as follows: the print moves are exactly those of the program between header and footer; they begin with tool 0, the extruder at zero, the fan off, 15 mm above the homed position; filament is fed only with bed and nozzle set to the temperatures asked for and in absolute mode; filament is fed while the nozzle travels only in print moves; at the end both heaters are off, the machine is in absolute mode, homed in x and y, half a millimetre above the last position. In float64 with type 3axes the print moves of the whole file run along the contours and fill lines of the model layer by layer.", "quantifier": "every program and every slicing type, all settings, every arithmetic, every order of the settings map, every state of the machine; dates without brace and newline", "why_tests_cant": "Temperatures, speeds, dates, the program and the state of the machine range over infinitely many values; an interplay of modes between header, program and footer shows only for some of them.", "anchors": ["gcode/gcode.go:ToOutput", "cmd/goosli/goosli.go:main", "data/header_template.txt", "data/footer_template.txt", "slicers/settings.go:ToMap"]}
{"id": "C106", "title": "After the print the machine is off", "statement": "When the whole output file has been executed, both heaters and the fan are off. False: the footer has the statement for the fan only as a comment, so after every print of two or more layers the fan runs on; the heaters are off.", "quantifier": "every program with at least two layers, all settings, every arithmetic, every state of the machine", "why_tests_cant": "A test reads one file; that no program of two layers ever ends with the fan off needs all of them.", "anchors": ["data/footer_template.txt", "gcode/cmds.go:switchFanGCode"]}
{"id": "C107", "title": "What is read as a number", "statement": "ParseFloat reads every Go literal, decimal or hexadecimal, with sign, point, exponent and separating underscores, as the nearest number of binary32, or as an infinity beyond the range; nan, inf and infinity in any case as such; and every other text as zero.", "quantifier": "all byte strings; exponents below 10000 for the value of literals", "why_tests_cant": "The set of texts is infinite, and acceptance of a wrong text shows only on that text.", "anchors": ["primitives/utils.go:ParseFloat"]}
{"id": "C108", "title": "An ASCII STL file with unreadable numbers is rejected", "statement": "Loading an ASCII STL file in which a coordinate is no number gives an error. False: such a coordinate is zero; a file with decimal commas is loaded without an error, with all vertices at the origin.", "quantifier": "all documents in the standard layout", "why_tests_cant": "A test shows one rejected file; the statement is about every file, and it is false for all of them.", "anchors": ["primitives/utils.go:ParseFloat", "primitives/stl.go:loadSTLAscii"]}
{"id": "C109", "title": "Models on a grid are sliced exactly as meant", "statement": "A watertight model whose coordinates are multiples of a power of two (for instance whole millimetres) and whose edges meet only in vertices, cut in float64 into even layers whose middles avoid the vertices, needs no further condition: the levels are exactly the middles of the layers, the run ends normally, and the file moves the nozzle along contours and fill lines that are the model at these levels. Up to 48 layers of a power of two are always even in the arithmetic; with 49 they need not be.", "quantifier": "every such model of at most a metre with 2^j*2^k*dz at most 500 for its edges, every number of layers for which n*t*(1/n) is t in float64, all settings in the ranges of C104", "why_tests_cant": "Whether rounding to eight decimals separates or merges points depends on every coordinate of every edge; only an argument about denominators covers all models.", "anchors": ["slicers/slice_by_vector.go:SliceByVector", "primitives/point.go:RoundPlaces", "primitives/plane.go:IntersectTriangle", "cmd/goosli/goosli.go:main"]}
{"id": "C110", "title": "A box is printed as rectangles", "statement": "For every box with whole coordinates, cut in float64 into n even layers, the run ends normally and the nozzle is moved through exactly n layers; in each, the corners of the contours are on the outline of the rectangle up to 6e-9 mm, and every point farther than 1e-8 mm from the outline is inside an odd number of contours exactly if it is inside the rectangle.", "quantifier": "all boxes with whole coordinates within a metre and 2^k times the height at most 500, all positions, layer heights, numbers of layers, line widths, patterns and densities in the ranges", "why_tests_cant": "All positions, sizes and levels; a test slices one box.", "anchors": ["slicers/slice_by_vector.go:SliceByVectorToGcode", "primitives/plane.go:IntersectTriangle", "primitives/path.go:JoinPaths3", "cmd/goosli/goosli.go:main"]}
{"id": "C111", "title": "The top and bottom layers of a box are solid", "statement": "In a layer of a box (C110), every fill plane across the X axis that is in the box, and not within 0.0002 mm of a side or of the place where the diagonal of a side passes the level, is filled with a line from one wall to the other. If the multiples of the line width keep away from these diagonals, then in every top and bottom layer, for every abscissa at least a line width from the sides, the file moves the nozzle across the layer from wall to wall (within 0.0016 mm) at most half a line width away: no gap is wider than a line.", "quantifier": "all boxes, levels, abscissas, line widths, machines and printers as in C110", "why_tests_cant": "All abscissas of all layers of all boxes, in float64, down to the moves read from the file; a test looks at some lines.", "anchors": ["slicers/fill_layer.go:CalcFillFullPlane", "slicers/fill_layer.go:intersectByPlane", "slicers/fill_layer.go:FillLayers", "cmd/goosli/goosli.go:main"]}
{"id": "C112", "title": "Debugging that is switched off leaves the disk alone", "statement": "With `debug: false` in data/config.yaml (or without that file) a run creates, changes and removes no file on account of the package debug, and none of its functions fails.", "quantifier": "all configurations, all states of the disk, all sequences of calls of the package debug", "why_tests_cant": "All sequences of calls and states of the disk; a test looks at one file.", "anchors": ["debug/debug.go:RecreateFile", "debug/debug.go:AddPointsToFile", "debug/config.go:Config", "slicers/slice_5axes.go:Slice5Axes"]}
{"id": "C113", "title": "The debug file shows what the run drew", "statement": "With `debug: true` and a debug file that can be written, after a run that recreates the file and draws any points, lines, triangles, layers and paths, the file is read line by line as exactly the drawn segments and triangles, in their order, with their colours and coordinates to three decimals; nothing of an earlier run is left and no other file has changed. Where the file does not exist and cannot be created, the first drawing ends the program.", "quantifier": "all lists of drawings, all previous contents, all numbers that are written without blanks and newlines (in float64: all)", "why_tests_cant": "All drawings and previous contents; a test compares one file.", "anchors": ["debug/debug.go:AddLayer", "debug/debug.go:AddTriangleByPoints", "debug/debug.go:pointToString", "primitives/utils.go:AddToFile"]}
{"id": "C114", "title": "The vertical slicer writes the file or says why not", "statement": "A run of goosli with slicing type 3axes either writes its one file or writes nothing and ends with a message (log.Fatal): no model, a template missing, the file cannot be created, a support edge that cannot be projected. False: a file with one coordinate that is infinite or not a number makes it panic, and so does a model without layers or with a single empty one. What is true: the run never hangs, it ends in exactly one of these ways, the conditions for each are known, and in float64 every finite model of two layers or more is written, whatever its triangles are.", "quantifier": "every arithmetic, all files, all flags, all orders of sorting and arrival; the last part in float64, supports off", "why_tests_cant": "All files include malformed and extreme ones; a test tries some. That no other end exists needs all of them.", "anchors": ["cmd/goosli/goosli.go:main", "slicers/slice_by_vector.go:SliceByVector", "slicers/slice_by_vector.go:SliceByVectorToGcode", "primitives/plane.go:ProectionPointToPlane", "primitives/mesh.go:MinMaxZ", "slicers/fill_layer.go:FillLayers"]}
{"id": "C115", "title": "Nothing is printed outside the model's bounding box", "statement": "Coordinates that change by less than 0.001 are not written, and along a path of short steps this adds up: the nozzle can be any distance from the path. But each coordinate of the nozzle is one of the path's coordinates with three decimals. So, on every machine, the file of a vertical run lays down filament only within 0.000501 mm of the bounding box of the moved model, and each layer within 0.000501 mm of its height.", "quantifier": "all paths; all models, flags, machine states and orders as in C105, float64", "why_tests_cant": "All paths of any length; a test looks at some moves of one file.", "anchors": ["gcode/cmds.go:pathesToGCode", "slicers/slice_by_vector.go:SliceByVector", "slicers/fill_layer.go:FillLayers"]}
{"id": "C116", "title": "Travel moves stay clear of what has been printed", "statement": "Whenever the nozzle moves sideways without printing, it is at or above everything printed so far, before and after the move; and 0.499 mm above unless filament is pulled back in the same move. This holds statement by statement for the whole file, header and footer included, on a machine in any state. The nozzle is never lower than the lowest of: the model's bottom (less 0.000501 mm), half a millimetre, its place at the start, its home.", "quantifier": "all programs of level paths in ascending heights, in any arithmetic; all models, flags, machine states and orders as in C105, float64", "why_tests_cant": "A claim about every statement against everything printed before it, for files of any length and every start of the machine.", "anchors": ["gcode/cmds.go:pathesToGCode", "cmd/goosli/goosli.go:CommandsWithTemplates", "data/footer_template.txt", "slicers/slice_by_vector.go:SliceByVector"]}
{"id": "C117", "title": "How densely boxes are filled", "statement": "In every solid layer of a box the moves that fill the layer are as long as the area of the box over the line width asks for: at most one line from wall to wall too many and three too few. In the other layers, with a pattern of one direction, the same holds for the line width over the fill density: 20 percent means 20 percent. Proved in float64 down to the moves in the file, up to 0.002 mm for every move. Fill lines of one plane never overlap, for any model.", "quantifier": "all boxes of whole millimetres, heights of layers that divide the height evenly, line widths and densities as in C110; all sorters, printers and machine orders", "why_tests_cant": "A statement about the sum of thousands of moves, for all boxes, widths and densities at once.", "anchors": ["slicers/fill_layer.go:calcFillPlanesCommon", "slicers/fill_layer.go:FillLayers", "slicers/slice_by_vector.go:SliceByVector", "gcode/cmds.go:pathesToGCode"]}
{"id": "C118", "title": "The contour of every layer of a box is its rectangle", "statement": "The vertical slicer cuts a box of whole millimetres into exactly the expected number of layers; each has one contour of five points: from one corner of the box once around its rectangle and back, at the middle of the layer, with no coordinate off by even a rounding error. In the file the contour is four moves between the corners of the box. The order of the sorting and of the workers changes at most the corner it starts from.", "quantifier": "all boxes of whole millimetres in a cube of two metres, heights of layers that divide the height evenly; all sorters, orders of arrival, flags, printers; float64", "why_tests_cant": "All boxes, and all orders in which sections are joined: which sections meet first depends on an unstable sort.", "anchors": ["slicers/slice_by_vector.go:SliceByVector", "primitives/path.go:JoinPaths3", "primitives/path.go:MinimizeLines", "gcode/cmds.go:pathesToGCode"]}
{"id": "C119", "title": "The default slicer prints a box flat, as 3axes does", "statement": "The default slicing type, which looks for overhangs and may tilt the bed, finds none in a box: without a planes file its program is one group of layers on the bed as it is, in ascending order, whose contours are exactly the rectangles of the box, whatever the walls are. If the walls are not thicker than a line, the file is the same as that of the slicing type 3axes, so all that is shown about the files of boxes holds for the default too. Slice5Axes likewise never turns the bed.", "quantifier": "all boxes of whole millimetres in a cube of two metres, heights of layers that divide the height evenly; all sorters, orders of arrival, flags, printers; float64", "why_tests_cant": "The overhang test probes 36 rounded directions with rounded centroids and crossings; whether a vertical wall is taken for an overhang by a rounding error cannot be sampled.", "anchors": ["slicers/vip/slice_main.go:Slice", "slicers/vip/slice_default.go:SliceDefault2", "slicers/slice_5axes.go:CalculateFails", "slicers/slice_5axes.go:Slice5Axes", "primitives/plane.go:IntersectPathCodirectedWith"]}
{"id": "C120", "title": "Slicing by profile fails on upright models", "statement": "A user who slices a straight upright model with 5axes_by_profile gets no file: if the line of the centres of the layers simplifies to one step straight up, the horizontal part of its direction is zero, its angle to the x axis is not a number, the turned model has no finite coordinate and the number of its layers is negative, so the run panics. Every box, at every tolerance, is such a model, although 3axes and the default type print it.", "quantifier": "all nonempty models with an upright simplified profile; all boxes of whole millimetres in a cube of two metres, heights of layers that divide the height evenly, tolerances; all sorters, orders of arrival, flags; float64", "why_tests_cant": "That the centres of all boxes come out exactly above each other, and that the simplification keeps no point between the ends, are statements about all boxes, tolerances and roundings; a test shows the panic for one model.", "anchors": ["slicers/slice_by_profile.go:SliceByProfile", "slicers/slice_by_profile.go:calculateCenters", "helpers/simplify_line.go:SimplifyLine", "primitives/vector.go:Angle", "primitives/point.go:DistanceToLine"]}
{"id": "C121", "title": "A wall of k line widths is printed as k lines", "statement": "A user who asks for a wall k times as thick as a line gets k lines around each contour: the contour and k-1 offsets of it, fewer only where the contour has no further offset. This holds where float64 division gives the quotient exactly; where it is rounded down just below k, one line is missing, and never more than one. With the default flags, a wall of 1.2 and lines of 0.4, the quotient is 2.9999999999999996 and every wall is two lines instead of three.", "quantifier": "all layers, contours, sorters, fill planes; all k up to 2^52, widths and thicknesses in float64", "why_tests_cant": "The number of lines is a floor of a rounded quotient; which pairs lose a line depends on the rounding of both flags and of their quotient, and that no pair loses two is a statement about all of them.", "anchors": ["slicers/vip/utils.go:PrepareLayers", "slicers/vip/utils.go:offset"]}
{"id": "C122", "title": "Walls stay inside the part", "statement": "The wall printed beside the contour of a layer lies inside the part. For rectangles in any position and direction this holds if no side is shorter than a line is wide; but every rectangle with one side thinner than a line and the other at least two lines long gets a wall that leaves the part, because the offsets of the two long sides pass each other and are kept.", "quantifier": "all rectangles (any corner, horizontal direction and size), line widths up to 2 mm, walls of two lines, other layers, sorters, fill planes; exact arithmetic", "why_tests_cant": "Which offset sides are kept is decided by direction alone; where their intersections fall for all sizes relative to the width of the line needs the geometry, and a test looks at a few sizes.", "anchors": ["slicers/vip/offset_path.go:MakeOffset", "slicers/vip/utils.go:PrepareLayers"]}
{"id": "C123", "title": "Models without overhangs get no supports", "statement": "If all faces of a model that are painted as overhangs are at its bottom, slicing with supports returns the same layers as slicing without, whatever the gap between supports and model; a model with whole coordinates whose downward faces are all at its bottom is such a model, and the file written for it with 3axes is byte for byte the same with and without supports; in particular the contours of a box sliced with supports are its rectangles, and the default slicer too returns the same program for it with and without supports.", "quantifier": "all models within a metre of the origin in float64 with such faces, layer heights from a micrometre, support gaps, thresholds of the overhang angle from a millionth of a degree, sorters, orders of arrival; for the file all runs, origins and templates", "why_tests_cant": "The supports of the bottom face exist in the list of triangles; that none of them reaches a slicing plane in spite of rounding, for any model, gap and layer height, and that vertical faces are never painted in float64, cannot be sampled.", "anchors": ["slicers/slice_by_vector.go:SliceByVector", "helpers/supports_by_vector.go:MakeSupportLines", "helpers/colorize_triangles.go:ColorizeTriangles", "primitives/vector.go:Angle"]}
{"id": "C124", "title": "Faces that look up are not overhangs", "statement": "A face that does not point downwards along the given direction is not painted as an overhang. With the default direction this holds in float64 for every face of at least a fiftieth of a square millimetre of models up to a metre; with the direction (1,1,1) it fails even for a face whose normal is exactly (1,1,1): the cosine computed is below -1, Angle returns 0 for it, and the face is painted for every threshold.", "quantifier": "all faces within a metre of the origin in float64, thresholds from a thousandth of a degree; the failure for every threshold from 0 to 89 degrees", "why_tests_cant": "Whether the quotient of two rounded divisions leaves the range [-1,1] depends on the last bits of the length of the vector; tests with axis directions never see it.", "anchors": ["helpers/colorize_triangles.go:ColorizeTriangles", "primitives/vector.go:Angle"]}
{"id": "C125", "title": "Cutting opens a closed model only along the cut", "statement": "If a model is a closed surface, each half that CutMesh returns for it is open, if at all, only in the cutting plane: every edge of a half, caps included, that does not lie in the plane is run through backwards by another triangle of the same half. This holds for closed models all of whose triangles are on one side or cleanly cut; it fails when a vertex touches the plane from behind: a tetrahedron cut by the plane through its top is reduced to its base.", "quantifier": "all closed triangle meshes, planes, sorters; exact arithmetic with the rounding of cut points", "why_tests_cant": "A hole appears where two neighbouring triangles are cut differently; that this never happens for any pair of neighbours and any plane is a statement about all meshes, and tests compare the counts of triangles of a few.", "anchors": ["helpers/cut_mesh.go:CutMesh", "helpers/cut_mesh.go:splitOnThree"]}
{"id": "C126", "title": "Supports stand straight below the border of the overhangs", "statement": "With supports on, SliceByVector slices, besides the model, vertical walls: below every border side of the overhanging faces, lowered by the support offset, the part of the plane between the side and the bottom of the model, in two triangles. Of these triangles exactly those are left out that IntersectTriangles finds to meet the model. A user expects a wall wherever the way to the bed is clear; that fails for every plate on a column: each side of the plate crosses the plane of a wall of the column, all of its supports are left out, and nothing is printed below the plate but the column.", "quantifier": "all meshes, directions, angles, offsets, sorters, arrival orders; for the failure all plates on columns of ordinary size; exact arithmetic with the rounding of sections", "why_tests_cant": "Which walls survive depends on the position of every support triangle relative to every face of the model; tests try a few shapes, and the failure concerns a whole family of ordinary models.", "anchors": ["slicers/slice_by_vector.go:SliceByVector", "helpers/colorize_triangles.go:FilterTrianglesByColor", "helpers/supports_by_vector.go:MakeUndoubledLinesFromTriangles", "helpers/supports_by_vector.go:MakeSupportLines"]}
{"id": "C127", "title": "The place of the model on the bed does not change its layers", "statement": "Moving a model by a multiple of 1e-8 in every coordinate moves every layer of SliceByVector by the same amount and changes nothing else: the same layers with the same contours and the same points in the same order; and if slicing one of them fails, slicing the other fails in the same way. This holds with supports off unless a point of a section is exactly in the middle between two multiples of 1e-8: halves are rounded away from zero, so a model moved by 1e-8 across zero can get a contour point moved by 2e-8.", "quantifier": "all meshes, directions, layer heights, displacements on the grid of 1e-8, arrival orders and all sorters that look at elements only through the comparison; exact arithmetic with the rounding of sections", "why_tests_cant": "A relation between two runs of the whole slicing pipeline; tests compare single runs with stored results, and the exception needs a coordinate in the middle between two rounding steps.", "anchors": ["slicers/slice_by_vector.go:SliceByVector", "primitives/plane.go:IntersectTriangle", "primitives/point.go:RoundPlaces", "primitives/path.go:JoinPaths3"]}
{"id": "C128", "title": "Moving the model by whole line distances moves its infill with it", "statement": "Moving a model moves the whole program of SliceByVectorToGcode, contours and infill, by the same amount and changes nothing else, if the displacement is a multiple of 1e-8 in every coordinate and a whole number of line distances in x. This holds for the pattern of lines, supports off, under the conditions of C127, if no fill line is within 1e-8 of the left or right side of the model. For other displacements it fails: the fill lines stay at absolute multiples of the line distance, so the same part is filled at other places (and with another number of lines) when it is moved by half a line.", "quantifier": "all meshes, directions, layer heights, densities, line widths, arrival orders and all sorters that look at elements only through the comparison; exact arithmetic with the rounding of sections", "why_tests_cant": "A relation between two runs of slicing and filling; a test stores the infill of one place only.", "anchors": ["slicers/slice_by_vector.go:SliceByVectorToGcode", "slicers/fill_layer.go:FillLayers", "slicers/fill_layer.go:CalcFillPlanes", "slicers/fill_layer.go:sortFillPathes"]}
{"id": "C129", "title": "Contours are closed exactly where the facets match", "statement": "The contours of a layer that passes through no vertex are closed exactly if every edge crossing the plane of the layer belongs to two facets that run along it in opposite directions (supports off). So a missing facet, or a facet with the wrong orientation in an otherwise closed surface, leaves an open contour in exactly the layers that cross its edges, whatever order the unstable sort returns; no layer elsewhere is affected.", "quantifier": "all meshes without degenerate facets and without two facets along an edge in the same direction (this is not needed for the direction from closed contours to matching facets), all directions, layers, settings with supports off and orders the unstable sort may return", "why_tests_cant": "An equivalence for all meshes, all layers and all sort orders; tests slice sound models only.", "anchors": ["slicers/slice_by_vector.go:SliceByVector", "primitives/path.go:JoinPaths3", "primitives/path.go:tryJoin", "primitives/plane.go:IntersectTriangle"]}
{"id": "C130", "title": "The order of the facets in the file does not change the part", "statement": "Two files with the same facets, in any order and with the vertices of every facet in any order, as long as each file is consistently oriented (so also if the whole surface is turned inside out), give the same printed part when sliced and filled vertically with supports off: both runs succeed with the same levels, and at every level that passes through no vertex the same points are inside the printed contours.", "quantifier": "all watertight meshes, all reorderings of the facets and of their vertices that are again watertight, all settings with supports off, all orders of the unstable sorts and of the arrival of layers in both runs; points closer than 1e-8 to the surface or in a slim cut triangle are excepted", "why_tests_cant": "There are n! 6^n ways of writing a model with n facets; the contours, their starting points and their directions differ, only the enclosed region is the same.", "anchors": ["gcode/gcode.go:AddLayers", "slicers/slice_by_vector.go:SliceByVectorToGcode", "slicers/slice_by_vector.go:SliceByVector", "primitives/path.go:JoinPaths3"]}
{"id": "C131", "title": "Turning, mirroring, stretching or leaning the model does the same to the printed part", "statement": "Let a map of space keep heights and be affine in the horizontal coordinates: turning about a vertical axis, mirroring at a vertical plane, moving sideways, stretching sideways, leaning. Slicing and filling the image of a model vertically (supports off) gives the image of the printed part: the same levels, and at every level that passes through no vertex a point is inside the contours of the model exactly if its image is inside the contours of the image.", "quantifier": "all watertight meshes and all such maps that can be undone, all settings with supports off, all orders of the unstable sorts and of the arrival of layers in both runs; levels good for both, points closer than 1e-8 to one of the surfaces or in a slim cut triangle are excepted", "why_tests_cant": "There are infinitely many angles and factors, and none of the contours, starting points or fill lines of the two runs correspond; only the region does.", "anchors": ["gcode/gcode.go:AddLayers", "slicers/slice_by_vector.go:SliceByVectorToGcode", "slicers/slice_by_vector.go:SliceByVector", "primitives/path.go:JoinPaths3"]}
{"id": "C132", "title": "The order of the facets and turning the model, in the arithmetic of the program", "statement": "With float64 arithmetic, as the program computes: two files with the same facets in any order, with their vertices in any order and both consistently oriented, give the same printed part, and the image of a model under a map that keeps heights (turning, mirroring, moving, stretching or leaning sideways) gives the image of the printed part. At every level a point is inside the contours of the one run exactly if it (its image) is inside the contours of the other.", "quantifier": "all watertight meshes of float64 coordinates up to a metre that meet the separation conditions at every level, all reorderings and maps, all settings with supports off, all orders of the unstable sorts and of the arrival of layers; points closer than 1e-8 to the surface or in a thin cut triangle are excepted", "why_tests_cant": "The rounding errors of the two runs differ at every crossing point; that they never change the region is a statement about all inputs.", "anchors": ["gcode/gcode.go:AddLayers", "slicers/slice_by_vector.go:SliceByVectorToGcode", "slicers/slice_by_vector.go:SliceByVector", "primitives/path.go:JoinPaths3"]}
{"id": "C133", "title": "Two files of the same model give the same part", "statement": "If two STL files load as the same facets, in any order and with the vertices of every facet in any order, both consistently oriented, then two runs of the program with the same flags (slicing type 3axes, supports off, float64 arithmetic) both end normally, write one file each, and move the nozzle layer by layer along contours that enclose the same points at every level: the material of the model.", "quantifier": "all such pairs of files, all flags of this kind, all orders of the unstable sorts and of the arrival of layers in both runs; points closer than 1e-8 to the surface or in a thin cut triangle are excepted", "why_tests_cant": "The two output files may differ in every line of a layer (starting points, directions, order of contours); that the enclosed region is nevertheless the same for all ways of writing all models is not a finite check.", "anchors": ["cmd/goosli/goosli.go:main", "primitives/stl.go:LoadSTL", "slicers/slice_by_vector.go:SliceByVectorToGcode", "primitives/path.go:JoinPaths3"]}
{"id": "C134", "title": "Stretching the model upwards together with the layer height, and turning it upside down", "statement": "Stretching the heights of a model by a factor, moving it up or down, or mirroring it upside down, and slicing it with the layer height multiplied by the same factor (vertical slicing, supports off), gives the same number of levels and the image of the printed part. Upside down, the layers come in the opposite order: layer m becomes layer n-1-m.", "quantifier": "all watertight meshes, all factors except 0, all settings with supports off (the other settings of the two runs need not agree), all orders of the unstable sorts and of the arrival of layers; at levels that pass through no vertex, except points closer than 1e-8 to the surface or in a slim cut triangle", "why_tests_cant": "The levels are placed from the lowest vertex and the last one may be short in other slicers; that they are placed symmetrically for all heights and layer heights is not visible in samples.", "anchors": ["slicers/slice_by_vector.go:SliceByVector", "slicers/slice_by_vector.go:SliceByVectorToGcode", "primitives/path.go:JoinPaths3", "primitives/plane.go:IntersectTriangle"]}
{"id": "C135", "title": "Two bodies in one file", "statement": "A file with several closed bodies prints all of them: where the bodies do not overlap the printed part is the union of the bodies. (Where they do overlap the code leaves the overlap out; the full claim, that the union is printed, is violated.)", "quantifier": "all pairs of watertight bodies whose union is watertight, all settings with supports off, all orders of the unstable sorts and of the arrival of layers, in exact numbers and in float64; at levels that pass through no vertex, except points closer than 1e-8 to the surface or in a slim cut triangle", "why_tests_cant": "Whether a place inside two bodies is filled depends on how the contours nest after they are joined; sample files rarely have overlapping bodies, and no sample shows the rule for all of them.", "anchors": ["slicers/slice_by_vector.go:SliceByVector", "slicers/slice_by_vector.go:SliceByVectorToGcode", "primitives/path.go:JoinPaths3", "primitives/plane.go:IntersectTriangle"]}
{"id": "C136", "title": "Bodies side by side are all printed", "statement": "When the bodies in a file are separated by a vertical plane, the printed part is exactly the union of the bodies: none is lost, merged with another or hollowed out.", "quantifier": "all pairs of watertight bodies on different sides of any vertical plane, all settings with supports off, all orders of the unstable sorts and of the arrival of layers; in exact numbers at good levels, and in float64 for models on a grid cut into even layers; except points closer than 1e-8 to the surface or in a slim cut triangle", "why_tests_cant": "The segments of all bodies go into one list that is joined by closeness of ends; that the joins never go from one body to another for any bodies and positions cannot be seen in samples.", "anchors": ["slicers/slice_by_vector.go:SliceByVector", "slicers/slice_by_vector.go:SliceByVectorToGcode", "primitives/path.go:JoinPaths3", "primitives/plane.go:IntersectTriangle"]}
{"id": "C137", "title": "Cavities are left empty", "statement": "A model with a cavity, that is a closed surface inside a closed body, is printed without the cavity: no outline of it is lost and it is not filled, whichever way its facets are oriented. A box with a box-shaped cavity is printed as its rectangle without the rectangle of the cavity, at the heights of the cavity, and as the full rectangle elsewhere.", "quantifier": "all pairs of watertight surfaces one inside the other, all settings with supports off, all orders of the unstable sorts and of the arrival of layers, in exact numbers at good levels; in float64 for all boxes and cavities with whole coordinates cut into even layers; except points closer than 1e-8 to the surface or in a slim cut triangle", "why_tests_cant": "The code does not look at the orientation of facets or at the nesting of contours; that holes come out as holes for all shapes is a statement about all inputs.", "anchors": ["slicers/slice_by_vector.go:SliceByVector", "slicers/slice_by_vector.go:SliceByVectorToGcode", "primitives/path.go:JoinPaths3", "primitives/plane.go:IntersectTriangle"]}
{"id": "C138", "title": "The rule for any number of bodies", "statement": "For a file with any number of closed bodies the printed part is the set of points that are in an odd number of them. Bodies that do not overlap are all printed; bodies nested in each other alternate between material and void.", "quantifier": "all lists of watertight bodies that are watertight together, all settings with supports off, all orders of the unstable sorts and of the arrival of layers, in exact numbers and in float64; at levels that pass through no vertex, except points closer than 1e-8 to the surface or in a slim cut triangle", "why_tests_cant": "A statement on all numbers of bodies and all ways to nest them.", "anchors": ["slicers/slice_by_vector.go:SliceByVector", "slicers/slice_by_vector.go:SliceByVectorToGcode", "primitives/path.go:JoinPaths3", "primitives/plane.go:IntersectTriangle"]}
{"id": "C139", "title": "Several bodies, from the file to the moves of the nozzle", "statement": "Running the program on an STL file with several closed bodies ends normally and writes one file; its moves go layer by layer along contours that enclose exactly the points that are in an odd number of the bodies, and a level for which no layer is written has no such points.", "quantifier": "all lists of closed bodies on a grid, all origins, all flags of a vertical slice with supports off and even layers, all headers and footers, all orders of the unstable sorts and of the arrival of layers, in float64; except points closer than 1e-8 to the surface or in a slim cut triangle", "why_tests_cant": "A statement about the text written for all files; bodies may touch the order of segments, joins and layers in any way.", "anchors": ["cmd/goosli/goosli.go:main", "primitives/stl.go:LoadSTL", "slicers/slice_by_vector.go:SliceByVectorToGcode", "primitives/path.go:JoinPaths3"]}
{"id": "C140", "title": "A body does not change what is printed of another beside it", "statement": "Adding a body to a file, beside the ones that are there and not lower or higher than them, does not change what is printed of them: the points printed on their side are the same as if they were sliced alone.", "quantifier": "all pairs of watertight bodies on different sides of any vertical plane, all pairs of settings with the same layer height and supports off, all orders of the unstable sorts and of the arrival of layers; in exact numbers at good levels, in float64 for models on a grid cut into even layers; except points closer than 1e-8 to the surface or in a slim cut triangle", "why_tests_cant": "It compares the outputs of two runs for all pairs of bodies.", "anchors": ["slicers/slice_by_vector.go:SliceByVector", "slicers/slice_by_vector.go:SliceByVectorToGcode", "primitives/path.go:JoinPaths3", "primitives/plane.go:IntersectTriangle"]}
{"id": "C141", "title": "Bodies above each other", "statement": "What is printed at a level depends only on the bodies that reach it: bodies that are wholly above or below have no effect, a level reached by one body is a layer of this body, and in a gap between bodies above each other nothing is printed.", "quantifier": "all lists of watertight bodies that are watertight together, all settings with supports off, all orders of the unstable sorts and of the arrival of layers, in exact numbers and in float64; at levels that pass through no vertex, except points closer than 1e-8 to the surface or in a slim cut triangle", "why_tests_cant": "The sweep over sorted facets decides which bodies are cut at a level; that no facet of another body gets in holds for all positions or not at all.", "anchors": ["slicers/slice_by_vector.go:SliceByVector", "slicers/slice_by_vector.go:SliceByVectorToGcode", "primitives/path.go:JoinPaths3", "primitives/plane.go:IntersectTriangle"]}
{"id": "C142", "title": "The printed part is in the convex hull of the model", "statement": "Every half-space that contains the model contains the printed part: what is inside the contours of a layer is in the convex hull of the model.", "quantifier": "all watertight meshes and all half-spaces, all settings with supports off, all orders of the unstable sorts and of the arrival of layers, in exact numbers and in float64; at levels that pass through no vertex, except points closer than 1e-8 to the surface or in a slim cut triangle", "why_tests_cant": "A wrong join of two segments can enclose places outside of the model; for all models this is a geometric statement.", "anchors": ["slicers/slice_by_vector.go:SliceByVector", "slicers/slice_by_vector.go:SliceByVectorToGcode", "primitives/path.go:JoinPaths3", "primitives/plane.go:IntersectTriangle"]}
{"id": "C143", "title": "Finer layers contain the coarser ones", "statement": "Slicing the same model with a third, a fifth, ... of the layer height changes nothing at the levels of the coarse print: every layer of the coarse print is found in the fine one, layer m as layer (2j+1)m+j, with the same inside of contours.", "quantifier": "all watertight meshes whose height is a whole number of layer heights, all odd divisors, all other settings of the two runs with supports off, all orders of the unstable sorts and of the arrival of layers, in exact numbers and (models on a grid, even layers) in float64; except points closer than 1e-8 to the surface or in a slim cut triangle", "why_tests_cant": "It compares two runs with different settings for every model; a test compares the layers of one model at two layer heights.", "anchors": ["slicers/slice_by_vector.go:SliceByVector", "slicers/slice_by_vector.go:SliceByVectorToGcode", "primitives/path.go:JoinPaths3", "primitives/plane.go:IntersectTriangle"]}
{"id": "C144", "title": "A change on one side of a vertical plane changes nothing on the other side", "statement": "Two models of the same extent in height that differ only in facets beyond a vertical plane are printed alike on the near side of the plane: editing one end of a part does not change the contours at the other end.", "quantifier": "all pairs of watertight meshes with a common set of facets and the others beyond any vertical plane, all settings (same layer height, supports off), all orders of the unstable sorts and of the arrival of layers, in exact numbers and in float64; at levels that are good for both, except points closer than 1e-8 to the surface or in a slim cut triangle", "why_tests_cant": "The contours are joined from all segments of a level in the order of a sort, so that a changed segment could change any join; a test sees one edit of one model.", "anchors": ["slicers/slice_by_vector.go:SliceByVector", "slicers/slice_by_vector.go:SliceByVectorToGcode", "primitives/path.go:JoinPaths3", "primitives/plane.go:IntersectTriangle"]}
{"id": "C145", "title": "A layer depends only on the facets that reach its level", "statement": "Two models of the same extent in height are printed alike at every level that is reached by the same facets of both: editing a part above or below a level does not change the layer.", "quantifier": "all pairs of watertight meshes of the same extent in height, all settings (same layer height, supports off), all orders of the unstable sorts and of the arrival of layers, in exact numbers and in float64; at good levels, except points closer than 1e-8 to the surface or in a slim cut triangle", "why_tests_cant": "The sweep carries a list of active facets from layer to layer, so that a facet below could be left in or one above be lost; a test sees one pair of models.", "anchors": ["slicers/slice_by_vector.go:SliceByVector", "slicers/slice_by_vector.go:SliceByVectorToGcode", "primitives/path.go:JoinPaths3", "primitives/plane.go:IntersectTriangle"]}
{"id": "C146", "title": "Making a part taller by whole layers leaves the layers below alone", "statement": "When a part is changed from k to k' layer heights with its lowest point kept, the layers that are reached by the same facets as before are printed as before: adding to the top does not change the layers below.", "quantifier": "all pairs of watertight meshes with the same lowest point whose heights are whole numbers of layer heights, all settings (same layer height, supports off), all orders of the unstable sorts and of the arrival of layers, in exact numbers and (models on a grid, even layers) in float64; at good levels, except points closer than 1e-8 to the surface or in a slim cut triangle", "why_tests_cant": "Number and place of the layers are computed from the extent of the whole model, so a change at the top can move every layer; a test sees one pair of models.", "anchors": ["slicers/slice_by_vector.go:SliceByVector", "slicers/slice_by_vector.go:SliceByVectorToGcode", "primitives/path.go:JoinPaths3", "primitives/plane.go:IntersectTriangle"]}
{"id": "C147", "title": "An edit of the model file changes only the moves that it reaches", "statement": "When the program is run on the file of a model and on the file of an edited model, the contours along which the nozzle is moved enclose the same points at every level that is reached by the same facets; and if the models differ only beyond a vertical plane, the same points on the near side of it at every level.", "quantifier": "all pairs of files of watertight models on a grid with the same lowest point and layer height, heights that are whole numbers of layer heights, no vertex in the middle of a layer, slicing type 3axes, supports off, all machines and times, in float64; except points closer than 1e-8 to the surface or in a thin cut triangle", "why_tests_cant": "The extent of the whole model decides where all the layers are, and the pieces of a layer are joined together in one pass over all facets; a test sees one pair of files.", "anchors": ["cmd/goosli/goosli.go:main", "slicers/slice_by_vector.go:SliceByVector", "slicers/slice_by_vector.go:SliceByVectorToGcode", "primitives/path.go:JoinPaths3"]}
