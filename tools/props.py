#!/usr/bin/env python3
# Writes /verif/properties.jsonl from the table below (one record per property).
import json, os
P = []
def p(id, title, statement, quantifier, why, anchors):
    P.append(dict(id=id, title=title, statement=statement, quantifier=quantifier, why_tests_cant=why, anchors=anchors))

p("C01","Slicing is schedule independent and never deadlocks",
 "SliceByVector returns the same list of layers whatever the number of CPUs and whatever the interleaving of its goroutines and channel operations: layer k of the result is the contour of plane k, in increasing Order. No interleaving blocks forever.",
 "every job list, every worker count >= 1, every interleaving of main and workers",
 "A test run sees one interleaving on one machine; the number of schedules is unbounded.",
 ["slicers/slice_by_vector.go:SliceByVector","slicers/slice_by_vector.go:slicingWorker","primitives/utils.go:DoInParallel"])
p("C02","Parallel fills write every slot exactly once",
 "Mesh.CopyTriangles returns the same triangles in the same order, and the parallel binary STL decoder fills slot i with record i, for every worker count and every interleaving of the workers' writes; the call returns only after all writes are done.",
 "every slice length, every worker count >= 1, every interleaving of writes",
 "Races show up only under particular interleavings and core counts.",
 ["primitives/mesh.go:CopyTriangles","primitives/stl.go:loadSTLBinary","primitives/utils.go:DoInParallelAndWait"])
p("C03","Binary STL save/load round trip",
 "Loading the bytes written by SaveSTL yields a mesh with the same number of triangles in the same order, each vertex coordinate converted to float32 and back, and each normal recomputed from those vertices. Saving and loading a second time changes nothing further.",
 "every mesh with fewer than 2^32 triangles, every coordinate value",
 "The property ranges over all meshes; a sample of files cannot show offset or endianness errors for every field and count.",
 ["primitives/stl.go:SaveSTL","primitives/stl.go:LoadSTL","primitives/stl.go:loadSTLBinary","primitives/stl.go:makeFloat"])
p("C04","STL loader is total and picks the format by size",
 "LoadSTL never panics on any file content. A file shorter than 84 bytes is rejected with an error. A file whose length is exactly 84+50*count (count = little-endian word at offset 80) is read as binary and gives exactly count triangles; any other file is read as ASCII.",
 "every byte string",
 "The input space is all byte strings.",
 ["primitives/stl.go:LoadSTL","primitives/stl.go:loadSTLBinary","primitives/stl.go:loadSTLAscii"])
p("C05","ASCII STL vertices are grouped in file order",
 "For every ASCII STL document in the standard facet/outer loop/vertex layout, with any indentation and any number tokens, the loader returns exactly its facets in order with their three vertices in order. For arbitrary text the number of triangles is one third (rounded down) of the number of accepted vertex lines.",
 "every list of facets, every indentation, every token text, every list of text lines",
 "Unbounded documents; off-by-one in the modulo-3 grouping only appears for particular counts.",
 ["primitives/stl.go:loadSTLAscii"])
p("C06","Stored normals always match the vertices",
 "Every triangle produced by NewTriangle, Fill, Shift, Mesh.Rotate, Mesh.Shift, the STL loaders, CutMesh or the mesh simplifier wrapper has normal (P2-P1)x(P3-P1), provided the input mesh does; a normal stored in an STL file is ignored.",
 "every triangle and mesh, every operation sequence",
 "An invariant over all histories of mesh operations.",
 ["primitives/triangle.go:Fill","primitives/triangle.go:Shift","primitives/mesh.go:Rotate","helpers/cut_mesh.go:CutMesh","helpers/simplify_mesh.go:toGoosliMesh"])
p("C07","Segment/plane intersection is exact",
 "IntersectSegment returns a point exactly when the segment is not parallel to the plane and the two ends are not strictly on the same side; the point returned is on the plane and on the segment, and it does not depend on the order of the two ends.",
 "every plane and every pair of finite points (exact arithmetic)",
 "Infinitely many configurations, including touching and parallel ones.",
 ["primitives/plane.go:IntersectSegment"])
p("C08","Triangle/plane intersection is sound and oriented",
 "When IntersectTriangle returns a line, each end is within 0.5e-8 per coordinate of a point that lies on both the plane and the boundary of the triangle, the two ends differ by at least 1e-6 in some coordinate, and the direction of the line is consistent with the triangle normal (material on the same side for every triangle).",
 "every plane, every triangle with coordinates below 9e10",
 "All triangle/plane positions, including planes through vertices and edges.",
 ["primitives/plane.go:IntersectTriangle","primitives/utils.go:RoundPlaces"])
p("C09","Visible cross sections are not lost",
 "If a plane has a triangle vertex strictly on each side and the two crossing points differ by more than 1.02e-6 in some coordinate, IntersectTriangle returns a line.",
 "every plane and triangle in that position",
 "All positions; a missed edge pair shows only for one of the three vertex arrangements.",
 ["primitives/plane.go:IntersectTriangle"])
p("C10","The sweep equals brute force",
 "For every layer, the segments that SliceByVector feeds to contour assembly are exactly the segments obtained by intersecting the layer plane with every triangle of the mesh (and every support triangle), with the same multiplicity: the active-list optimisation never loses or invents a segment.",
 "every mesh, direction, layer height and layer index, every behaviour of the unstable sort on ties",
 "The active list depends on the whole history of previous layers.",
 ["slicers/slice_by_vector.go:SliceByVector"])
p("C11","Layer count and layer heights",
 "SliceByVector places ceil(height/layer_height) planes; plane i is at min + (i+1/2)*h where h = height/n, so planes are evenly spaced, spacing is at most the requested layer height, every plane is strictly inside the model, and at most the first and the last layer are dropped (only when empty).",
 "every non-flat mesh, direction and positive layer height",
 "All heights and ratios.",
 ["slicers/slice_by_vector.go:SliceByVector"])
p("C12","Degenerate slicing requests",
 "SliceByVector on a nil or empty mesh returns no layers. On a mesh with positive height and a positive layer height it returns normally unless there is a single empty layer. A user relies on it never crashing; the code does panic on a mesh that is flat in the slicing direction and on a zero layer height.",
 "every mesh and layer height",
 "Crash freedom over all inputs.",
 ["slicers/slice_by_vector.go:SliceByVector"])
p("C13","Contour assembly conserves segments",
 "JoinPaths3 loses, duplicates and reverses nothing: each output path is the concatenation of some input paths in order, consecutive ones (with at least one segment) meeting in points equal up to 1e-6, every input path is used in exactly one output path, and the total number of segments is unchanged. It never panics on non-empty paths and always terminates.",
 "every list of non-empty paths, every floating point behaviour, every result the sort may produce",
 "All segment soups and all unspecified sort orders.",
 ["primitives/path.go:JoinPaths3","primitives/path.go:tryJoin"])
p("C14","Clean segment soups become closed loops",
 "If every end point in a list of segments is the start of exactly one segment and the end of exactly one segment, and distinct coordinates are at least 1e-6 apart, JoinPaths3 returns only closed paths.",
 "every such list of paths in any order",
 "All sizes, all numbers of loops and all input orders.",
 ["primitives/path.go:JoinPaths3"])
p("C15","Slicing a watertight mesh gives closed contours",
 "If a mesh is watertight and consistently oriented (each directed edge is matched by exactly one opposite edge), a plane passes through no vertex and the crossing points are well separated, then assembling the per-triangle intersections yields only closed contours.",
 "every watertight mesh and every such plane",
 "A global topological consequence for all meshes.",
 ["primitives/plane.go:IntersectTriangle","primitives/path.go:JoinPaths3","slicers/slice_by_vector.go:slicingWorker"])
p("C16","JoinPaths2 conserves segments for every map order",
 "JoinPaths2 (used by Plane.IntersectMesh) terminates, returns paths that are chains of the input paths (each possibly reversed), uses each input path exactly once, and turns every soup in which each rounded end point occurs an even number of times into closed paths, for every iteration order of Go maps. It also should leave no two paths that could be joined; false in the code, the result depends on the order.",
 "every list of non-empty paths, every map iteration order in every round",
 "Go randomises map iteration; there are factorially many orders.",
 ["primitives/path.go:JoinPaths2","primitives/path.go:toslice","primitives/plane.go:IntersectMesh"])
p("C17","Collinear merging keeps the path's shape data",
 "MinimizeLines never adds points: the result is made of input points in order. An open path keeps its first and last point; a closed path stays closed; a path with fewer than three points is unchanged; a path that turns at every vertex by more than the tolerance is unchanged.",
 "every path with finite coordinates",
 "All lengths and all turning patterns, including the wrap-around case.",
 ["primitives/path.go:MinimizeLines","primitives/line.go:IsCollinear"])
p("C18","Line simplification error bound",
 "SimplifyLine with epsilon >= 0 keeps the first and last point, returns points of the input in order, and every input point is within epsilon of the line through the two kept points that enclose it.",
 "every polyline of at least two finite points, every epsilon >= 0",
 "Recursive algorithm over all polylines.",
 ["helpers/simplify_line.go:SimplifyLine","primitives/point.go:DistanceToLine"])
p("C19","Line simplification terminates exactly for non-negative epsilon",
 "SimplifyLine terminates on every non-empty polyline when epsilon >= 0. For a negative epsilon it recurses without end, and on an empty polyline it panics.",
 "every polyline and epsilon",
 "Non-termination cannot be observed by a finite test; termination is over all inputs.",
 ["helpers/simplify_line.go:SimplifyLine"])
p("C20","Cutting separates the mesh",
 "Every vertex of the first mesh returned by CutMesh is in front of the cutting plane and every vertex of the second behind it, up to the 1e-8 rounding of the cut points. Triangles entirely on one side are passed through unchanged to that side.",
 "every mesh and plane",
 "All triangle positions and all meshes.",
 ["helpers/cut_mesh.go:CutMesh","helpers/cut_mesh.go:splitOnThree","primitives/plane.go:PointInFront"])
p("C21","Cutting loses no surface",
 "Apart from the caps, the two halves returned by CutMesh together cover the input surface: for each input triangle the pieces' area vectors add up to the triangle's. False in the code for a triangle that touches the plane in exactly one vertex from behind: it is dropped from both halves.",
 "every mesh and plane",
 "All triangles; the loss happens only in a measure-zero position.",
 ["helpers/cut_mesh.go:CutMesh","helpers/cut_mesh.go:splitOnThree"])
p("C22","Caps are mirrored and face outwards",
 "The cap triangles that CutMesh adds to the two halves are the same triangles with opposite orientation; those of the front half have normals pointing against the plane normal and those of the back half along it.",
 "every mesh and plane",
 "All cut contours.",
 ["helpers/cut_mesh.go:CutMesh"])
p("C23","Rotations are rigid and reversible",
 "Mesh.Rotate with RotationAroundX/Z keeps the number and order of triangles, all distances and areas, leaves the rotation centre fixed, rotates normals with the surface, and rotating by angle and then -angle about the same centre restores the mesh.",
 "every mesh, angle and centre (exact arithmetic)",
 "All angles and meshes.",
 ["primitives/mesh.go:Rotate","primitives/rotation_matrix.go","primitives/vector.go:Rotate"])
p("C24","Shifting is a translation",
 "Mesh.Shift moves every vertex by exactly the vector, keeps normals, and shifting by v and then by w equals shifting by v+w; a nil mesh is ignored.",
 "every mesh and vector (exact arithmetic)",
 "All meshes and vectors.",
 ["primitives/mesh.go:Shift","primitives/triangle.go:Shift"])
p("C25","Bounding interval is tight",
 "MinMaxZ(dir) of a non-empty mesh returns numbers lo <= hi such that the projection of every vertex on dir is between them, and both are attained; an empty mesh gives (0,0).",
 "every mesh and direction",
 "All meshes, all vertex orders.",
 ["primitives/mesh.go:MinMaxZ","primitives/triangle.go:MinMaxZ"])
p("C26","Projections are orthogonal and nearest",
 "Projecting a vector on a plane gives a vector orthogonal to its normal; projecting a point on a line or a plane gives the nearest point of that line or plane and is idempotent; Normalize gives length one or the zero vector; a zero plane normal makes the point projection exit fatally.",
 "every vector, point, line and plane (exact arithmetic)",
 "All real inputs.",
 ["primitives/vector.go:ProjectOn","primitives/vector.go:ProjectOnPlane","primitives/vector.go:Normalize","primitives/point.go:ProjectOnLine","primitives/plane.go:ProectionPointToPlane"])
p("C27","Angles are angles",
 "Angle of two non-zero vectors is between 0 and 180, symmetric, unchanged by positive scaling, a+b=180 for the reversed vector, 0 exactly for parallel and 180 exactly for antiparallel vectors; with a zero vector it is NaN.",
 "every pair of finite vectors (exact arithmetic)",
 "All real inputs.",
 ["primitives/vector.go:Angle"])
p("C28","Overhang classification",
 "ColorizeTriangles returns one flag per triangle in order; the flag is set exactly when the angle between the facet normal and the reversed build direction is below 90-angle; degenerate facets are never flagged; the flags do not depend on the length of the direction vector; FilterTrianglesByColor returns exactly the flagged triangles in order.",
 "every mesh, angle and direction",
 "All meshes and angles.",
 ["helpers/colorize_triangles.go:ColorizeTriangles","helpers/colorize_triangles.go:FilterTrianglesByColor"])
p("C29","Centroid of a horizontal contour",
 "For every closed contour in a horizontal plane with non-negligible area, FindCentroid returns the area centroid in that plane; it moves with the contour under horizontal translation and does not depend on traversal direction.",
 "every closed horizontal polygon",
 "All polygons of all sizes.",
 ["primitives/path.go:FindCentroid"])
p("C30","Hole/solid classification",
 "IsWindingCW depends only on the sign of the enclosed area: it is unchanged by translation and by the choice of starting vertex, and reversing a contour of non-zero area flips it, so exactly one of a contour and its reverse is solid. An empty path makes it panic.",
 "every path",
 "All polygons.",
 ["primitives/path.go:IsWindingCW","primitives/path.go:IsHole","primitives/path.go:IsSolid"])
p("C31","Path reversal and closing",
 "Reverse is an involution that swaps the end points; Close returns a closed path that starts with the original points, adds at most one point and is idempotent.",
 "every path",
 "All lengths.",
 ["primitives/path.go:Reverse","primitives/path.go:Close","primitives/path.go:IsClosed"])
p("C32","Layer numbering in the G-code",
 "The ;LAYER:k comments in the output of ToOutput are numbered 0,1,2,... without gaps or repeats over all commands, and their number is LayerCount(), the value printed in the header.",
 "every command list",
 "All command sequences.",
 ["gcode/gcode.go:ToOutput","gcode/gcode.go:LayerCount","gcode/cmds.go:LayersMoving","cmd/goosli/goosli.go:CommandsWithTemplates"])
p("C33","Filament fed equals path length times cross section",
 "Executing the produced G-code on a printer with absolute extrusion feeds, over the whole job, filament equal to (4*line_width*layer_height/(pi*d^2)) times the total length of all printed segments, up to the three-decimal rounding once per extruder reset, whatever bed rotations are interleaved (retraction off).",
 "every command list and settings",
 "Accumulation over the whole history of commands and resets.",
 ["gcode/cmds.go:pathesToGCode","gcode/cmds.go:decreaseEOff","gcode/cmds.go:RotateZ","gcode/cmds.go:InclineX"])
p("C34","Extruder coordinate never goes backwards",
 "With retraction off, during printing the E coordinate never decreases except by an explicit G92 reset, and is reset at the end of any layer that left it above 4000.",
 "every command list with non-negative widths",
 "All histories.",
 ["gcode/cmds.go:pathesToGCode","gcode/cmds.go:decreaseEOff"])
p("C35","Fan protocol",
 "While printing any layer the fan is on, except layer 0 when FanOffLayer1 is set, when it is off; the fan is switched at most once in the whole job.",
 "every command list",
 "All command sequences.",
 ["gcode/cmds.go:switchFanGCode","gcode/cmds.go:LayersMoving"])
p("C36","Print moves run at the configured speed",
 "Every extruding move of layer 0 runs at PrintSpeedLayer1, every other wall move at PrintSpeedWall and every fill move at PrintSpeed. True when there is no retraction and no bed rotation; false in the code otherwise, because F300 and the retraction speed stay modal.",
 "every command list and settings",
 "Modal state over all histories.",
 ["gcode/cmds.go:printSpeedToGCode","gcode/cmds.go:retractionToGCode","gcode/cmds.go:RotateZ","gcode/cmds.go:InclineX"])
p("C37","Bed axes end where they were told",
 "After any command sequence the physical rotation axis is at the last RotateZ angle and the tilt axis at 60 after InclineX and at 0 after InclineXBack, the extruder tool is selected again and the E register is what the extruder state says.",
 "every command list",
 "All histories of bed moves and prints.",
 ["gcode/cmds.go:RotateZ","gcode/cmds.go:InclineX","gcode/cmds.go:InclineXBack"])
p("C38","The nozzle follows the path",
 "Executing the G-code of a path, the nozzle extrudes along exactly the path's segments and ends at its last point, with at most 0.0005 per coordinate error. True when every coordinate changes by 0 or at least 0.001 per segment; false in the code otherwise: coordinates changing by less than 0.001 are dropped and the drift is unbounded.",
 "every path",
 "Drift accumulates over arbitrarily long paths.",
 ["gcode/cmds.go:pathesToGCode","primitives/point.go:StringGcode"])
p("C39","Retraction pulls the configured distance",
 "With retraction on, each retraction pulls the filament back by RetractionDistance. False in the code: the retraction is an absolute E coordinate in absolute mode, so it pulls back everything extruded since the last reset plus the distance.",
 "every extruder state and settings",
 "Depends on the whole history of extrusion.",
 ["gcode/cmds.go:retractionToGCode","data/header_template.txt"])
p("C40","Flow setting scales extrusion",
 "Changing the Flow setting changes the amount extruded. False in the code: the produced G-code is the same for every Flow value.",
 "every command list and pair of flow values",
 "A statement about all outputs.",
 ["gcode/gcode.go:GcodeSettings","gcode/cmds.go:pathesToGCode"])
p("C41","Template substitution does not depend on map order",
 "PrepareDataFile replaces every placeholder by its value and leaves all other text alone, with the same result for every iteration order of the settings map, for every template in which each opening brace is closed before the next one is opened, as long as no value contains an opening brace. For a template with nested braces the result depends on the order.",
 "every template text without nested braces, every settings map without opening braces in values, every map iteration order",
 "Go randomises map iteration.",
 ["primitives/utils.go:PrepareDataFile","slicers/settings.go:ToMap"])
p("C42","Top and bottom layers are filled solid",
 "FillLayers fills layer i with the full-density planes exactly when i < BottomLayers or i >= n-TopLayers and with the sparse planes otherwise, uses the innermost wall when present and the outer contour otherwise, and changes nothing but the fill.",
 "every list of layers and settings",
 "All layer counts, including overlapping top and bottom ranges.",
 ["slicers/fill_layer.go:FillLayers"])
p("C43","Fill lines lie in the fill plane between contour crossings",
 "Each fill segment joins two points of the layer contours that lie in the fill plane; segments on one fill line are disjoint in their interiors and sorted; with fewer than two crossings there is none, with an even number of crossings every crossing is used exactly once.",
 "every contour set and plane, every result the unstable sort may produce",
 "All crossing counts.",
 ["slicers/fill_layer.go:intersectByPlane"])
p("C44","Fill ordering keeps every fill line exactly once",
 "The travel-minimising reorder of fill lines returns a permutation of the input lines, each possibly reversed, keeps the first one first, and each next line is a nearest remaining one.",
 "every list of non-empty fill lines with coordinates below 1e37",
 "Greedy selection over all list sizes.",
 ["slicers/fill_layer.go:sortFillPathes"])
p("C45","Infill planes are evenly spaced and cover the model",
 "The infill planes for a direction are exactly one step apart, at integer multiples of the step, and for the Lines pattern every abscissa of the model is within one step of a plane.",
 "every mesh and positive step",
 "All extents and steps.",
 ["slicers/fill_layer.go:calcFillPlanesCommon","slicers/fill_layer.go:CalcFillPlanesLines"])
p("C46","Infill is produced for every positive density",
 "A positive fill density gives at least one infill plane on a model of positive extent. True for Lines; false in the code for Squares at density 1 and Triangles at density 1 or 2, where integer division gives zero and no infill is produced.",
 "every mesh, density and pattern",
 "All densities.",
 ["slicers/fill_layer.go:CalcFillPlanes","slicers/fill_layer.go:CalcFillPlanesSquares","slicers/fill_layer.go:CalcFillPlanesTriangles"])
p("C47","Walls",
 "PrepareLayers always returns the same layers in the same order with the outer contours untouched; each contour gets its successive offsets by one line width, at most int(wall/line_width)-1 of them and fewer only if there is no further offset, the last one of each contour being the inner wall; what is filled is the inside of the inner walls if there are any.",
 "every layer list and settings",
 "All wall counts and contours.",
 ["slicers/vip/utils.go:PrepareLayers","slicers/vip/utils.go:offset"])
p("C48","Skirt",
 "SkirtPathes only adds paths: every contour with at least two points is still printed once, preceded by its skirt loops from the outermost in, at most count of them (one for a negative count); a zero count changes nothing.",
 "every layer and count",
 "All layers.",
 ["slicers/vip/utils.go:SkirtPathes"])
p("C49","Offset contour is parallel at the nozzle distance",
 "MakeOffset shifts each side of the contour parallel to itself by the nozzle width in the layer plane, into the model, and joins neighbouring sides at their intersection. False in the code for the first side of a closed contour: its end is not trimmed, so the offset of a square has a corner on the original contour.",
 "every path, width and normal",
 "All polygons.",
 ["slicers/vip/offset_path.go:MakeOffset","primitives/line.go:IntersectLine2"])
p("C50","Slicing by planes emits a well formed bed program",
 "SliceByPlanes with k planes emits k+1 groups of layers in order; part i>0 is printed after a RotateZ to plane i's angle; the bed is tilted exactly while parts with a tilted plane are printed; it is left as the last plane has it. It fails only if slicing one of the turned parts fails.",
 "every plane list and mesh",
 "All sequences of tilted and flat planes.",
 ["slicers/vip/slice_by_planes.go:SliceByPlanes","slicers/vip/slice_by_planes.go:calcBedPlanes"])
p("C51","Analysis terminates with alternating planes",
 "Analyze ends on every mesh: it returns at most six planes, alternating tilted and flat starting with a tilted one, each through a vertex of a triangle of the mesh that is not in the first layer; or it ends with an index out of range (see C62).",
 "every mesh and angle, every floating point behaviour",
 "Loop over meshes produced by cutting.",
 ["slicers/vip/analyze.go:Analyze"])
p("C52","Plane file round trip",
 "Writing an analysed plane with String and reading it with ParsePlane gives back the same tilt flag, the point and angle up to printing precision, and the same cutting plane. The last part is false in the code for facets whose normal has a negative y component: the reread plane is mirrored; and for horizontal facets, whose plane has a zero normal and the angle NaN. A line with fewer than five words, such as a blank line, ends the program.",
 "every analysed plane",
 "All directions.",
 ["slicers/vip/analyze.go:ParsePlane","slicers/vip/analyze.go:String","slicers/vip/analyze.go:Analyze"])
p("C53","Middle of failed directions is a direction",
 "MiddleOnTheRing of a non-empty ascending list of angles in [0,biggest) terminates and returns the whole part of the mean of representatives of the angles (each angle or the angle plus one turn) that all lie within half a turn of the last one, taken modulo biggest; so the result is in [0,biggest).",
 "every ascending list and positive ring size",
 "All lists.",
 ["slicers/slice_5axes.go:MiddleOnTheRing"])
p("C54","Support outline is the boundary of the overhang",
 "MakeUndoubledLinesFromTriangles returns exactly the edges that occur once (in either direction) among the given triangles; DeleteInternalLines returns one line for each edge that occurs an odd number of times and none for the others.",
 "every list of triangles without NaN",
 "All meshes and edge multiplicities.",
 ["helpers/supports_by_vector.go:MakeUndoubledLinesFromTriangles","helpers/supports_by_vector.go:DeleteInternalLines"])
p("C55","Point in triangle",
 "Triangle.PointBelongs accepts every point of the triangle and, for a non-vertical triangle, only points whose vertical projection is in it and that are within tolerance of its plane. For a vertical triangle the code accepts every point of its plane.",
 "every triangle and point",
 "All positions.",
 ["primitives/triangle.go:PointBelongs","primitives/plane.go:PointBelongs"])
p("C56","Planar segment intersection",
 "For segments in a horizontal plane whose orientation tests report a proper crossing, IntersectLine returns the point common to both lines; IsIntersectingSegment is symmetric in that case; the result is never a NaN point.",
 "every pair of horizontal segments",
 "All positions, including vertical and axis parallel ones that take the NaN fallbacks.",
 ["primitives/line.go:IntersectLine","primitives/point.go:Orientation"])
p("C57","Mesh simplifier wrapper",
 "SimplifyMesh reports an error on a nil mesh, returns the mesh itself when it has at most the requested number of triangles, and otherwise passes all triangles to the simplifier in order and returns its triangles in order with recomputed normals.",
 "every mesh, size and simplifier behaviour",
 "All sizes around the boundary.",
 ["helpers/simplify_mesh.go:SimplifyMesh"])
p("C58","Rounding helpers",
 "RoundPlaces(a,n) is within half a unit of the last place of a, is odd, monotone and idempotent while a*10^n fits an int64; Equal of points is reflexive and symmetric but not transitive.",
 "every finite value in range",
 "All reals.",
 ["primitives/utils.go:RoundPlaces","primitives/utils.go:Round","primitives/utils.go:AlmostZero","primitives/point.go:Equal"])
p("C59","Caps fill the cut contours",
 "The cap triangles CutMesh adds for a closed contour have together exactly the area the contour encloses. False in the code for contours that are not seen in one rotational sense from their first point (most concave ones): every fan triangle is oriented by itself, so parts outside the contour are covered too.",
 "every closed contour, every plane",
 "All contours; a test with a convex section passes.",
 ["helpers/cut_mesh.go:CutMesh"])
p("C60","Infill stays inside the contours",
 "Every point of an infill line is inside the closed contours of the layer by the even-odd rule. True for fill planes through no contour vertex; false in the code for a plane through a vertex, which is counted as two crossings and shifts the pairing, so that fill is printed in the gap between two islands.",
 "every set of closed horizontal contours, every vertical fill plane, every result the unstable sort may produce",
 "The failing positions are those where a fill plane meets a vertex exactly; a test on other positions passes.",
 ["slicers/fill_layer.go:intersectByPlane"])
p("C61","The file announces its layers",
 "The file written by cmd/goosli with the templates that come with it is the header with the settings filled in, the program, and the footer; the number after ;LAYER_COUNT: is the number of ;LAYER: comments of the program. The four fields for print time and filament are never filled in: the file contains their placeholders.",
 "every program, all settings, every order of the settings map, every floating point behaviour",
 "All programs and map orders.",
 ["cmd/goosli/goosli.go:CommandsWithTemplates","slicers/settings.go:ToMap","data/header_template.txt","data/footer_template.txt"])
p("C62","Analysis does not crash",
 "Analyze returns planes for every model of small finite size. False in the code: the flags of the cut mesh are used to index the triangles of the original mesh. For a model of two tetrahedra standing on the bed, one of them overhanging, the program ends with an index out of range for every angle from 0 to below 60 degrees, the default 30 included.",
 "every sorting routine, every angle in [0,60), the given model",
 "The crash needs the cut mesh to have more triangles than the original one before a flagged triangle.",
 ["slicers/vip/analyze.go:Analyze"])
p("C63","Rotation about an axis",
 "RotateAbout with a non-zero axis is the right-hand rotation about that axis: it keeps lengths and the component along the axis and turns perpendicular vectors by exactly the angle; with a zero axis it only scales. Rotate with RotationAroundX or RotationAroundZ turns the other way round.",
 "every vector, axis and angle",
 "All directions and angles.",
 ["primitives/vector.go:RotateAbout","primitives/vector.go:Rotate","primitives/rotation_matrix.go"])
p("C64","The bed is turned so that the part is printed upright",
 "Before a part is printed in a new direction the mesh is turned rigidly so that this direction becomes vertical, the same angles are written to the program, and the turn back restores the mesh. True for all planes from a planes file. For SliceByProfile, Slice5Axes and SliceDefault2 true only if the direction leans towards positive y; for negative y the part is slanted after the turn; for a vertical profile all coordinates become NaN. For SliceBridge it is false unless the bridge is parallel to the x axis.",
 "every mesh, direction, tilt and angle",
 "All directions; a test with a direction of positive y passes.",
 ["slicers/slice_by_profile.go:SliceByProfile","slicers/slice_5axes.go:Slice5Axes","slicers/vip/slice_default.go:SliceDefault2","slicers/vip/slice_bridge.go:SliceBridge","slicers/vip/slice_by_planes.go:SliceByPlanes"])
p("C65","Running goosli twice gives the same file",
 "Two runs of cmd/goosli with the same input files, flags and time of day end in the same way and write the same file, whatever the scheduling of the slicing goroutines and whatever the iteration order of the settings map.",
 "every STL file, planes file, flag value and slicing type; every pair of arrival orders and map orders; templates without nested braces",
 "Go randomises map iteration and goroutine scheduling; a test sees a few of the orders.",
 ["cmd/goosli/goosli.go:main","cmd/goosli/goosli.go:CommandsWithTemplates","slicers/slice_by_vector.go:SliceByVector"])
p("C66","Cutter, simplifier and colorizer end cleanly",
 "The programs cutter, simplifier and colorizer never panic. All five programs end with an error message and write nothing if the STL file is missing or malformed. If its output files can be written the cutter writes the two parts of CutMesh and LoadSTL reads both back; the simplifier writes the simplified mesh; the colorizer writes one byte per triangle, in order. If a file cannot be written the program ends with an error.",
 "every file system content, every set of flags, every set of writable paths, every arithmetic",
 "All file contents, planes and write failures.",
 ["cmd/goosli_cutter/goosli_cutter.go:main","cmd/goosli_simplifier/goosli_simplifier.go:main","cmd/goosli_colorizer/goosli_colorizer.go:main","cmd/goosli_analyzer/goosli_analyzer.go:main","cmd/goosli/goosli.go:main"])
p("C67","The analyzer's file drives goosli",
 "If the analyzer found at least one plane, running goosli with slicing type vip on the same model and the analyzer's output file slices the model by exactly the analysed planes, up to the rounding of the printed numbers. The analyzer's flags for the rotation centre have no effect.",
 "every model on which the analysis succeeds, every flag value, every arithmetic whose numbers print shortly and without blanks",
 "Two programs communicate through a text file; all contents of that file have to survive.",
 ["cmd/goosli_analyzer/goosli_analyzer.go:main","cmd/goosli/goosli.go:main","slicers/vip/slice_main.go:Slice","slicers/vip/analyze.go:AnalyzedPlane"])
p("C68","The flags reach the program",
 "A run of goosli that ends normally was asked for one of the four slicing types, writes exactly one file made of header, program and footer, and the program was computed from the loaded mesh shifted by the origin with the settings of the flags: speeds in mm/s become feed rates of 60 times that value, for every print move of the file. (The retraction speed is not multiplied. With retraction, or for the vip slicer, the feed rate of print moves is not always the chosen one, see C36.)",
 "every STL file, flag value and slicing type",
 "All flag combinations and models.",
 ["cmd/goosli/goosli.go:main","slicers/settings.go","gcode/gcode.go"])
p("C69","The bed during the print and at the end",
 "SliceDefault2 prints alternately on the level bed and on the bed inclined by 60 degrees, Slice5Axes in the same way with two groups before each swing, SliceByProfile one group per side of the simplified profile at the angles of that side. At the end of the program the bed is level again: true for 3axes, SliceBridge and SliceRotation; false for SliceByPlanes and SliceByProfile, which leave the bed as the last part needed it, and the footer does not move it back.",
 "every mesh, every setting, every run of the loops that ends",
 "All numbers of turns.",
 ["slicers/vip/slice_default.go:SliceDefault2","slicers/slice_5axes.go:Slice5Axes","slicers/slice_by_profile.go:SliceByProfile","slicers/vip/slice_bridge.go:SliceBridge","slicers/vip/slice_rotation.go:SliceRotation","slicers/vip/slice_by_planes.go:SliceByPlanes"])
p("C70","The vip slicer does not crash",
 "vip.Slice returns a program for every model. False in the code: without planes file it ends with an index out of range for a model without layers, if no contour of the first layer is taken for an outside contour, for a first layer with two outside contours if no layer overhangs, for a bridge whose deck begins before an overhang of the legs was found, and for a body of rotation (a cylinder, for instance) if no layer overhangs.",
 "every mesh, setting, arithmetic and planes file without planes",
 "The crash depends on the shape of all layers; a test with an overhanging bridge passes.",
 ["slicers/vip/slice_main.go:Slice","slicers/vip/slice_bridge.go:SliceBridge","slicers/vip/slice_rotation.go:SliceRotation"])
p("C71","A model without overhangs is printed flat and completely",
 "If no layer overhangs the one below, SliceDefault2 and Slice5Axes never move the bed and print every layer of the model once and in order. True for two layers or more. False for lower models: nothing of a model at most one layer high is printed by Slice5Axes, or by vip.Slice without planes file.",
 "every mesh and setting, every floating point behaviour",
 "All models; the failing ones are thin.",
 ["slicers/slice_5axes.go:Slice5Axes","slicers/vip/slice_default.go:SliceDefault2","slicers/vip/slice_main.go:Slice"])
p("C72","What the slicers with bed turns print",
 "The programs of SliceBridge, SliceRotation, SliceDefault2, Slice5Axes and SliceByProfile are exactly: the layers below the first overhang on the bed as it is; the part of the rest below the plane of that overhang, on the same bed; a turn of the bed to that plane; and then the same with what is above the plane, turned with the bed; SliceByProfile prints one part per side of the profile. First overhang means that no pair of neighbouring layers below it overhangs.",
 "every mesh and setting, every run that ends, every floating point behaviour",
 "All numbers of turns and all shapes.",
 ["slicers/vip/slice_bridge.go:SliceBridge","slicers/vip/slice_rotation.go:SliceRotation","slicers/vip/slice_default.go:SliceDefault2","slicers/slice_5axes.go:Slice5Axes","slicers/slice_by_profile.go:SliceByProfile"])
p("C73","Outside contours and holes",
 "Of the closed contours of a layer exactly the clockwise ones are treated as outside contours and the counterclockwise ones as holes. True for contours that run around their centroid at their first corner; false in general: only the first side of a contour is tested, and the same clockwise U is an outside contour or a hole depending on the corner it starts with.",
 "every list of contours",
 "All shapes and starting corners.",
 ["slicers/vip/slice_bridge.go:getAllOutsidePathes","slicers/slice_5axes.go:CalculateFails"])
p("C74","Which slicer is used",
 "The slicing type selects the slicer: 3axes cuts the whole model along the z axis, prints all layers in one group with infill; an unknown type ends the program. vip.Slice follows the planes file if it has planes; otherwise two outside contours in the first layer make a bridge, one round outside contour in the first and in the last layer a body of rotation, and everything else is sliced by SliceDefault2. Round means at least 14 points, none further than half a millimetre from the distance of the first point to the centroid.",
 "every mesh, setting, planes file and word given as type",
 "All shapes of the first and last layer.",
 ["cmd/goosli/goosli.go:main","slicers/vip/slice_main.go:Slice","slicers/vip/slice_main.go:isRotation","slicers/slice_by_vector.go:SliceByVectorToGcode"])
p("C75","Settings without effect",
 "The layers depend only on the layer height and, with supports on, on the four support settings. The programs of 5axes and 5axes_by_profile print contours only: wall thickness, infill density and pattern, numbers of solid layers, skirt, rotation centre and planes file have no effect on them. The program of 3axes does not depend on wall thickness, skirt, rotation centre and planes file.",
 "every mesh and every pair of settings that agree otherwise",
 "Independence of a setting is a statement about all pairs of values.",
 ["slicers/slice_5axes.go:Slice5Axes","slicers/slice_by_profile.go:SliceByProfile","slicers/slice_by_vector.go:SliceByVectorToGcode","slicers/slice_by_vector.go:SliceByVector"])
p("C76","What counts as an overhang",
 "A contour overhangs the contour below if in one of the 36 horizontal directions, ten degrees apart, the way from the point met on the lower contour out to the point met on the upper contour leans outwards more than 40 degrees from the vertical. The report is a plane through the lower point that rises by 60 degrees in that direction. What the code does is proved exactly, and that vertical walls are never reported. The property is false: the test does not tell inwards from outwards, so that every pyramid or roof flatter than 50 degrees is reported as an overhang and the bed is turned for it. For the legs of a bridge the plane is mirrored if the leg leans to positive y.",
 "every pair of level contours, every layer",
 "All shapes and directions; the wrong reports need shapes that are printable without any turn.",
 ["slicers/slice_5axes.go:CalculateFails","slicers/vip/slice_bridge.go:failExistBridge","slicers/vip/slice_rotation.go:failRotaion","slicers/slice_5axes.go:findPrevPath"])

p("C77","Inside a contour",
 "A point is found inside a level closed contour exactly if a ray from it, avoiding the corners, meets an odd number of sides; which ray does not matter. Proved for points at the height of the contour and near it, if no corner lies on the line through the point square to the first side and the point is not on the line of the first side. False otherwise: a point on the line of the first side is never found inside, a corner straight ahead is counted twice, and a point above the middle of a part narrower than twice the difference in height is not found inside. The overhang analysis asks this question for points one layer above the contour.",
 "every point and every closed level contour",
 "All shapes; the failing positions are exact coincidences or thin parts.",
 ["primitives/point.go:Inside","slicers/slice_5axes.go:findPrevPath"])

p("C78","Layers are level and printed from the bottom up",
 "As the nozzle sees it, every layer is level: everything that is printed in one layer, contours, supports, walls and infill, is at exactly the same height, the middle of the layer rounded to eight decimals; layers come in increasing order, so heights never decrease, and increase if the layers are thicker than the rounding. Proved for 3axes, and with walls for every part that is sliced along the z axis. False for bodies of rotation (SliceRotation): the upper part is tilted by 60 degrees and then sliced along the tilted axis, so that every layer climbs by 1.7 millimetres per millimetre.",
 "every mesh of moderate size, layer height and setting",
 "Exact equality of all heights of a layer is a statement about all points of all models.",
 ["slicers/slice_by_vector.go:SliceByVector","slicers/slice_by_vector.go:SliceByVectorToGcode","slicers/vip/utils.go:PrepareLayers","slicers/vip/slice_rotation.go:SliceRotation"])
p("C79","Supports are left out where they cut through the model",
 "Under each edge of the overhanging part stand two support triangles. Such a triangle is sliced exactly if it does not cut through the model: no triangle of the model has a point in common with the segment in which its plane cuts the support triangle (triangles of the model that contain a corner of the support triangle are passed over). Proved if no triangle of the model is vertical and all are in general position to the support triangle. False for vertical walls: a support triangle that crosses the plane of a wall along an axis is left out, no matter how far away the wall is.",
 "every mesh, support triangle and setting",
 "Relative positions of all pairs of triangles in space.",
 ["helpers/supports_by_vector.go:IntersectTriangles","primitives/triangle.go:IntersectTriangle","primitives/triangle.go:PointBelongs","slicers/slice_by_vector.go:SliceByVector"])
p("C80","Centroid of a flat contour and centre of a layer",
 "FindCentroid returns the area centroid of every closed flat contour, in whatever plane, and the centre of a layer, through which the profile of the model runs, is the centroid of what is printed in the layer. The first is proved for contours whose views along the axes are empty or have at least 1e-6 square millimetres, the second for layers with a single contour. False otherwise: for smaller contours the x coordinate of the centroid is 0, wherever the contour is; a hole counts as much as the part it is in, because the centre is the plain mean of the centroids; a layer without contours has its centre at the origin.",
 "every closed flat contour, every layer",
 "All contours in all planes; the sums have no bound.",
 ["primitives/path.go:FindCentroid","slicers/slice_by_profile.go:calculateCenter","slicers/vip/slice_default.go:calculateCenter"])
p("C81","Two level segments",
 "For two segments at the same height IsIntersectingSegment reports exactly whether they have a point in common, touching ends and overlapping segments of one line included, and IntersectLine returns a point of both. Proved for segments of which each end is exactly on the line of the other or not near it (twice the area of the triangle with the other segment 0 or at least 1e-6). False for shorter ones: two segments of a thousandth of a millimetre that cross in the middle are not found to meet, and two that do not meet are.",
 "every pair of level segments at one height",
 "All positions of two segments, including the collinear ones.",
 ["primitives/line.go:IntersectLine","primitives/line.go:IsIntersectingSegment","primitives/line.go:IsCollinearPointOnSegment","primitives/point.go:Orientation"])
p("C82","One contour inside another",
 "p.IsInside(p1) for level contours at the same height reports whether the whole of p, not only its corners, is inside p1: a contour that has no point in common with a closed contour is inside or outside as a whole. Proved for contours whose sides are in clear position (C81), for corners of p that are not on the line of the first side of p1 and have no corner of p1 opposite square to this line (C77). False otherwise: a square of a quarter of a thousandth that sticks out of another one by half its side is reported to be inside.",
 "every pair of contours, the second closed",
 "All polygons; a proof that the parity does not change along a path that avoids the contour.",
 ["primitives/path.go:IsInside","primitives/point.go:Inside","primitives/line.go:IsIntersectingSegment"])
p("C83","The contours of a layer bound the cross-section of the model",
 "If a mesh is watertight, consistently oriented and without degenerate triangles, a plane that is not vertical passes through no vertex and the crossing points are well separated, then the contours assembled for the plane are, up to rounding of their corners to eight decimals, closed contours in the plane that enclose the material of the model: a point of the plane off the surface is inside an odd number of them exactly if a ray in the plane from it, avoiding the crossing points, meets the surface of the model an odd number of times. Which ray is used does not matter. The layer that SliceByVector sends for such a plane (supports off) consists of these contours, rounded and with collinear points removed.",
 "every watertight mesh, every such plane, every point of it off the surface, every order the unstable sort may return",
 "A statement about all points of the plane and all meshes; needs the parity theorem for polygons.",
 ["primitives/plane.go:IntersectTriangle","primitives/path.go:JoinPaths3","slicers/slice_by_vector.go:slicingWorker","slicers/slice_by_vector.go:SliceByVector"])
p("C84","Fill lines are exactly the material of the layer on their plane",
 "For closed level contours and a vertical fill plane, the fill lines are the material in the plane: every point strictly inside a fill line is off the contours and inside an odd number of them, and every point of the plane at this level that is off the contours and inside an odd number of them is strictly inside a fill line. Inside is the usual parity of a ray in any direction, not only along the plane. Proved for planes that pass through no corner. False otherwise: a plane through the ridge of a house with a square behind it gives a fill line through the air between the two.",
 "every set of closed level contours, every vertical plane, every order the unstable sort may return",
 "All contours with any nesting, all points of the plane.",
 ["slicers/fill_layer.go:intersectByPlane","primitives/plane.go:IntersectSegment"])
p("C85","Lines that are too long are not read silently",
 "A text file with a line of 64 KiB or more is never taken for a complete one: LoadSTL on a text file returns an error exactly if the file has such a line. False for files of planes: readPlanes only prints a message, and the planes after the long line are missing without failure.",
 "every content of a file",
 "All byte sequences; lines of this length are in no test.",
 ["primitives/stl.go:loadSTLAscii","slicers/vip/utils.go:readPlanes"])
p("C86","Which triangles a plane meets, which paths are equal",
 "Plane.Intersect reports exactly whether the plane and the triangle have a point in common, also for degenerate triangles and for triangles that touch the plane; IntersectTriangle finds a section only where it says yes. Path.Equal holds exactly for paths with the same number of points whose points are equal one by one within the tolerance, and is not transitive.",
 "every plane and every triangle, every pair of paths",
 "All positions, including touching ones.",
 ["primitives/plane.go:Intersect","primitives/plane.go:IntersectTriangle","primitives/triangle.go:MinMaxZ","primitives/path.go:Equal"])
p("C87","Rounding the corners does not move material",
 "If the corners of a closed contour move by at most e and it stays closed, a point farther than e from the original contour is off the moved one and inside the one exactly if it is inside the other. So the contours assembled for a plane, with their corners as stored (rounded to eight decimals), enclose the material of the model in the plane for every point that is, seen from above, farther than 1e-8 from the surface.",
 "every closed contour, every movement, every point; every watertight mesh and plane as in C83",
 "A homotopy argument about all points and all contours.",
 ["primitives/plane.go:IntersectTriangle","primitives/point.go:RoundPlaces","primitives/path.go:JoinPaths3"])
p("C88","Merging collinear lines keeps the inside of a contour",
 "MinimizeLines on a closed contour gives a closed contour of corners of the old one, and a point off the contour is inside the one exactly if it is inside the other. Proved for points that are, seen from above, in no triangle of corners so slim that two of its sides count as collinear. False otherwise: a square of half a thousandth is merged into a single point.",
 "every closed contour with finite coordinates, every point off it and off its slim triangles",
 "All contours and all points; repeated merging can carry a line away from the contour step by step.",
 ["primitives/path.go:MinimizeLines","primitives/line.go:IsCollinear"])
p("C89","Fill lines are the material of the model",
 "From the triangles to the fill: for a watertight mesh sliced vertically (supports off) and filled by vertical planes, the lines of each layer are the material of the model at the height of the layer on the fill planes: every point strictly inside a line is, seen from above, in the material, and every point of the material on a fill plane is strictly inside a line. Filling does not fail, and the fill of the layer is these lines, each exactly once. Proved for layers through no vertex with well separated crossing points, for fill planes through no stored corner, and for points farther than 1e-8 from the surface and in no slim triangle of crossing points. False for fill planes through a corner (C84) and in slim triangles (C88).",
 "every watertight mesh, every layer and every fill plane in this position, every order the unstable sorts may return",
 "A statement about all points, over slicing, joining, rounding, merging and filling together.",
 ["slicers/slice_by_vector.go:SliceByVector","slicers/slice_by_vector.go:slicingWorker","primitives/path.go:JoinPaths3AndMinimize","slicers/fill_layer.go:FillLayers","slicers/fill_layer.go:intersectByPlane"])
p("C90","A vertical slice is the model, layer by layer",
 "SliceByVectorToGcode on a watertight mesh taller than the layer thickness, sliced vertically with supports off, does not fail; its layers are numbered consecutively without gaps; the contours of each layer bound the material of the model at the height of the layer and its fill lines are the material on the fill planes that the pattern and the density ask for (the dense ones for the first and last solid layers); a level without a layer is the first or the last one and has no material. Proved for each level through no vertex with well separated crossing points, and up to what C84 and C88 exclude.",
 "every watertight mesh, all settings with supports off, every arrival order and every order the unstable sorts may return",
 "The whole slicer at once, for all meshes and all points of all levels.",
 ["slicers/slice_by_vector.go:SliceByVectorToGcode","slicers/slice_by_vector.go:SliceByVector","slicers/fill_layer.go:FillLayers","slicers/fill_layer.go:CalcFillPlanes"])
p("C91","The file prints the model",
 "The text of the G-code of a vertical slice, read back by a printer, extrudes along exactly the sides of the contours and the fill lines of the layers, in order of the layers, contours first, each rounded to the printed decimals; and these bound and fill the material of the model as in C90. Proved for lines whose ends differ visibly after rounding; false for shorter ones (C38).",
 "every watertight mesh and all settings as in C90 with all levels in good position, every state of the printer with the first tool",
 "From the triangles to the movements of the nozzle, for all inputs.",
 ["slicers/slice_by_vector.go:SliceByVectorToGcode","gcode/gcode.go:ToOutput","gcode/cmds.go:pathesToGCode"])
p("C92","The section of a model by a plane",
 "Plane.IntersectMesh does not fail and assembles the sections of the triangles, each used exactly once. For a watertight mesh it returns closed contours in the plane, their corners rounded to eight decimals, that enclose the material of the model in the plane and leave out its holes, for every iteration order of Go maps.",
 "every mesh and plane; contours for watertight meshes and planes through no vertex with well separated crossing points",
 "Go randomises map iteration; a statement about all points of the plane.",
 ["primitives/plane.go:IntersectMesh","primitives/path.go:JoinPaths2"])
p("C93","The line in which two triangles meet",
 "Triangle.IntersectTriangle returns exactly the part of the cut line of the other triangle that is in the triangle, and nil if there is none. Proved if the cut line is in general position to the sides. False through a corner: if the line enters at a corner and leaves through the opposite side, nil is returned, since the code compares pointers instead of points; two triangles with a segment of length 4 in common are then taken not to meet.",
 "every triangle that is not vertical, every triangle cut by its plane",
 "Relative positions of all pairs of triangles in space.",
 ["primitives/triangle.go:IntersectTriangle","primitives/line.go:IntersectLine","primitives/triangle.go:PointBelongs"])

p("C94","Contours close in float64",
 "Computed in float64 with its rounding, the section of a watertight mesh by a horizontal plane is the exact section with every coordinate replaced by the nearest float64, and joining its segments gives closed contours only. It holds if coordinates are at most a metre, no vertex is within 1e-11 of the plane, cut triangles are not almost horizontal, crossing points are equal or 1.03e-6 apart in each coordinate, and no crossing coordinate is within 1e-11 of the middle between two multiples of 1e-8.",
 "every watertight mesh and every height that keep these distances, every order of the segments, every sort.Slice",
 "Rounding errors of every intermediate result for every mesh.",
 ["primitives/plane.go:IntersectTriangle","primitives/plane.go:IntersectSegment","primitives/point.go:RoundPlaces","primitives/path.go:JoinPaths3"])

p("C95","Slicing in float64",
 "SliceByVector along the vertical, computed in float64: the number of planes is the height divided by the layer height rounded up, up to three parts in 10^16 of the quotient; plane m is in the middle of the m-th of n equal layers up to (m+10)*2e-13 mm; if every plane keeps the distances of C94, every contour of every layer is closed and its corners are the exact crossing points rounded to eight decimals.",
 "every watertight mesh of at most a metre, every layer height from a micrometre to a metre, every sort.Slice, every order in which layers arrive",
 "Errors accumulate over thousands of planes; no test covers all meshes.",
 ["slicers/slice_by_vector.go:SliceByVector","primitives/mesh.go:MinMaxZ","primitives/path.go:JoinPaths3AndMinimize"])

p("C96","A model of k layer heights gets k layers",
 "A model that is k layer heights high is sliced into k layers. False: STL files hold float32 numbers, and math.Ceil turns the last bit into a layer; a model of height 0.3 with layer height 0.1 gets four layers of 0.075. Proved: k if the height is exactly k times the float64 layer height, k or k+1 otherwise.",
 "every mesh of at most a metre, every layer height from a micrometre to a metre",
 "Depends on the last bit of every height.",
 ["slicers/slice_by_vector.go:SliceByVector"])

p("C97","Binary STL files in float64",
 "A binary STL file whose coordinates are finite is loaded as exactly the numbers its words denote in IEEE-754 binary32. Loading and saving keeps the length, the number of triangles and every vertex word except NaN and minus zero. Saving and loading a mesh replaces every coordinate by the nearest number of binary32, off by at most a part in 2^24; doing it again changes nothing.",
 "every file, every mesh with coordinates of at most 2^127",
 "There are 2^32 words and every one is to be converted right.",
 ["primitives/stl.go:loadSTLBinary","primitives/stl.go:SaveSTL"])

p("C98","Numbers as text in float64",
 "StrF prints the nearest thousandth (ties to even), in digits, a point and perhaps a minus sign, and keeps the order. ParseFloat reads every decimal number, with sign, point and exponent, as the nearest number of binary32; so an ASCII STL file is loaded as the mesh with the nearest numbers. A number printed and read is off by at most half a thousandth and a part in 2^24. A plane file that is read and written again is the same file, for coordinates below 16000.",
 "every finite float64, every decimal text up to 2^127, every ASCII document of the standard layout, every list of planes",
 "Every last digit of every number has to be right.",
 ["primitives/utils.go:StrF","primitives/utils.go:ParseFloat","primitives/stl.go:loadSTLAscii","slicers/vip/analyze.go:ParsePlane"])

p("C99","Filament and extruder coordinate in float64",
 "For settings and paths of ordinary size and without retraction: no move with the extruder selected lowers the E coordinate, however long the job, and every layer starts with E of at most 4000. The filament fed by the file is the volume of the lines over the section of the bar, up to half a thousandth per reset and a part in 2^31 of a millimetre per point, for jobs of up to 400 metres of filament and 10^9 points.",
 "every job with line width, layer height and bar diameter in [2^-10, 2^7] mm and coordinates of at most 2^20 mm",
 "The sum of rounding errors over millions of segments is never looked at by a test.",
 ["gcode/cmds.go:pathesToGCode","gcode/cmds.go:decreaseEOff"])

p("C100","The moves in the file are the moves of the job",
 "Whatever the arithmetic: the print moves in the produced text are, in order, exactly the segments of the paths of the job, each under the number of its layer and the name of its section; a path starts at its first point with three decimals and a coordinate that changes by less than 0.001 over a segment is left as it was. In float64, for paths whose coordinates change by nothing or at least 0.001 per segment, the moves are the segments rounded to thousandths.",
 "every program whose text is produced, every printer state with the extruder selected; the float64 part for coordinates of at most 2^20 mm",
 "Tests compare the text of a few short programs; that no sequence of commands, layers and sections loses, adds, moves or mislabels a segment is a statement about all programs.",
 ["gcode/cmds.go:pathesToGCode","primitives/point.go:StringGcode","gcode/gcode.go:ToOutput"])

p("C101","In float64 the contours of a layer enclose the material of the model",
 "For a watertight mesh sliced along the vertical in float64, where every plane keeps the stated distances from vertices and from rounding ties: the contours of the layer of each plane are closed, their corners are the exact crossing points rounded to eight decimals, and every point of the plane that is farther than 1e-8 from the surface and in no triangle of corners with an area below 5.1e-7 is inside an odd number of contours exactly if it is in the material of the model.",
 "every watertight mesh with float64 coordinates of at most 1000 mm, every layer height in [0.001, 1000], every order of the segments",
 "A test samples points of a few models; that rounding, joining and merging never lose or add material holds for all models and points only by proof.",
 ["slicers/slice_by_vector.go:SliceByVector","primitives/path.go:MinimizeLines","primitives/path.go:JoinPaths3","primitives/line.go:IsCollinear"])

p("C102","In float64 the fill lines of a layer are the material of the model on the fill planes",
 "For contours that enclose the material at their height and vertical fill planes running rather along Y (all planes the program uses): filling a layer in float64 succeeds and changes nothing else of it; the fill lines are the lines of the planes, each exactly once, possibly reversed; they end within 1e-12 of the contours; and on a plane from which all corners of the contours keep a distance g of 1e-7 or more, the lines are within 2e-11 of the plane, and every point of the plane farther than 3e-8/g from the contours (and not too close to the surface or in a thin triangle) is in the material exactly if it is on a fill line.",
 "every watertight mesh with float64 coordinates of at most 1000 mm, every set of vertical fill planes with such normals, every g, every point",
 "Whether rounding can drop, add or swap a crossing, and so invert the fill of a whole line, depends on all corners and planes; a test tries a few.",
 ["slicers/fill_layer.go:FillLayers","slicers/fill_layer.go:intersectByPlane","slicers/fill_layer.go:sortFillPathes","primitives/plane.go:IntersectSegment"])

p("C103","In float64 slicing and filling a model vertically gives the model, layer by layer",
 "For a watertight mesh whose float64 levels all keep the distances of FloatSafe, supports off, line width 0.02 to 10 mm and a density of at least one percent per direction of the pattern: slicing and filling in float64 succeeds; the fill planes are, for every direction of the pattern, planes at the distance of the step from each other up to 1e-6 mm, over the whole extent of the model, and along X no abscissa of the model is farther than a step from one; the layers are numbered without gaps and leave out at most the first and the last level; the layer of each level has contours that enclose the material at its height and fill lines that are the material on the planes of its place (solid for the first and last layers, the pattern otherwise); and where a level is left out there is nothing of the model.",
 "every such mesh with float64 coordinates of at most 1000 mm, every layer height from 0.001 to 1000 mm, every pattern, density and line width in the range",
 "The statement is about every level, every plane and every point of the model under rounding; a test has a few models and compares with stored output.",
 ["slicers/slice_by_vector.go:SliceByVector","slicers/slice_by_vector.go:SliceByVectorToGcode","slicers/fill_layer.go:CalcFillPlanes","slicers/fill_layer.go:calcFillPlanesCommon","slicers/fill_layer.go:FillLayers"])

p("C104","From the bytes of a model to the moves of the nozzle, in float64: the file prints the model",
 "A run of the program in float64 with slicing type 3axes, supports off, on a file that loads as a model which, moved by the origin, is watertight and whose levels keep the distances of FloatSafe, ends normally and writes one file: a header, the program and a footer. A printer that reads the program moves, layer by layer from the bottom up, along the contours and then along the fill lines of the model at the heights of the levels. At the i-th point of a path the nozzle is off by at most 0.0005 + 0.001 i mm in each coordinate, so a fill line by at most 0.0015; a path whose coordinates change by nothing or by 0.001 or more per segment is printed at its points rounded to thousandths; and all moves of a layer are at one height. Levels without a layer have nothing of the model.",
 "every file that loads with float64 coordinates of at most 1000 mm after the shift, every layer height, line width, pattern and density in the ranges, every printer state with tool 0",
 "The claim relates the bytes of any input to the moves of any output through loading, rounding, slicing, joining, filling and printing; a test compares single pairs.",
 ["cmd/goosli/goosli.go:main","slicers/slice_by_vector.go:SliceByVectorToGcode","slicers/fill_layer.go:FillLayers","gcode/gcode.go:ToOutput","primitives/mesh.go:Shift"])

p("C105","The whole file on a whole machine: hot before it prints, absolute, nothing laid down outside the program",
 "With the two templates that come with the program, a machine with relative and absolute modes, homing and heaters, in any state when it starts, executes the whole output file as follows: the print moves are exactly those of the program between header and footer; they begin with tool 0, the extruder at zero, the fan off, 15 mm above the homed position; filament is fed only with bed and nozzle set to the temperatures asked for and in absolute mode; filament is fed while the nozzle travels only in print moves; at the end both heaters are off, the machine is in absolute mode, homed in x and y, half a millimetre above the last position. In float64 with type 3axes the print moves of the whole file run along the contours and fill lines of the model layer by layer.",
 "every program and every slicing type, all settings, every arithmetic, every order of the settings map, every state of the machine; dates without brace and newline",
 "Temperatures, speeds, dates, the program and the state of the machine range over infinitely many values; an interplay of modes between header, program and footer shows only for some of them.",
 ["gcode/gcode.go:ToOutput","cmd/goosli/goosli.go:main","data/header_template.txt","data/footer_template.txt","slicers/settings.go:ToMap"])
p("C106","After the print the machine is off",
 "When the whole output file has been executed, both heaters and the fan are off. False: the footer has the statement for the fan only as a comment, so after every print of two or more layers the fan runs on; the heaters are off.",
 "every program with at least two layers, all settings, every arithmetic, every state of the machine",
 "A test reads one file; that no program of two layers ever ends with the fan off needs all of them.",
 ["data/footer_template.txt","gcode/cmds.go:switchFanGCode"])

p("C107","What is read as a number",
 "ParseFloat reads every Go literal, decimal or hexadecimal, with sign, point, exponent and separating underscores, as the nearest number of binary32, or as an infinity beyond the range; nan, inf and infinity in any case as such; and every other text as zero.",
 "all byte strings; exponents below 10000 for the value of literals",
 "The set of texts is infinite, and acceptance of a wrong text shows only on that text.",
 ["primitives/utils.go:ParseFloat"])
p("C108","An ASCII STL file with unreadable numbers is rejected",
 "Loading an ASCII STL file in which a coordinate is no number gives an error. False: such a coordinate is zero; a file with decimal commas is loaded without an error, with all vertices at the origin.",
 "all documents in the standard layout",
 "A test shows one rejected file; the statement is about every file, and it is false for all of them.",
 ["primitives/utils.go:ParseFloat","primitives/stl.go:loadSTLAscii"])

p("C109","Models on a grid are sliced exactly as meant",
 "A watertight model whose coordinates are multiples of a power of two (for instance whole millimetres) and whose edges meet only in vertices, cut in float64 into even layers whose middles avoid the vertices, needs no further condition: the levels are exactly the middles of the layers, the run ends normally, and the file moves the nozzle along contours and fill lines that are the model at these levels. Up to 48 layers of a power of two are always even in the arithmetic; with 49 they need not be.",
 "every such model of at most a metre with 2^j*2^k*dz at most 500 for its edges, every number of layers for which n*t*(1/n) is t in float64, all settings in the ranges of C104",
 "Whether rounding to eight decimals separates or merges points depends on every coordinate of every edge; only an argument about denominators covers all models.",
 ["slicers/slice_by_vector.go:SliceByVector","primitives/point.go:RoundPlaces","primitives/plane.go:IntersectTriangle","cmd/goosli/goosli.go:main"])
p("C110","A box is printed as rectangles",
 "For every box with whole coordinates, cut in float64 into n even layers, the run ends normally and the nozzle is moved through exactly n layers; in each, the corners of the contours are on the outline of the rectangle up to 6e-9 mm, and every point farther than 1e-8 mm from the outline is inside an odd number of contours exactly if it is inside the rectangle.",
 "all boxes with whole coordinates within a metre and 2^k times the height at most 500, all positions, layer heights, numbers of layers, line widths, patterns and densities in the ranges",
 "All positions, sizes and levels; a test slices one box.",
 ["slicers/slice_by_vector.go:SliceByVectorToGcode","primitives/plane.go:IntersectTriangle","primitives/path.go:JoinPaths3","cmd/goosli/goosli.go:main"])

p("C111","The top and bottom layers of a box are solid",
 "In a layer of a box (C110), every fill plane across the X axis that is in the box, and not within 0.0002 mm of a side or of the place where the diagonal of a side passes the level, is filled with a line from one wall to the other. If the multiples of the line width keep away from these diagonals, then in every top and bottom layer, for every abscissa at least a line width from the sides, the file moves the nozzle across the layer from wall to wall (within 0.0016 mm) at most half a line width away: no gap is wider than a line.",
 "all boxes, levels, abscissas, line widths, machines and printers as in C110",
 "All abscissas of all layers of all boxes, in float64, down to the moves read from the file; a test looks at some lines.",
 ["slicers/fill_layer.go:CalcFillFullPlane","slicers/fill_layer.go:intersectByPlane","slicers/fill_layer.go:FillLayers","cmd/goosli/goosli.go:main"])

p("C112","Debugging that is switched off leaves the disk alone",
 "With `debug: false` in data/config.yaml (or without that file) a run creates, changes and removes no file on account of the package debug, and none of its functions fails.",
 "all configurations, all states of the disk, all sequences of calls of the package debug",
 "All sequences of calls and states of the disk; a test looks at one file.",
 ["debug/debug.go:RecreateFile","debug/debug.go:AddPointsToFile","debug/config.go:Config","slicers/slice_5axes.go:Slice5Axes"])

p("C113","The debug file shows what the run drew",
 "With `debug: true` and a debug file that can be written, after a run that recreates the file and draws any points, lines, triangles, layers and paths, the file is read line by line as exactly the drawn segments and triangles, in their order, with their colours and coordinates to three decimals; nothing of an earlier run is left and no other file has changed. Where the file does not exist and cannot be created, the first drawing ends the program.",
 "all lists of drawings, all previous contents, all numbers that are written without blanks and newlines (in float64: all)",
 "All drawings and previous contents; a test compares one file.",
 ["debug/debug.go:AddLayer","debug/debug.go:AddTriangleByPoints","debug/debug.go:pointToString","primitives/utils.go:AddToFile"])

p("C114","The vertical slicer writes the file or says why not",
 "A run of goosli with slicing type 3axes either writes its one file or writes nothing and ends with a message (log.Fatal): no model, a template missing, the file cannot be created, a support edge that cannot be projected. False: a file with one coordinate that is infinite or not a number makes it panic, and so does a model without layers or with a single empty one. What is true: the run never hangs, it ends in exactly one of these ways, the conditions for each are known, and in float64 every finite model of two layers or more is written, whatever its triangles are.",
 "every arithmetic, all files, all flags, all orders of sorting and arrival; the last part in float64, supports off",
 "All files include malformed and extreme ones; a test tries some. That no other end exists needs all of them.",
 ["cmd/goosli/goosli.go:main","slicers/slice_by_vector.go:SliceByVector","slicers/slice_by_vector.go:SliceByVectorToGcode","primitives/plane.go:ProectionPointToPlane","primitives/mesh.go:MinMaxZ","slicers/fill_layer.go:FillLayers"])

p("C115","Nothing is printed outside the model's bounding box",
 "Coordinates that change by less than 0.001 are not written, and along a path of short steps this adds up: the nozzle can be any distance from the path. But each coordinate of the nozzle is one of the path's coordinates with three decimals. So, on every machine, the file of a vertical run lays down filament only within 0.000501 mm of the bounding box of the moved model, and each layer within 0.000501 mm of its height.",
 "all paths; all models, flags, machine states and orders as in C105, float64",
 "All paths of any length; a test looks at some moves of one file.",
 ["gcode/cmds.go:pathesToGCode","slicers/slice_by_vector.go:SliceByVector","slicers/fill_layer.go:FillLayers"])

p("C116","Travel moves stay clear of what has been printed",
 "Whenever the nozzle moves sideways without printing, it is at or above everything printed so far, before and after the move; and 0.499 mm above unless filament is pulled back in the same move. This holds statement by statement for the whole file, header and footer included, on a machine in any state. The nozzle is never lower than the lowest of: the model's bottom (less 0.000501 mm), half a millimetre, its place at the start, its home.",
 "all programs of level paths in ascending heights, in any arithmetic; all models, flags, machine states and orders as in C105, float64",
 "A claim about every statement against everything printed before it, for files of any length and every start of the machine.",
 ["gcode/cmds.go:pathesToGCode","cmd/goosli/goosli.go:CommandsWithTemplates","data/footer_template.txt","slicers/slice_by_vector.go:SliceByVector"])

p("C117","How densely boxes are filled",
 "In every solid layer of a box the moves that fill the layer are as long as the area of the box over the line width asks for: at most one line from wall to wall too many and three too few. In the other layers, with a pattern of one direction, the same holds for the line width over the fill density: 20 percent means 20 percent. Proved in float64 down to the moves in the file, up to 0.002 mm for every move. Fill lines of one plane never overlap, for any model.",
 "all boxes of whole millimetres, heights of layers that divide the height evenly, line widths and densities as in C110; all sorters, printers and machine orders",
 "A statement about the sum of thousands of moves, for all boxes, widths and densities at once.",
 ["slicers/fill_layer.go:calcFillPlanesCommon","slicers/fill_layer.go:FillLayers","slicers/slice_by_vector.go:SliceByVector","gcode/cmds.go:pathesToGCode"])

p("C118","The contour of every layer of a box is its rectangle",
 "The vertical slicer cuts a box of whole millimetres into exactly the expected number of layers; each has one contour of five points: from one corner of the box once around its rectangle and back, at the middle of the layer, with no coordinate off by even a rounding error. In the file the contour is four moves between the corners of the box. The order of the sorting and of the workers changes at most the corner it starts from.",
 "all boxes of whole millimetres in a cube of two metres, heights of layers that divide the height evenly; all sorters, orders of arrival, flags, printers; float64",
 "All boxes, and all orders in which sections are joined: which sections meet first depends on an unstable sort.",
 ["slicers/slice_by_vector.go:SliceByVector","primitives/path.go:JoinPaths3","primitives/path.go:MinimizeLines","gcode/cmds.go:pathesToGCode"])

p("C119","The default slicer prints a box flat, as 3axes does",
 "The default slicing type, which looks for overhangs and may tilt the bed, finds none in a box: without a planes file its program is one group of layers on the bed as it is, in ascending order, whose contours are exactly the rectangles of the box, whatever the walls are. If the walls are not thicker than a line, the file is the same as that of the slicing type 3axes, so all that is shown about the files of boxes holds for the default too. Slice5Axes likewise never turns the bed.",
 "all boxes of whole millimetres in a cube of two metres, heights of layers that divide the height evenly; all sorters, orders of arrival, flags, printers; float64",
 "The overhang test probes 36 rounded directions with rounded centroids and crossings; whether a vertical wall is taken for an overhang by a rounding error cannot be sampled.",
 ["slicers/vip/slice_main.go:Slice","slicers/vip/slice_default.go:SliceDefault2","slicers/slice_5axes.go:CalculateFails","slicers/slice_5axes.go:Slice5Axes","primitives/plane.go:IntersectPathCodirectedWith"])

p("C120","Slicing by profile fails on upright models",
 "A user who slices a straight upright model with 5axes_by_profile gets no file: if the line of the centres of the layers simplifies to one step straight up, the horizontal part of its direction is zero, its angle to the x axis is not a number, the turned model has no finite coordinate and the number of its layers is negative, so the run panics. Every box, at every tolerance, is such a model, although 3axes and the default type print it.",
 "all nonempty models with an upright simplified profile; all boxes of whole millimetres in a cube of two metres, heights of layers that divide the height evenly, tolerances; all sorters, orders of arrival, flags; float64",
 "That the centres of all boxes come out exactly above each other, and that the simplification keeps no point between the ends, are statements about all boxes, tolerances and roundings; a test shows the panic for one model.",
 ["slicers/slice_by_profile.go:SliceByProfile","slicers/slice_by_profile.go:calculateCenters","helpers/simplify_line.go:SimplifyLine","primitives/vector.go:Angle","primitives/point.go:DistanceToLine"])

p("C121","A wall of k line widths is printed as k lines",
 "A user who asks for a wall k times as thick as a line gets k lines around each contour: the contour and k-1 offsets of it, fewer only where the contour has no further offset. This holds where float64 division gives the quotient exactly; where it is rounded down just below k, one line is missing, and never more than one. With the default flags, a wall of 1.2 and lines of 0.4, the quotient is 2.9999999999999996 and every wall is two lines instead of three.",
 "all layers, contours, sorters, fill planes; all k up to 2^52, widths and thicknesses in float64",
 "The number of lines is a floor of a rounded quotient; which pairs lose a line depends on the rounding of both flags and of their quotient, and that no pair loses two is a statement about all of them.",
 ["slicers/vip/utils.go:PrepareLayers","slicers/vip/utils.go:offset"])
p("C122","Walls stay inside the part",
 "The wall printed beside the contour of a layer lies inside the part. For rectangles in any position and direction this holds if no side is shorter than a line is wide; but every rectangle with one side thinner than a line and the other at least two lines long gets a wall that leaves the part, because the offsets of the two long sides pass each other and are kept.",
 "all rectangles (any corner, horizontal direction and size), line widths up to 2 mm, walls of two lines, other layers, sorters, fill planes; exact arithmetic",
 "Which offset sides are kept is decided by direction alone; where their intersections fall for all sizes relative to the width of the line needs the geometry, and a test looks at a few sizes.",
 ["slicers/vip/offset_path.go:MakeOffset","slicers/vip/utils.go:PrepareLayers"])

p("C123","Models without overhangs get no supports",
 "If all faces of a model that are painted as overhangs are at its bottom, slicing with supports returns the same layers as slicing without, whatever the gap between supports and model; a model with whole coordinates whose downward faces are all at its bottom is such a model, and the file written for it with 3axes is byte for byte the same with and without supports; in particular the contours of a box sliced with supports are its rectangles, and the default slicer too returns the same program for it with and without supports.",
 "all models within a metre of the origin in float64 with such faces, layer heights from a micrometre, support gaps, thresholds of the overhang angle from a millionth of a degree, sorters, orders of arrival; for the file all runs, origins and templates",
 "The supports of the bottom face exist in the list of triangles; that none of them reaches a slicing plane in spite of rounding, for any model, gap and layer height, and that vertical faces are never painted in float64, cannot be sampled.",
 ["slicers/slice_by_vector.go:SliceByVector","helpers/supports_by_vector.go:MakeSupportLines","helpers/colorize_triangles.go:ColorizeTriangles","primitives/vector.go:Angle"])

p("C124","Faces that look up are not overhangs",
 "A face that does not point downwards along the given direction is not painted as an overhang. With the default direction this holds in float64 for every face of at least a fiftieth of a square millimetre of models up to a metre; with the direction (1,1,1) it fails even for a face whose normal is exactly (1,1,1): the cosine computed is below -1, Angle returns 0 for it, and the face is painted for every threshold.",
 "all faces within a metre of the origin in float64, thresholds from a thousandth of a degree; the failure for every threshold from 0 to 89 degrees",
 "Whether the quotient of two rounded divisions leaves the range [-1,1] depends on the last bits of the length of the vector; tests with axis directions never see it.",
 ["helpers/colorize_triangles.go:ColorizeTriangles","primitives/vector.go:Angle"])

p("C125","Cutting opens a closed model only along the cut",
 "If a model is a closed surface, each half that CutMesh returns for it is open, if at all, only in the cutting plane: every edge of a half, caps included, that does not lie in the plane is run through backwards by another triangle of the same half. This holds for closed models all of whose triangles are on one side or cleanly cut; it fails when a vertex touches the plane from behind: a tetrahedron cut by the plane through its top is reduced to its base.",
 "all closed triangle meshes, planes, sorters; exact arithmetic with the rounding of cut points",
 "A hole appears where two neighbouring triangles are cut differently; that this never happens for any pair of neighbours and any plane is a statement about all meshes, and tests compare the counts of triangles of a few.",
 ["helpers/cut_mesh.go:CutMesh","helpers/cut_mesh.go:splitOnThree"])

p("C126","Supports stand straight below the border of the overhangs",
 "With supports on, SliceByVector slices, besides the model, vertical walls: below every border side of the overhanging faces, lowered by the support offset, the part of the plane between the side and the bottom of the model, in two triangles. Of these triangles exactly those are left out that IntersectTriangles finds to meet the model. A user expects a wall wherever the way to the bed is clear; that fails for every plate on a column: each side of the plate crosses the plane of a wall of the column, all of its supports are left out, and nothing is printed below the plate but the column.",
 "all meshes, directions, angles, offsets, sorters, arrival orders; for the failure all plates on columns of ordinary size; exact arithmetic with the rounding of sections",
 "Which walls survive depends on the position of every support triangle relative to every face of the model; tests try a few shapes, and the failure concerns a whole family of ordinary models.",
 ["slicers/slice_by_vector.go:SliceByVector","helpers/colorize_triangles.go:FilterTrianglesByColor","helpers/supports_by_vector.go:MakeUndoubledLinesFromTriangles","helpers/supports_by_vector.go:MakeSupportLines"])

p("C127","The place of the model on the bed does not change its layers",
 "Moving a model by a multiple of 1e-8 in every coordinate moves every layer of SliceByVector by the same amount and changes nothing else: the same layers with the same contours and the same points in the same order; and if slicing one of them fails, slicing the other fails in the same way. This holds with supports off unless a point of a section is exactly in the middle between two multiples of 1e-8: halves are rounded away from zero, so a model moved by 1e-8 across zero can get a contour point moved by 2e-8.",
 "all meshes, directions, layer heights, displacements on the grid of 1e-8, arrival orders and all sorters that look at elements only through the comparison; exact arithmetic with the rounding of sections",
 "A relation between two runs of the whole slicing pipeline; tests compare single runs with stored results, and the exception needs a coordinate in the middle between two rounding steps.",
 ["slicers/slice_by_vector.go:SliceByVector","primitives/plane.go:IntersectTriangle","primitives/point.go:RoundPlaces","primitives/path.go:JoinPaths3"])

p("C128","Moving the model by whole line distances moves its infill with it",
 "Moving a model moves the whole program of SliceByVectorToGcode, contours and infill, by the same amount and changes nothing else, if the displacement is a multiple of 1e-8 in every coordinate and a whole number of line distances in x. This holds for the pattern of lines, supports off, under the conditions of C127, if no fill line is within 1e-8 of the left or right side of the model. For other displacements it fails: the fill lines stay at absolute multiples of the line distance, so the same part is filled at other places (and with another number of lines) when it is moved by half a line.",
 "all meshes, directions, layer heights, densities, line widths, arrival orders and all sorters that look at elements only through the comparison; exact arithmetic with the rounding of sections",
 "A relation between two runs of slicing and filling; a test stores the infill of one place only.",
 ["slicers/slice_by_vector.go:SliceByVectorToGcode","slicers/fill_layer.go:FillLayers","slicers/fill_layer.go:CalcFillPlanes","slicers/fill_layer.go:sortFillPathes"])

p("C129","Contours are closed exactly where the facets match",
 "The contours of a layer that passes through no vertex are closed exactly if every edge crossing the plane of the layer belongs to two facets that run along it in opposite directions (supports off). So a missing facet, or a facet with the wrong orientation in an otherwise closed surface, leaves an open contour in exactly the layers that cross its edges, whatever order the unstable sort returns; no layer elsewhere is affected.",
 "all meshes without degenerate facets and without two facets along an edge in the same direction (this is not needed for the direction from closed contours to matching facets), all directions, layers, settings with supports off and orders the unstable sort may return",
 "An equivalence for all meshes, all layers and all sort orders; tests slice sound models only.",
 ["slicers/slice_by_vector.go:SliceByVector","primitives/path.go:JoinPaths3","primitives/path.go:tryJoin","primitives/plane.go:IntersectTriangle"])

p("C130","The order of the facets in the file does not change the part",
 "Two files with the same facets, in any order and with the vertices of every facet in any order, as long as each file is consistently oriented (so also if the whole surface is turned inside out), give the same printed part when sliced and filled vertically with supports off: both runs succeed with the same levels, and at every level that passes through no vertex the same points are inside the printed contours.",
 "all watertight meshes, all reorderings of the facets and of their vertices that are again watertight, all settings with supports off, all orders of the unstable sorts and of the arrival of layers in both runs; points closer than 1e-8 to the surface or in a slim cut triangle are excepted",
 "There are n! 6^n ways of writing a model with n facets; the contours, their starting points and their directions differ, only the enclosed region is the same.",
 ["gcode/gcode.go:AddLayers","slicers/slice_by_vector.go:SliceByVectorToGcode","slicers/slice_by_vector.go:SliceByVector","primitives/path.go:JoinPaths3"])

p("C131","Turning, mirroring, stretching or leaning the model does the same to the printed part",
 "Let a map of space keep heights and be affine in the horizontal coordinates: turning about a vertical axis, mirroring at a vertical plane, moving sideways, stretching sideways, leaning. Slicing and filling the image of a model vertically (supports off) gives the image of the printed part: the same levels, and at every level that passes through no vertex a point is inside the contours of the model exactly if its image is inside the contours of the image.",
 "all watertight meshes and all such maps that can be undone, all settings with supports off, all orders of the unstable sorts and of the arrival of layers in both runs; levels good for both, points closer than 1e-8 to one of the surfaces or in a slim cut triangle are excepted",
 "There are infinitely many angles and factors, and none of the contours, starting points or fill lines of the two runs correspond; only the region does.",
 ["gcode/gcode.go:AddLayers","slicers/slice_by_vector.go:SliceByVectorToGcode","slicers/slice_by_vector.go:SliceByVector","primitives/path.go:JoinPaths3"])

p("C132","The order of the facets and turning the model, in the arithmetic of the program",
 "With float64 arithmetic, as the program computes: two files with the same facets in any order, with their vertices in any order and both consistently oriented, give the same printed part, and the image of a model under a map that keeps heights (turning, mirroring, moving, stretching or leaning sideways) gives the image of the printed part. At every level a point is inside the contours of the one run exactly if it (its image) is inside the contours of the other.",
 "all watertight meshes of float64 coordinates up to a metre that meet the separation conditions at every level, all reorderings and maps, all settings with supports off, all orders of the unstable sorts and of the arrival of layers; points closer than 1e-8 to the surface or in a thin cut triangle are excepted",
 "The rounding errors of the two runs differ at every crossing point; that they never change the region is a statement about all inputs.",
 ["gcode/gcode.go:AddLayers","slicers/slice_by_vector.go:SliceByVectorToGcode","slicers/slice_by_vector.go:SliceByVector","primitives/path.go:JoinPaths3"])

p("C133","Two files of the same model give the same part",
 "If two STL files load as the same facets, in any order and with the vertices of every facet in any order, both consistently oriented, then two runs of the program with the same flags (slicing type 3axes, supports off, float64 arithmetic) both end normally, write one file each, and move the nozzle layer by layer along contours that enclose the same points at every level: the material of the model.",
 "all such pairs of files, all flags of this kind, all orders of the unstable sorts and of the arrival of layers in both runs; points closer than 1e-8 to the surface or in a thin cut triangle are excepted",
 "The two output files may differ in every line of a layer (starting points, directions, order of contours); that the enclosed region is nevertheless the same for all ways of writing all models is not a finite check.",
 ["cmd/goosli/goosli.go:main","primitives/stl.go:LoadSTL","slicers/slice_by_vector.go:SliceByVectorToGcode","primitives/path.go:JoinPaths3"])

p("C134","Stretching the model upwards together with the layer height, and turning it upside down",
 "Stretching the heights of a model by a factor, moving it up or down, or mirroring it upside down, and slicing it with the layer height multiplied by the same factor (vertical slicing, supports off), gives the same number of levels and the image of the printed part. Upside down, the layers come in the opposite order: layer m becomes layer n-1-m.",
 "all watertight meshes, all factors except 0, all settings with supports off (the other settings of the two runs need not agree), all orders of the unstable sorts and of the arrival of layers; at levels that pass through no vertex, except points closer than 1e-8 to the surface or in a slim cut triangle",
 "The levels are placed from the lowest vertex and the last one may be short in other slicers; that they are placed symmetrically for all heights and layer heights is not visible in samples.",
 ["slicers/slice_by_vector.go:SliceByVector","slicers/slice_by_vector.go:SliceByVectorToGcode","primitives/path.go:JoinPaths3","primitives/plane.go:IntersectTriangle"])

p("C135","Two bodies in one file",
 "A file with several closed bodies prints all of them: where the bodies do not overlap the printed part is the union of the bodies. (Where they do overlap the code leaves the overlap out; the full claim, that the union is printed, is violated.)",
 "all pairs of watertight bodies whose union is watertight, all settings with supports off, all orders of the unstable sorts and of the arrival of layers, in exact numbers and in float64; at levels that pass through no vertex, except points closer than 1e-8 to the surface or in a slim cut triangle",
 "Whether a place inside two bodies is filled depends on how the contours nest after they are joined; sample files rarely have overlapping bodies, and no sample shows the rule for all of them.",
 ["slicers/slice_by_vector.go:SliceByVector","slicers/slice_by_vector.go:SliceByVectorToGcode","primitives/path.go:JoinPaths3","primitives/plane.go:IntersectTriangle"])

p("C136","Bodies side by side are all printed",
 "When the bodies in a file are separated by a vertical plane, the printed part is exactly the union of the bodies: none is lost, merged with another or hollowed out.",
 "all pairs of watertight bodies on different sides of any vertical plane, all settings with supports off, all orders of the unstable sorts and of the arrival of layers; in exact numbers at good levels, and in float64 for models on a grid cut into even layers; except points closer than 1e-8 to the surface or in a slim cut triangle",
 "The segments of all bodies go into one list that is joined by closeness of ends; that the joins never go from one body to another for any bodies and positions cannot be seen in samples.",
 ["slicers/slice_by_vector.go:SliceByVector","slicers/slice_by_vector.go:SliceByVectorToGcode","primitives/path.go:JoinPaths3","primitives/plane.go:IntersectTriangle"])

p("C137","Cavities are left empty",
 "A model with a cavity, that is a closed surface inside a closed body, is printed without the cavity: no outline of it is lost and it is not filled, whichever way its facets are oriented. A box with a box-shaped cavity is printed as its rectangle without the rectangle of the cavity, at the heights of the cavity, and as the full rectangle elsewhere.",
 "all pairs of watertight surfaces one inside the other, all settings with supports off, all orders of the unstable sorts and of the arrival of layers, in exact numbers at good levels; in float64 for all boxes and cavities with whole coordinates cut into even layers; except points closer than 1e-8 to the surface or in a slim cut triangle",
 "The code does not look at the orientation of facets or at the nesting of contours; that holes come out as holes for all shapes is a statement about all inputs.",
 ["slicers/slice_by_vector.go:SliceByVector","slicers/slice_by_vector.go:SliceByVectorToGcode","primitives/path.go:JoinPaths3","primitives/plane.go:IntersectTriangle"])

p("C138","The rule for any number of bodies",
 "For a file with any number of closed bodies the printed part is the set of points that are in an odd number of them. Bodies that do not overlap are all printed; bodies nested in each other alternate between material and void.",
 "all lists of watertight bodies that are watertight together, all settings with supports off, all orders of the unstable sorts and of the arrival of layers, in exact numbers and in float64; at levels that pass through no vertex, except points closer than 1e-8 to the surface or in a slim cut triangle",
 "A statement on all numbers of bodies and all ways to nest them.",
 ["slicers/slice_by_vector.go:SliceByVector","slicers/slice_by_vector.go:SliceByVectorToGcode","primitives/path.go:JoinPaths3","primitives/plane.go:IntersectTriangle"])

p("C139","Several bodies, from the file to the moves of the nozzle",
 "Running the program on an STL file with several closed bodies ends normally and writes one file; its moves go layer by layer along contours that enclose exactly the points that are in an odd number of the bodies, and a level for which no layer is written has no such points.",
 "all lists of closed bodies on a grid, all origins, all flags of a vertical slice with supports off and even layers, all headers and footers, all orders of the unstable sorts and of the arrival of layers, in float64; except points closer than 1e-8 to the surface or in a slim cut triangle",
 "A statement about the text written for all files; bodies may touch the order of segments, joins and layers in any way.",
 ["cmd/goosli/goosli.go:main","primitives/stl.go:LoadSTL","slicers/slice_by_vector.go:SliceByVectorToGcode","primitives/path.go:JoinPaths3"])

p("C140","A body does not change what is printed of another beside it",
 "Adding a body to a file, beside the ones that are there and not lower or higher than them, does not change what is printed of them: the points printed on their side are the same as if they were sliced alone.",
 "all pairs of watertight bodies on different sides of any vertical plane, all pairs of settings with the same layer height and supports off, all orders of the unstable sorts and of the arrival of layers; in exact numbers at good levels, in float64 for models on a grid cut into even layers; except points closer than 1e-8 to the surface or in a slim cut triangle",
 "It compares the outputs of two runs for all pairs of bodies.",
 ["slicers/slice_by_vector.go:SliceByVector","slicers/slice_by_vector.go:SliceByVectorToGcode","primitives/path.go:JoinPaths3","primitives/plane.go:IntersectTriangle"])

p("C141","Bodies above each other",
 "What is printed at a level depends only on the bodies that reach it: bodies that are wholly above or below have no effect, a level reached by one body is a layer of this body, and in a gap between bodies above each other nothing is printed.",
 "all lists of watertight bodies that are watertight together, all settings with supports off, all orders of the unstable sorts and of the arrival of layers, in exact numbers and in float64; at levels that pass through no vertex, except points closer than 1e-8 to the surface or in a slim cut triangle",
 "The sweep over sorted facets decides which bodies are cut at a level; that no facet of another body gets in holds for all positions or not at all.",
 ["slicers/slice_by_vector.go:SliceByVector","slicers/slice_by_vector.go:SliceByVectorToGcode","primitives/path.go:JoinPaths3","primitives/plane.go:IntersectTriangle"])

p("C142","The printed part is in the convex hull of the model",
 "Every half-space that contains the model contains the printed part: what is inside the contours of a layer is in the convex hull of the model.",
 "all watertight meshes and all half-spaces, all settings with supports off, all orders of the unstable sorts and of the arrival of layers, in exact numbers and in float64; at levels that pass through no vertex, except points closer than 1e-8 to the surface or in a slim cut triangle",
 "A wrong join of two segments can enclose places outside of the model; for all models this is a geometric statement.",
 ["slicers/slice_by_vector.go:SliceByVector","slicers/slice_by_vector.go:SliceByVectorToGcode","primitives/path.go:JoinPaths3","primitives/plane.go:IntersectTriangle"])

p("C143","Finer layers contain the coarser ones",
 "Slicing the same model with a third, a fifth, ... of the layer height changes nothing at the levels of the coarse print: every layer of the coarse print is found in the fine one, layer m as layer (2j+1)m+j, with the same inside of contours.",
 "all watertight meshes whose height is a whole number of layer heights, all odd divisors, all other settings of the two runs with supports off, all orders of the unstable sorts and of the arrival of layers, in exact numbers and (models on a grid, even layers) in float64; except points closer than 1e-8 to the surface or in a slim cut triangle",
 "It compares two runs with different settings for every model; a test compares the layers of one model at two layer heights.",
 ["slicers/slice_by_vector.go:SliceByVector","slicers/slice_by_vector.go:SliceByVectorToGcode","primitives/path.go:JoinPaths3","primitives/plane.go:IntersectTriangle"])

p("C144","A change on one side of a vertical plane changes nothing on the other side",
 "Two models of the same extent in height that differ only in facets beyond a vertical plane are printed alike on the near side of the plane: editing one end of a part does not change the contours at the other end.",
 "all pairs of watertight meshes with a common set of facets and the others beyond any vertical plane, all settings (same layer height, supports off), all orders of the unstable sorts and of the arrival of layers, in exact numbers and in float64; at levels that are good for both, except points closer than 1e-8 to the surface or in a slim cut triangle",
 "The contours are joined from all segments of a level in the order of a sort, so that a changed segment could change any join; a test sees one edit of one model.",
 ["slicers/slice_by_vector.go:SliceByVector","slicers/slice_by_vector.go:SliceByVectorToGcode","primitives/path.go:JoinPaths3","primitives/plane.go:IntersectTriangle"])

p("C145","A layer depends only on the facets that reach its level",
 "Two models of the same extent in height are printed alike at every level that is reached by the same facets of both: editing a part above or below a level does not change the layer.",
 "all pairs of watertight meshes of the same extent in height, all settings (same layer height, supports off), all orders of the unstable sorts and of the arrival of layers, in exact numbers and in float64; at good levels, except points closer than 1e-8 to the surface or in a slim cut triangle",
 "The sweep carries a list of active facets from layer to layer, so that a facet below could be left in or one above be lost; a test sees one pair of models.",
 ["slicers/slice_by_vector.go:SliceByVector","slicers/slice_by_vector.go:SliceByVectorToGcode","primitives/path.go:JoinPaths3","primitives/plane.go:IntersectTriangle"])

p("C146","Making a part taller by whole layers leaves the layers below alone",
 "When a part is changed from k to k' layer heights with its lowest point kept, the layers that are reached by the same facets as before are printed as before: adding to the top does not change the layers below.",
 "all pairs of watertight meshes with the same lowest point whose heights are whole numbers of layer heights, all settings (same layer height, supports off), all orders of the unstable sorts and of the arrival of layers, in exact numbers and (models on a grid, even layers) in float64; at good levels, except points closer than 1e-8 to the surface or in a slim cut triangle",
 "Number and place of the layers are computed from the extent of the whole model, so a change at the top can move every layer; a test sees one pair of models.",
 ["slicers/slice_by_vector.go:SliceByVector","slicers/slice_by_vector.go:SliceByVectorToGcode","primitives/path.go:JoinPaths3","primitives/plane.go:IntersectTriangle"])

p("C147","An edit of the model file changes only the moves that it reaches",
 "When the program is run on the file of a model and on the file of an edited model, the contours along which the nozzle is moved enclose the same points at every level that is reached by the same facets; and if the models differ only beyond a vertical plane, the same points on the near side of it at every level.",
 "all pairs of files of watertight models on a grid with the same lowest point and layer height, heights that are whole numbers of layer heights, no vertex in the middle of a layer, slicing type 3axes, supports off, all machines and times, in float64; except points closer than 1e-8 to the surface or in a thin cut triangle",
 "The extent of the whole model decides where all the layers are, and the pieces of a layer are joined together in one pass over all facets; a test sees one pair of files.",
 ["cmd/goosli/goosli.go:main","slicers/slice_by_vector.go:SliceByVector","slicers/slice_by_vector.go:SliceByVectorToGcode","primitives/path.go:JoinPaths3"])

root = os.path.dirname(os.path.dirname(os.path.abspath(__file__)))
with open(os.path.join(root,"properties.jsonl"),"w") as f:
    for r in P: f.write(json.dumps(r)+"\n")
print(len(P))
