# Formal model of goosli in Lean 4 — design

## 1. Architecture

| directory | content |
|---|---|
| `lean/Verif/Model/` | the model, function by function, every definition cites `/repo` file:lines |
| `lean/Verif/Spec/`  | small independent specifications (real 3-vectors, G-code machine, chains of paths, ...) |
| `lean/Verif/Proofs/`| helper lemmas |
| `lean/Verif/Props/` | the property theorems `Cxx_...`, with an `example` showing that their hypotheses are met |

### Numbers
The code computes with `float64`. The model is *generic in the number type*:
`class Flt α` (Model/Num.lean) lists exactly the operations the code uses (`+ - * /`, comparisons
returning `Bool`, `math.Sqrt`, `math.Floor`, `int(x)`, ...), with **no laws**. Three kinds of theorem follow.

* **Lawless theorems** quantify over every `Flt α`. They hold for any arithmetic whatever, hence also for IEEE
  float64 with rounding, NaN and infinities (control flow, conservation, ordering, protocol properties).
* **Geometric theorems** are about the instance `XR` (Model/XR.lean): exact reals extended by `NaN`, `+Inf`, `-Inf`
  with the IEEE rules for them (`0/0 = NaN`, `x/0 = ±Inf`, comparisons with NaN false, `int(NaN) = -2^63`).
  Division by zero and `int64` overflow are therefore *not* totalised away. What `XR` leaves out: rounding error of
  the individual operations, overflow to infinity, and signed zeros (zero is treated as `+0`).
* **Float64 theorems** are about the instance `B64` (Model/B64.lean): IEEE binary64, where every operation is the exact one followed by
  rounding to nearest, ties to even, with subnormal numbers and overflow to infinity (`rd` and `Rep` in Spec/Binary64.lean). They
  state by how much the program as it runs differs from exact arithmetic.

### Go runtime
* A panic / `log.Fatal` is an explicit error value (`Go β = Except GoErr β`); nothing is defaulted.
* A slice is a `List`. Aliasing was checked by reading: it matters in no modelled function except where noted in
  the comment of the definition (`Triangle.IntersectTriangle` compares pointers: modelled by provenance tags).
* `sort.Slice` is a parameter: any function that returns a permutation, and a sorted one if the comparator is a
  strict weak order (`Sorter`). Nothing is assumed about ties; nothing but "permutation" is assumed when the
  comparator is inconsistent (the comparator in `JoinPaths3` is).
* Map iteration order is a parameter (any permutation, possibly different each time).
* Goroutines/channels are a step machine; theorems quantify over all interleavings.
* Loops that may not terminate take fuel; running out of fuel is the error `diverges`, never a silent value.
* `int` is modelled by `Int`/`Nat` without overflow except `int(float)`, `uint32(len)` and the STL count.

## 2. Trusted base
* Lean 4.33 kernel. Every theorem depends at most on the axioms `propext`, `Classical.choice` and `Quot.sound`. There is no axiom of our
  own, no `sorry`, no `native_decide`, no `bv_decide`, no `implemented_by`, no `unsafe`. Examples and some counterexamples are
  evaluated with `decide +kernel`, that is by the kernel itself.
* Mathlib's definitions of `Real`, `Real.sqrt`, `Real.cos`, `Real.sin`, `Real.arccos`, `Real.pi` as the meaning of the `math` functions
  in `XR`.
* For the theorems about `B64`: the processor rounds each operation to nearest even and the compiler does not fuse multiplication and
  addition (Go does not on amd64), `math.Sqrt` is correctly rounded, `math.Pow(x, 2)` is the rounded square, `math.Floor` and `math.Ceil`
  are exact. The sign of zero is not modelled; the results of `math.Cos`, `Sin`, `Acos` are taken as the rounded exact ones, no theorem
  about `B64` uses them. The conversions between `float32` bit patterns and `float64` (Model/B64Bits.lean) are those of IEEE-754, one
  NaN standing for all. Printing and reading numbers (Model/B64Text.lean) follows the documentation and the source of package
  `strconv` as known to the author (Go 1.13 or later: underscores, hexadecimal); `strconv` itself is not part of /repo.
* The reading of the Go source: the model was written by hand from the text; the code was not run. Every definition cites the lines
  it stands for.
* Contracts of the Go library that are parameters of the model: `sort.Slice` (above), the iteration order of maps, the order in which
  goroutines deliver, `encoding/binary`, `bufio.Scanner`, `strconv` parsing and formatting (`FltText`, `FltBits`; theorems state what they
  need of them), `fogleman/simplify` (an arbitrary function).

### What is modelled
`primitives` (points, vectors, lines, triangles, planes, paths, meshes, rotations, STL reader and writer on bytes), `helpers` (cutting,
supports, colour filter, line simplification), `gcode` (all commands and the text they produce), `slicers` (slicing along a vector with its
goroutines, infill, 5axes, by_profile), `slicers/vip` (all slicers, walls, skirt, plane file, analysis), and the `main` functions of
`cmd/goosli`, `cmd/cutter`, `cmd/simplifier`, `cmd/colorizer`, `cmd/analyzer` as functions from files and settings to an outcome, and the package `debug`.
`tools/coverage.py` lists the Go functions that no definition cites.

### What is not modelled
* Which shapes the slicers draw with the package `debug` (the package itself is in `Model/Debug.lean`, C112, C113), the yaml parser of its configuration, `println` and `log` output, `String` methods that only feed it.
* Rounding, overflow and signed zero of `float64` in the theorems about `XR`; lawless theorems cover them. A compiler may fuse
  multiplication and addition; lawless theorems about one program run hold for the fused operations only if the fused results are read
  as the operations of `Flt`.
* 64-bit wrap-around of `int` sums and counters; the allocation limits of `make` (a huge `make(chan job, n)` panics, the model
  only has the negative case).
* Reslicing beyond the length up to the capacity: `toAdd[:i]` and `ps[:1]` are errors in the model when `i` exceeds the length.
  In Go they would show stale elements if the capacity sufficed.
* Command line parsing by `kingpin`; partial writes to disk and errors of the operating system other than "file missing".
* Dead code: `SliceDefault`, `JoinPaths`, `intersectByPlanePolygonWise`, `middlePoint`, `vip.calculateCenters`, `LayersToGcode`.
  Nothing calls them, or only comments do.

### Four kinds of number in the proofs
* any `Flt α`, without laws;
* `XR`, exact reals with NaN and infinities;
* `B64`, IEEE binary64;
* `RatToy` (Spec/RatToy.lean): exact rationals, computable, with a square root rounded to four decimals and a broken line for the cosine.
  It is one more instance of `Flt`. It serves to run whole programs in the kernel: for non-vacuity examples, and as the witness of
  statements that quantify over every arithmetic. `C78_violated` is the one claim about geometry whose witness run is in `RatToy`; the
  theorem beside it, `C78_rotation`, says the same for every model in exact arithmetic.

## 3. Plan per property
See `properties.jsonl` for the statements.

| id | model part | proof method |
|---|---|---|
| C01 | channel/worker step machine over arbitrary jobs | invariant over all interleavings + decreasing measure + sort uniqueness |
| C02 | striped write machine | invariant: written slots hold the right value; partition of indices by residue |
| C03 | byte-level encoder/decoder | round trip by arithmetic on little-endian bytes |
| C04 | `LoadSTL` on arbitrary byte lists | case analysis on length |
| C05 | line parser | induction over facets |
| C06 | constructors | structural |
| C07-C09 | `IntersectSegment`, `IntersectTriangle` on `XR` | real algebra |
| C10 | sweep loop vs. brute force | loop invariant of the active list, permutation |
| C11, C12 | plane placement, guards | real algebra, ceil bounds |
| C13, C14 | `JoinPaths3` union-find loop | invariant: groups of chains; uniqueness of neighbours |
| C15 | mesh edges → segments → C14 | counting argument on directed edges |
| C16 | `JoinPaths2` with arbitrary map order | invariant over rounds, decreasing path count |
| C17 | `MinimizeLines` loop | loop invariant |
| C18, C19 | `SimplifyLine` with fuel | strong induction on length |
| C20-C22 | `CutMesh` | per-triangle case analysis, fold invariant |
| C23-C28 | vector/mesh algebra on `XR` | real algebra, trigonometry from Mathlib |
| C29, C30 | shoelace sums | induction, ring |
| C31 | lists | induction |
| C32-C40 | G-code emission + printer machine (spec) | simulation invariant over commands |
| C41 | sequential string replacement | commutation of replacements via a tokenised text |
| C42-C46 | fill | list/real reasoning |
| C47-C49 | walls, skirt, offset | list reasoning; counterexample by computation in `XR` |
| C50, C51 | bed program, analysis loop | induction over planes / fuel |
| C52 | text round trip + trigonometry | real algebra |
| C53 | ring average | loop invariant |
| C54 | edge counting | induction with multiplicities |
| C55, C56 | planar predicates | real algebra |
| C57, C58 | wrapper, rounding | direct |
| C59, C60 | caps and infill against contours | orientation sums, crossing counts; counterexamples by computation in `XR` |
| C61, C65-C68 | whole program runs on texts | composition of the text theorems, congruence of all functions that sort |
| C62 | analysis loop | explicit run on a four triangle model |
| C63, C64 | rotation about an axis, bed turns | trigonometry; turned normal is vertical |
| C69, C72 | bed states along a program (`printedWith`, `bedAtEnd`) | induction over the run of each slicer |
| C70, C71, C74, C75 | control flow of the slicers | case analysis; two-run congruence for C75 |
| C73, C76, C77 | overhang and inside tests against plane geometry | real algebra, sign of cross products; `Proofs/Crossing.lean`: parity does not depend on the ray |
| C78 | heights of everything printed | invariants "all points in one plane" through joining, walls and infill |
| C79 | which support triangles are kept | first exit of a segment from a triangle, seen from above |
| C80 | centroids in any plane, centres of layers | the three views of a flat contour have the same centroid |
| C81 | two level segments | exact answer of the segment intersection, collinear cases included |
| C82 | one contour inside another | the parity does not change along a segment that avoids the contour |
| C83 | contours bound the cross-section of the model | sides of the contours = exact sections of the triangles, each once; parity adds up over contours |
| C84 | fill lines = material on the fill plane | the crossings before a point are the sides met by a ray along the plane (C60, C77) |
| C85 | lines that are too long | runs of bytes without a newline, by induction over the text |
| C86 | plane meets triangle, equal paths | convex combinations of the corners |
| C87 | rounding the corners of contours | each side sweeps a strip in a half-plane away from the point; parity of a closed strip is even |
| C88 | `MinimizeLines` keeps the inside | dropping a corner changes the parity only inside the dropped triangle; loop invariant on parity |
| C89 | fill lines = material of the model | C83, C87, C88 and C84 together |
| C90 | a vertical slice is the model | C89 for each level, C12 for the numbering, C45 for the fill planes |
| C91 | the file prints the model | C90 followed by C38 |
| C92 | `IntersectMesh` gives the section | rewriting of contours with unordered sides; even degrees close |
| C93 | line of two triangles | parameters on the cut line form an interval bounded by the found sides |
| C94 | contours close in float64 | error of the crossing below 2e-12, so rounding to 8 decimals removes it; then the joining theorem of C14 for any arithmetic |
| C95 | slicing in float64 | the sweep for any arithmetic with monotone comparisons; error of repeated addition |
| C96 | k layer heights, k layers | the count of C95 between two integers; float32 height as witness |
| C97 | binary STL files in float64 | the bit pattern of a `float32` is the canonical representation (Proofs/Words.lean); C03, C04 |
| C98 | numbers as text in float64 | a model of `strconv` (Model/B64Text.lean); decimal syntax as an independent specification; half an ulp of `float32` below 16384 is less than half a thousandth |
| C99 | filament and E coordinate in float64 | relative error calculus for the advance of one segment (20 ulps and a tail); the register saturates below `2^114`, so it never overflows; errors added up over the job |
| C100 | moves in the file = segments of the job | generic in the arithmetic through the `Rules` framework with the list of moves so far as ghost state; in float64 by the correct rounding of the printer and of the subtraction |
| C101 | float64 contours enclose the material | the sections of `C94` are the stored exact sections, so the joining keeps them (C13); storing moves corners by less than 1e-8 (C87); merging is generic in the arithmetic (C88), and what float64 takes for collinear is a thin triangle |
| C102 | float64 fill lines are the material | crossings of sides with a vertical plane are found exactly if they exist, within 1e-8/g (`Proofs/B64Fill.lean`); so the number of crossings below a point far from the contours is the exact one, and the parity argument of C84 carries over; the ordering is C44 for float64 distances |
| C103 | float64 slice is the model | `Proofs/B64Planes.lean` bounds the radius, the start and the positions of the fill planes; C101 gives the contours of each level and C102 the lines; the rest is bookkeeping of the dropped first and last layer |
| C104 | bytes to moves in float64 | the shift rounds each vertex; C103 gives the layers, C100 the moves of their paths; the nozzle deviates by at most a thousandth per segment, as coordinates that change by less are not written |
| C105 | whole file on a whole machine | `Spec/Rig.lean` adds relative mode, homing and heaters to the printer; `Proofs/ShippedFile.lean` parses the filled templates to explicit statements, which are executed symbolically; in absolute mode a line of the program acts as on the printer of C38 |
| C106 | off after the print | invariant of the fan over the lines (two layers: on), then C105 |
| C107 | what is read as a number | `Spec/NumLit.lean` is the grammar of signed Go literals with underscores; `Proofs/NumLit.lean` shows that the reader of `Model/B64Text.lean` accepts these and nothing else |
| C108 | unreadable numbers are rejected | C107 and C05; the negation, by a facet with decimal commas |
| C109 | models on a grid | a crossing coordinate is a fraction with a denominator of at most 500, and such fractions are never near a half of `1e-8` (nine factors two) nor near each other; the levels are exact if the step is (`Proofs/NInv.lean`: `n * (1 / n)` in float64) |
| C110 | boxes are rectangles | a box is a model on a grid; its crossing points lie on the outline (`Proofs/Box.lean`), three of them are on one side or make a triangle that is not thin (`Proofs/BoxCut.lean`), and a ray to the right meets one triangle exactly from inside (`Proofs/BoxRay.lean`) |
| C111 | solid layers of boxes are solid | the lines on a plane are the chord of the rectangle (C102 with C110); both ends are near the outline and away from the sides, so at the two walls, and the middle is on the line, so at different walls; planes are half a width away from any abscissa |
| C112 | debugging off leaves the disk alone | a call with the flag off changes nothing, by cases; the negation, by `RecreateFile`, which does not look at the flag |
| C113 | the debug file shows the drawings | the text is a list of lines, each of them words with a blank; splitting gives them back, as in C100 |
| C114 | a vertical run writes its file or ends with a message | by cases along the program, every stage being total on what the one before returns; the negation, because NaN and the infinities go through `Min` and `Max` to the number of layers |
| C115 | nothing outside the bounding box | what is not written keeps a coordinate written for an earlier point, so by induction each coordinate of the nozzle is one of the path's; corners of contours are between ends of edges, ends of fill lines between corners |
| C116 | travels stay clear of the print | a machine that also remembers what it has printed and whether every step was guarded, through the Hoare rules of the generator; header and footer statement by statement; heights ascend because rounding is monotone, and half a millimetre more is printed as at least 0.499 more |
| C117 | density of the fill of boxes | fill lines of a plane are sorted, so they do not overlap and are at most as long as the plane is in the box; a plane clear of the sides and diagonals has a line from wall to wall (C111); planes are counted as the whole numbers in an interval, at most one is near each of the two diagonals. Patterns of two or three directions are covered in their solid layers only |
| C118 | the contour of a box layer, exactly | the eight sections of the sides are a ring of eight points (C101_contours); a closed chain of the sides of a ring that uses each once is the ring, so joining gives nine points from some start; merging collinear steps leaves the four corners and the start, from an even or an odd place; whole coordinates are stored and printed as they are |
| C119 | the default slicer on boxes | the centroid of the rectangle is exact; the probed directions are of length one up to 1e-12; what a ray meets is where it leaves the rectangle, up to 1e-5 (a ray leaves a convex set once); so no direction is found to overhang; if the middle is not found inside, the program looks into the zero direction and finds nothing; hence one flat group (C71), and without extra walls the program of `3axes` |
| C120 | slicing by profile panics on boxes | the centres of the layers are exact and above each other, so `DistanceToLine` is exactly zero and the line simplifies to its ends; `0/0` goes through `Angle`, `RotationAroundZ`, `Rotate` and `MinMaxZ` to the number of layers (C114) |
| C121 | number of lines of a wall, float64 | C47 for the offsets; the floor of a correctly rounded quotient is at least `k - 1`; concrete roundings of 1.2, 0.4 and their quotient for the defaults |
| C122 | walls stay inside rectangles, exact arithmetic | coordinates along and across the rectangle; the moved sides, where they meet and which are kept are computed for all sizes (`rect_wall`); C47 for the layers, C17 for what `minimizeLines` keeps |
| C123 | supports of models that stand on their overhangs, float64 | triangles at the front of the sweep that meet no plane change no layer (`sweep_front`); the projection of a bottom edge stays within 1e-9 mm of the bottom (`proj_bottom`), the first level is 1e-7 mm above it; for whole coordinates normals are exact and `Vector.Angle` is at least 90° up to 1e-9 (`angle_up`) |
| C124 | faces that look up are not painted, float64 | the root of a rounded square is not less than the number (`sqrt_sq_ge`), so along an axis the quotient stays in [-1,1]; stored normals are within 1e-8 of the exact ones (C94); the negation by computing three roundings at (1,1,1) |
| C125 | open edges of cut halves | the edges of the pieces come from the edges of the triangle (`CutPiece.from`, `CutPiece.keeps`), and the cut point depends only on the two ends of the edge (`crossAt_swap` of C15), so neighbours agree; pieces from `clean_pieces` of C21 |
| C126 | the support walls | `C79_supports` with the overhangs as a filter (`overhang_filter`, from C28), the border as the sides counted once (`undoubled_sides`, from C54) and the projections (`project_drop`, from C26); the two triangles together are the wall (`legs_wall`); the plate on a column is indexed by a grid, so that closedness and border are decided on indices and carried over by an injective map |
| C127 | the place of the model | every step sees points only through differences and comparisons: a sorter that looks only through the comparison commutes with a map (`Sorter.Natural`, an assumption about `sort.Slice`, shown for insertion sort), so do joining and minimising (`joinPaths3_map`, `joinMin_map`); rounding commutes with moves on the grid except in the middle (`r8_move`); the sweep of both models goes through the same faces (`sweep_move`) |
| C128 | the place of the model and its infill | on top of C127: crossing a moved contour with a moved plane gives the moved points (`byPlane_move`), the order of the fill lines depends on distances only (`sortFill_map`); the planes of both models are the same window of multiples of the step as far as they meet the model (`grid_fill`, `flatMap_window`) |
| C129 | closed contours and matching facets | joining conserves the paths (C13), so if all results are closed chains every point starts as many sections as it ends (`chain_balanced`, `closed_balanced`); the crossing point of an edge starts or ends a section once for each facet along it, so an edge without an opposite one is unbalanced (`closed_matched`); the other direction is C14 with the hypothesis only at the plane (`matched_closed`) |
| C130 | order of facets and vertices | both runs print the material (C90); the material, the surface and the crossing points are the same for facets in another order (`same_odd`, `same_cross`, `sameAs_on`), edges in the other direction are there by watertightness (`same_edges`) |
| C131 | maps of space that keep heights | both runs print the material (`printed_material`); points of triangles, rays and crossing points are mapped (`LevelMap.on`, `LevelMap.odd`, `LevelMap.cross`), the side of a ray changes by the determinant only (`LevelMap.cross2`), every direction is an image (`LevelMap.undir`) |
| C132 | C130 and C131 in `float64` | both runs print the material (C103, `printed_materialF`: a contour of numbers is the contour of one list of real points, `fpath_list_inj`); the rest is the geometry of C130 and C131; the conditions on the data do not depend on the order (`same_safe`) |
| C133 | two files of the same model, runs of the program | C104 for both runs, the contours of each enclose the material (`enclosed_material`), which is the same (`same_moved`, C130) |
| C134 | stretching heights, upside down | both runs print the material (`printed_material`); it is mapped with the model (`zStretch_material`); the levels are placed symmetrically between the lowest and the highest vertex, so they are mapped to levels (`zLayer_level`) |
| C135 | two bodies in one file | the facets met by a ray add up (`odd_append`), so the material of the joined file is the exclusive or of the two (`material_append`); `printed_material` / `printed_materialF` carry it to the contours |
| C136 | bodies side by side | C135 and `material_side`: a ray away from the separating plane meets no facet of a body behind it, so the bodies have no common material; two grid models side by side are a grid model (`SideBySide.grid`), so C109 gives the float64 conditions |
| C137 | cavities | C135: the printed part is the exclusive or, which for a surface inside another is the difference; `hollow_box`: a box in a box is a grid model, so C109 gives the float64 conditions |
| C138 | any number of bodies | one ray that avoids all crossing points serves for all bodies (`ray_exists`, `material_ray`), and the facets it meets add up (`odd_flatten`) |
| C139 | several bodies, from file to moves | C109 for the model of all facets, and `material_flatten` at its levels |
| C140 | a body does not change another beside it | C136 for both bodies and for the first alone (`SideBySide.clear`: no material of the second on the side of the first) |
| C141 | bodies above each other | C138; a level ray meets no facet of a body that is wholly above or below (`material_misses`) |
| C142 | the printed part is in the convex hull | a level ray that leaves a half-space containing the model meets no facet, so its start is not in the material (`material_hull`) |
| C143 | finer layers contain the coarser ones | the middles of the layers of the coarse print are middles of layers of the fine one (`finer_level`), and what is printed there is the material of the model |
| C144 | a change on one side of a vertical plane | a ray that leaves the plane meets only the common facets, and in a good level every ray that avoids the crossing points tells what is material (`material_local`) |
| C145 | a layer depends only on the facets that reach its level | facets wholly above or below a level have no crossing points on it and meet no ray in it (`SameAt.material`) |
| C146 | making a part taller by whole layers | both runs place the middles of their layers at the same heights, and the material there is that of the common facets (C145) |
| C147 | an edit of the model, from the file to the moves | two runs of the program (C109): the contours of each enclose the material of its model, which is the same at the level (C145) or on the near side of the plane (C144) |

## 4. Where the code disagrees with its properties
Each entry is proved by a theorem named `..._violated` (or the one given), with a concrete witness, and the true part is kept as a theorem.

| id | what goes wrong |
|---|---|
| C12 | flat meshes and layer heights that are zero or negative make `SliceByVector` panic |
| C16 | `JoinPaths2` leaves paths apart that could be joined |
| C18 | the tolerance of `SimplifyLine` is measured to the line, not to the segment |
| C20, C21, C59 | `CutMesh`: triangles with close vertices stick out of the half space; triangles that touch the plane are dropped; caps of concave contours overlap |
| C36, C38, C39, C40 | after a retraction and after bed commands the feed rate is wrong; small steps are rounded away and add up; every retraction also pulls back everything since the last one; the flow setting is never read |
| C41 | braces inside values make the header depend on the map order |
| C46 | no infill for Squares at density 1 and for Triangles at 1 and 2 (integer division) |
| C49 | the offset of a closed contour has one corner in the wrong place (the first line ends at the uncut side) |
| C52, C64 | directions with negative y come back mirrored, because `Vector.Angle` has no sign |
| C55 | vertical triangles contain every point of their plane |
| C60 | an infill plane through a corner of the contour gives infill outside |
| C61 | the placeholders for print time and filament (length, weight, cost) in the header are never replaced |
| C62 | `Analyze` uses indices of the original mesh for the cut one and panics |
| C69 | `SliceByPlanes` ends with the bed where the last plane has it |
| C70 | `vip.Slice` panics for models without layers, without contours, and for bridges and bodies of rotation without overhang |
| C71 | models with a single layer print nothing with `5axes` and `vip` |
| C73 | whether a contour counts as a hole depends on its first corner |
| C76 | the overhang test has no sign: pyramids and roofs flatter than 50 degrees count as overhangs |
| C77 | `Point.Inside` is wrong on the line of the first side, opposite a corner, and one layer above thin parts |
| C78 | bodies of rotation: model and slicing direction are both tilted, so layers climb by 60 degrees under the nozzle |
| C79 | supports that cross the plane of a vertical wall along an axis are left out, however far away the wall is |
| C80 | tiny contours have their centroid at x = 0; a hole pulls the centre of its layer as much as the part around it |
| C81 | segments of a thousandth that cross are not found, others that do not meet are |
| C82 | tiny contours that stick out of another one are reported to be inside it |
| C84 | a fill plane through a corner gives a fill line through the air (the contours of C60) |
| C85 | the planes after a line of 64 KiB in a file of planes are dropped without failure |
| C88 | `MinimizeLines` merges a square of half a thousandth into a single point, which has no inside |
| C93 | `Triangle.IntersectTriangle` compares pointers to points (triangle.go:121-129): a cut line through a corner and the opposite side is reported as no intersection |
| C96 | heights read from STL are `float32`: 0.3 mm with layers of 0.1 mm give four layers of 0.075 mm, since 0.3 is stored as 0.300000012 |
| C106 | the footer has the statement for the fan as a comment only: after two or more layers the fan runs on |
| C108 | a coordinate that is no number is printed as an error and read as zero; an ASCII STL file with decimal commas is loaded without an error, all vertices at the origin |
| C112 | `RecreateFile` does not look at the flag: with debugging switched off every slicer but `3axes` still empties the file named in the configuration (and its test for an existing file, `os.IsExist` of no error, never holds) |
| C114 | a model with a coordinate that is infinite or not a number is accepted by the loader and makes `make(chan job, n)` panic, since `int(NaN)` is negative; a model without height, or lower than a layer and missed by its plane, makes `layers[0]` or `layers[len-1]` panic |
| C120 | `SliceByProfile` divides by the length of the horizontal part of a step; for a step straight up it is zero, the angle is not a number, and `SliceByVector` of the turned model panics in `make(chan job, n)`. Every box fails (`C120_program`) |
| C121 | `PrepareLayers` takes `int(wall / line_width) - 1` walls beside the contour; the quotient of the default flags 1.2 and 0.4 is 2.9999999999999996 in float64, so the default wall is two lines, not three (`C121_violated`) |
| C122 | `makeOffset` drops an offset side only if it points backwards; in a strip thinner than a line the two long sides pass each other, still point forwards, and are joined into a wall outside the part (`C122_violated`) |
| C124 | `Vector.Angle` returns 0 for every quotient outside [-1,1], also for those below -1, where the angle is 180 degrees: in float64 the angle of (1,1,1) and (-1,-1,-1) is 0, and a face that looks straight up along (1,1,1) is painted as an overhang (`C124_violated`) |
| C125 | faces that touch the cutting plane with a vertex from behind are dropped from both halves (C21), so cutting a tetrahedron at its top leaves only its base, an open surface (`C125_violated`) |
| C126 | supports of a plate on a column: every side of the plate crosses the plane of a wall of the column (C79: the planes are taken as unbounded), so all supports of the plate are left out and the plate is printed in the air, although supports are on (`C126_violated`, for every size of plate and column) |
| C127 | a model moved by `1e-8` across zero: halves are rounded away from zero, so a contour point with `x = -0.5e-8` goes to `-1e-8` and, moved by `1e-8`, to `+1e-8` (`C127_violated`) |
| C128 | a tetrahedron moved by half a line distance: all its fill lines stay at whole numbers (`fill_at_whole`), but the line at `x = 1` (`tetra_line`) would have to be at `3/2` (`C128_violated`) |
| C129 | a closed surface with one facet turned over: its sections run in both directions, `tryJoin` joins ends to starts only (primitives/path.go:208-231, the reversing cases are commented out), so a contour stays open (`C129_orientation`) |
| C130 | none; the starting points and directions of the contours do depend on the order, the enclosed region does not |
| C131 | none; fill lines do not turn with the model (their direction is fixed), only the filled region does |
| C132 | none; the turned model in a file has rounded coordinates, which is outside of the statement |
| C133 | none |
| C134 | none for the outlines; the bottom and top layers are counted from the two ends of the layers that are kept |
| C135 | bodies that overlap: the overlap is left out of the part instead of being printed once (`C135_violated`: two tetrahedra shifted by half a millimetre) |
| C136 | none |
| C137 | none |
| C138 | see C135: a point in two overlapping bodies is not printed |
| C139 | see C135 |
| C140 | a second body that is lower or higher moves the levels, so it does change the layers of the first |
| C141 | none |
| C142 | none |
| C143 | none |
| C144 | none |
| C145 | none |
| C146 | none |
| C147 | none |

### Further observations from reading, not stated as properties
* `3axes` ignores the wall thickness; `5axes` and `5axes_by_profile` ignore walls and infill (part of C75).
* The loops of `SliceDefault2` and `Slice5Axes` need not end.
* `SliceByPlanes` does not turn the infill planes with the parts.
* `Point.Inside` uses the distance in space: if a layer is at least half as high as a side of the contour is long, the middle of a layer is
  not found inside the contour below (harmless for boxes, see C119).
* The outlines of supports are in `Layer.Paths` like contours of the model, so `FillLayers` fills between support and model as well.
* `goosli`: the retraction speed flag is not converted to mm/min; the analyzer ignores the rotation centre flags; the cutter loses the upper
  part if both output names are the same.
* `SkirtPathes` with a negative count still adds one loop. `SaveSTL` ignores the error of `Flush`. Files below 84 bytes are never STL.
* `MakeOffset` has a second correction loop without effect; `IntersectLine2` gives up if the crossing is more than 2 mm from the ends.
* `sortFillPathes` repeats the first line if all distances are at least `MaxFloat32` or NaN.
* The comparator of `JoinPaths3` is not a strict weak order (tolerance in x), so its result may depend on the sorting routine.
* In float64 the x of a crossing that lies on the border of rounding to 8 decimals comes out as one or the other neighbour, so two such
  crossings may be ordered one way by x and the other way by y; C94 excludes crossings within 1e-11 of such a border.
* `Vector.Angle` yields 0 instead of 180 if rounding pushes the cosine below -1, and NaN for a zero vector.

## 5. Wrong programs
`seeded/LOG.jsonl` has one line per deliberate mistake. `tools/mutate.py` applies hand-written mistakes, `tools/automutate.py` random
one-token edits of every definition, `tools/rerun.py` repeats those that no theorem noticed. The scratch copy is outside of this
directory; kernel-evaluated examples are disabled there, so that only theorems can notice a mistake.
