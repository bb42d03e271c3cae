import json
P=[]
def p(title,statement,quant,why,*anchors):
    P.append(dict(id="C%02d"%(len(P)+1),title=title,statement=statement,quantifier=quant,why_tests_cant=why,anchors=list(anchors)))
FW="firmware/chrumm/"; B="body/chrumm/"
# --- firmware
p("Debounced key events alternate","For each key of the matrix the firmware reports press and release events strictly alternately, the first one being a press: never two presses or two releases in a row, and never a release of a key that was not pressed.","every sequence of raw switch samples of a key, and every debounce length 1..127","the set of bounce patterns is infinite; the property is an invariant over unbounded histories",FW+"matrix.c:debounce",FW+"matrix.c:report")
p("Debounce is live and quick","MATRIX_DEBOUNCE_TICKS consecutive equal samples of a key always settle its debounced level to that sample, whatever happened before; the level is the one announced by the key's last event.","every prior history, every debounce length","needs every reachable internal counter value and every history leading to it",FW+"matrix.c:debounce")
p("Debounce rejects glitches","No event is reported unless, within the samples since the key's previous event, the samples of the new level exceed the samples of the old level by at least MATRIX_DEBOUNCE_TICKS over some suffix ending now; in particular fewer than MATRIX_DEBOUNCE_TICKS new-level samples since the last event never produce one.","every sample sequence of a key","quantifies over all noise patterns of unbounded length",FW+"matrix.c:debounce")
p("Debounce counter never overflows and is memory safe","The per-key debounce byte always stays below 2*MATRIX_DEBOUNCE_TICKS <= 254, so the byte arithmetic never wraps, and every scanned key index is inside the state array and the keymap.","every matrix size, every debounce length admitted by the static assertion, every scan history","overflow would need a particular long history to show",FW+"matrix.c:debounce",FW+"matrix.c:matrix_tick")
p("Keys do not influence each other's debouncing","The event sequence of one key depends only on the samples of that key; samples of other keys change neither its events nor their timing.","all pairs of scan histories that agree on one key","non-interference is a two-run property over all histories",FW+"matrix.c:matrix_tick",FW+"matrix.c:debounce")
p("No stuck keys","At any time every nonzero code of the keyboard report, every modifier bit and the consumer code comes from a key that is currently (debounced) pressed, or from the encoder's current virtual key press; once all keys are released and the encoder's virtual key has timed out, the report is empty - whatever layer changes happened in between.","every keymap, every history of key events, encoder events, suspends and wakeups","needs every interleaving of layer switches and presses/releases",FW+"matrix.c:report",FW+"hid.c:hid_remove",FW+"hid.c:removeKeycode",FW+"encoder.c:report")
p("A pressed key is reported until released","When a key is pressed while the bus is not suspended and a slot is free, its code on the active layer is in the report and stays there until a key carrying the same code is released; layer changes or other keys do not remove or change it.","every keymap, state and later history without a release of that code","universally quantified over the continuation",FW+"hid.c:addKeycode",FW+"hid.c:hid_add",FW+"matrix.c:report")
p("Six-key report is well formed","The six keycode slots never hold the same nonzero code twice and never hold a modifier code (0xE0-0xE7); a seventh simultaneous key is ignored and does not disturb the six held keys.","every history of hid_add and hid_remove calls","invariant over unbounded call histories",FW+"hid.c:addKeycode",FW+"hid.c:removeKeycode")
p("Every report change reaches the host","Whenever the in-memory report differs from the last report accepted by the USB stack, a send is pending, so that the next ready tick transmits the current report.","every history of key events and USB readiness","needs all interleavings of changes with USB readiness; a unit test misses the double-removal path",FW+"hid.c:hid_tick",FW+"hid.c:addKeycode",FW+"hid.c:removeKeycode")
p("Fn layer switching and locking","The function layer is active while an Fn key is held; releasing it returns to the base layer, unless this was the second consecutive tap without an ordinary key press in between (lock); the lock ends with the release of the next Fn tap or, after typing in between, of the next tap.","every keymap and every sequence of key events","state machine over unbounded sequences",FW+"matrix.c:report")
p("Bootloader needs three deliberate taps","The device resets into the bootloader exactly at a BOOT key press that is at least the third BOOT press without an ordinary key press (a press of a key that is neither Fn nor BOOT) in between; no other sequence of events resets it.","every keymap and every sequence of key events","must exclude all sequences",FW+"matrix.c:report")
p("Encoder decoder is memory safe","For every sequence of A/B pin readings, including contact bounce and glitches, the lookup index stays inside the 28-entry table and the state is one of the seven documented states.","every pin sequence","all sequences, unbounded",FW+"encoder.c:encoder_tick")
p("Encoder counts detents exactly","For every pin sequence in which at most one pin changes between consecutive ticks (bouncing back and forth allowed), starting at the detent position, clockwise events minus counter-clockwise events equals the net number of completed quadrature cycles, so contact bounce never adds or loses a detent.","every quadrature path of arbitrary length","unbounded paths with bounce",FW+"encoder.c:encoder_tick")
p("Encoder key presses are released and never overlap","An encoder event adds its usage, which is removed exactly ENCODER_KEYPRESS_TICKS+1 ticks later; at most one virtual key is held, and every added usage is removed before or at the same tick the next is added.","every event sequence","temporal property over unbounded executions",FW+"encoder.c:report")
p("LED shows the requested pattern","After led_blink sets a new pattern p, the LED shows bit (n / LED_BLINK_TICKS) mod 8 of p after n+1 ticks, for as long as the pattern is not changed or becomes dark; setting the same pattern again does not disturb the phase.","every pattern, every number of ticks, every earlier history","unbounded time",FW+"led.c:led_tick",FW+"led.c:led_blink")
p("LED goes and stays dark","After the pattern is set to 0 (NumLock-only or suspend) the LED is off from the next tick on, until a nonzero pattern is set.","every earlier state and any number of ticks","unbounded time and histories",FW+"led.c:led_tick",FW+"hid.c:tud_hid_set_report_cb",FW+"usb.c:tud_suspend_cb")
p("Suspended bus: nothing is typed, host is woken","While the bus is suspended, a key press changes no report and requests a remote wakeup; releases still clear the report.","every keymap, state and event","all states",FW+"hid.c:hid_add",FW+"hid.c:hid_remove")
p("One scan handles every key once","One matrix scan drives each row low exactly once with all other rows high, reads each (row, column) exactly once, and leaves all rows high.","every matrix size and pin map with distinct row pins","all sizes",FW+"matrix.c:matrix_tick",FW+"matrix.c:matrix_init")
# --- geo
p("Vectors are strictly totally ordered","Vector comparison is a strict total order consistent with equality, so sorting points is deterministic.","all vectors","all triples of vectors",B+"geo/vector.py:Vector.__lt__")
p("Snapping is stable","Snapping a vector replaces exactly the coordinates of magnitude below 1e-6 by zero, keeps all others unchanged, moves no coordinate by 1e-6 or more, and snapping again changes nothing.","all vectors","all reals",B+"geo/vector.py:Vector.snapped")
p("Transforms compose like matrices","For all matrices built by the public constructors, transforming by the product a*b equals transforming by a and then by b, the product is associative and the identity neutral.","all compositions of matrix constructors, all vectors","unbounded compositions",B+"geo/matrix.py:Matrix.__mul__",B+"geo/vector.py:Vector.transformed")
p("Rotations are rigid","rotatedX/Y/Z with and without centre preserve all distances and orientation, fix the centre (and the axis through it), compose additively, and turn counter-clockwise for positive angles.","all angles, centres and points","all reals",B+"geo/matrix.py:Matrix.rotatedX",B+"geo/matrix.py:Matrix.rotatedY",B+"geo/matrix.py:Matrix.rotatedZ")
p("Alignment rotation aligns","Matrix.fromAlignment(source, target) returns a rotation that maps the source direction to the target direction.","all pairs of nonzero vectors","needs all direction pairs including the antiparallel one",B+"geo/matrix.py:Matrix.fromAlignment")
p("Mirroring is an involution reversing orientation","Mirroring a vector, edge or triangle twice gives the original; a mirrored and reversed triangle mesh has the mirrored normals, so a left part is a valid outward-oriented solid whenever the right part is.","all meshes","all meshes",B+"geo/vector.py:Vector.mirroredX",B+"geo/triangle.py:Triangle.mirroredX",B+"make.py")
p("Line-line intersection","Line.intersect returns the midpoint of the shortest connection between two non-parallel lines (the common point when they meet) and raises exactly when the direction cross product is (nearly) zero.","all pairs of lines","all reals",B+"geo/line.py:Line.intersect",B+"geo/line.py:Line.distance")
p("Signed and unsigned line distance","Line.distance is the minimum distance of the point to any point of the line; distance2D is the signed distance in the xy plane: positive exactly on the clockwise (right) side and of absolute value equal to the minimum 2D distance.","all lines and points","all reals",B+"geo/line.py:Line.distance2D",B+"geo/line.py:Line.distance")
p("Plane intersections lie on the planes","The intersection of three planes, or of a plane and a line, lies on all of them; projections along an axis or the normal lie on the plane, change only the projected coordinate, and ZeroDivisionError is raised exactly for (nearly) degenerate input.","all planes, lines, points","all reals",B+"geo/plane.py:Plane.intersect",B+"geo/plane.py:Plane.projectX",B+"geo/plane.py:Plane.projectNormal")
p("Segment distance is the minimum distance","Segment.distance2D is the minimum xy distance from the point to any point of the segment, also for zero length segments.","all segments and points","all reals",B+"geo/segment.py:Segment.distance2D")
p("Segment intersection","Segment.intersect2D returns, for each mode, a point on the extended lines (and on the segments where they are not treated as lines), and fails exactly when parallel or out of range.","all pairs of segments","all reals",B+"geo/segment.py:Segment.intersect2D")
p("Circle intersections","Every point returned by circle intersection lies on both circles (circle and line), the count is 0, 1 or 2 and the square roots never get a negative argument.","all circles and lines","all reals",B+"geo/circle.py:Circle.intersect")
p("Convex hull","Edge.fromConvexHull2D returns a counter-clockwise strictly convex polygon of input points that contains all input points.","all finite point multisets","all point sets",B+"geo/edge.py:Edge.fromConvexHull2D")
p("Pairwise mesh is closed strip","Edge.meshPairwise between two edges of equal length produces triangles whose directed-edge boundary is exactly the first edge, the reversed second edge and (unless closed) the two end connections: every interior connection is used once in each direction, for each Delaunay choice and each pattern of degenerate (coincident) points without twisted quads.","all pairs of edges","all lengths and degeneracy patterns",B+"geo/edge.py:Edge.meshPairwise")
p("Parallel mesh is closed strip","Edge.meshParallel terminates, produces exactly as many triangles as the two edges have segments, and its boundary is the first edge, the reversed second edge and the end connections, whichever greedy choices are made.","all pairs of edges of any lengths, any choice function","all lengths",B+"geo/edge.py:Edge.meshParallel")
p("Point in polygon","Edge.contains2D decides the even-odd rule: additive (xor) under gluing polygons along shared edges, independent of the start point and direction, and correct for triangles and convex polygons (true inside, false outside). It is the same at both ends of every segment that does not meet the outline.","all polygons and points in general position","all polygons",B+"geo/edge.py:Edge.contains2D")
p("Collapsing removes short segments","Edge.collapsed keeps a subsequence of the points such that every kept point starts a segment of the original edge of at least the given length.","all edges","all edges",B+"geo/edge.py:Edge.collapsed")
p("Holes are merged without losing or adding boundary","Merging holes into a face polygon keeps every polygon and hole vertex, adds exactly two vertices per hole, and the directed-edge chain of the merged polygon equals that of the outline plus all holes.","all outlines, hole lists and visibility outcomes","all inputs",B+"geo/face.py:_mergeHoles")
p("Ear cutting preserves the boundary","Cutting ears produces triangles whose boundary chain, together with the remaining uncut polygon, equals the polygon's; it yields n-2 triangles exactly if it completes; all triangle vertices are polygon vertices.","all polygons and all acceptance outcomes","all inputs",B+"geo/face.py:_cutEars")
p("Ear cache is coherent","Caching rejected ears in _cutEars never changes the result: the cut ear is always the first acceptable ear of the current polygon.","all polygons","all executions",B+"geo/face.py:_cutEars")
p("Triangle flipping terminates","The Delaunay flipping loop always terminates, whatever order the work set is popped in.","all triangulations, all pop orders","termination over all schedules",B+"geo/face.py:_flipTriangles")
p("Triangle flipping preserves the surface","Flipping preserves the number of triangles, their vertices, total signed area and the directed-edge boundary chain, and never raises.","all triangulations, all pop orders","all schedules",B+"geo/face.py:_flipTriangles")
p("Flipped triangulation is locally Delaunay","When flipping ends, no adjacent pair of triangles registered in the edge table violates the in-circle criterion by more than the tolerance.","all triangulations, all pop orders","all schedules",B+"geo/face.py:_flipTriangles")
p("A triangulated face has the face's boundary and area","Face.triangulate either raises or returns triangles whose directed-edge boundary is part of a chain equal to outline plus holes; when all ears were found, the total vector area equals the Newell vector of outline plus holes, and there are V+2H-2 triangles.","all faces","all inputs",B+"geo/face.py:Face.triangulate")
# --- app
p("STL files are well formed","toBytes of n triangles yields exactly 84+50n bytes: 80 header bytes, little endian count, then per triangle normal and the three vertices in order and two zero bytes; decoding recovers the count and each float32 coordinate.","all triangle lists with n < 2^32","all lengths",B+"stl.py:toBytes")
p("Set of generated files","The generator returns exactly the files selected by the config flags: knob only, or body and floor for both sides plus optional knob, palm, support and PCB; file names are distinct.","all flag combinations","also for all mesh contents",B+"make.py:make")
p("Each part gets its own faces","With any worker count, the distribution of triangulated faces assigns to each part exactly the triangles of its own faces, in order, so the output files do not depend on the number of threads.","all part/face counts and thread counts","all sizes and schedules",B+"make.py:make")
p("Left files are mirrored","Every left file contains exactly the triangles of a part that was constructed for the left plan, each mirrored in x with reversed winding, so that its enclosed volume and closedness are those of the constructed mesh; if both plans agree, the left file is the exact mirror image of the right file.","all configurations, meshes, thread counts and completion orders","all meshes",B+"make.py:make",B+"geo/triangle.py:Triangle.reversed")
p("Nothing is written on error","The command line tool writes files only after all have been generated; on any option, file, JSON, configuration or geometry error it exits with status 1 and writes no file; if a write fails, exactly the files before it have been written and it exits with 1; it exits with 0 exactly if help or version was printed (and nothing written) or all selected files have been written, under distinct names in the current directory that start with the stem of the last JSON file.","all command lines, file contents, configurations and failures","all failure points",B+"__main__.py:main")
p("Later configs override earlier ones","Merging config dicts: for every key path the last config that sets it wins, keys not mentioned by later ones are kept, nested objects merge recursively.","all config sequences","all trees",B+"cfg.py:_init")
p("Angles are radians, exactly once","Every config value whose key ends in 'angle' (any case) is converted from degrees to radians exactly once; all other values are kept verbatim.","all config trees","all trees",B+"cfg.py:_init")
p("Config is history independent","Initializing the config replaces all public names of earlier initializations, so the resulting config depends only on the given JSON strings; only valid public identifiers are ever set, other keys are ignored.","all sequences of initializations","all histories",B+"cfg.py:_init")
p("Layout sanity","A layout is accepted only if its checks pass; columns and keys come in the declared order for both sides, and key positions depend only on the config.","all layouts","all layouts",B+"part/layout.py:Layout")
p("Circuit board footprint","If the tent angles of alnum and pinky keys differ by less than a right angle, the footprint of a pair of plans is always produced. On the flat board all alnum and pinky keys lie exactly in one plane, unturned, at their places in the flat layout as seen from the first pinky key (the alnum keys with one common gap that makes room for the crease), and the board can be bent along a straight line on its bottom so that alnum and pinky keys get to their places in the keyboard. The text holds the markers of the right keys for the front, those of the left keys for the back, and the mounts at their configured distances; it is empty exactly if a thumb key is more than 1e-6 out of the plane of the pinky keys.","all configurations for which plans are made, all number formats","all angles, all layouts",B+"pcb.py:toKiCadFootprint",B+"pcb.py:_flattenLayout",B+"pcb.py:_writeKiCadMarker")
p("Arcs are accurate","Every point of a generated arc lies on the circle, the arc starts and ends at the requested angles, and no chord deviates from the true arc by more than the configured maximum; a full circle does not repeat its first point. The chords of an arc of up to half a circle are not shorter than 2/pi times the smallest of the arc's length, half the length allowed by the maximum angle, and the length allowed by the maximum height.","all radii, angles, chord limits","all reals",B+"part/arc.py:arc2D")
p("Corner arcs are tangent","Corner arcs touch both adjacent sides exactly at the tangent points.","all corners","all reals",B+"part/arc.py:cornerArc2D")
p("Boss fitting terminates outside the keys","The search for a boss position terminates and its result keeps at least the required distance from both hulls.","all hulls and start positions","termination, all reals",B+"part/plan.py:_fitBoss2D")
p("Walls enclose the keys","For any group of keys and any wall direction, the computed inner wall line has all inner key bounds on its inner side and the outer wall line all outer key bounds; both lines have the requested direction, are exactly the wall thickness apart, and cannot be moved further inwards (one of the bounds touches its line).","every list of keys, wall thickness and angle","all inputs; depends on a minimum over all bound points and on the handedness of the line offset",B+"part/plan.py:_wallLines2D")
p("The knob is watertight","For every knob configuration that is accepted, the surfaces of the knob fit together exactly: the boundaries of its five closed strips and three flat faces (with their holes) cancel out. Hence its triangles form a closed surface if no quad of a strip is a sliver and the faces are cut completely.","all knob configurations and qualities","all sizes; number of points depends on the quality",B+"part/knob.py:Knob.__init__",B+"part/knob.py:Knob._grooveSketch2D",B+"part/knob.py:Knob._shaftSketch2D")
p("Supports are watertight","For every support configuration, the surfaces of a support fit together exactly, so its triangles form a closed surface if no quad is a sliver and both ends are cut completely; the file of supports, which holds one moved support for each key that needs one, is closed too.","all support configurations, keys and qualities","all sizes",B+"part/support.py:SupportFactory",B+"part/support.py:Support")
p("Bumper recesses close their holes","For every sane mesh quality and every bumper at least 1 wide and 0.001 high: the mesh of a full recess, together with its hole in the floor, is closed; its outline lies on the circle around the position, at the bottom of the floor, and turns counter-clockwise. The mesh of a half recess, together with its hole in the floor and its outline in the split plane, is closed, the half circle lies on the right and both outlines share their end points. It is built without an error unless the quality is too coarse for the diameter.","all bumper configurations, positions and qualities","all sizes; number of points depends on the quality",B+"part/bumper.py:Bumper")
p("Projected faces are counter-clockwise","Whatever the orientation of a flat face in space (also facing straight down), the projection of its outline to the xy plane used for triangulation has positive area: ears are convex corners, not reflex ones.","all outlines with a surface normal","all polygons and orientations",B+"geo/face.py:Face.triangulate",B+"geo/matrix.py:Matrix.fromAlignment",B+"geo/vector.py:Vector.fromSurfaceNormal")
p("Distance to an edge","Edge.distance2D is zero for contained points and else the minimal distance to a point of the closed edge; it is zero exactly for contained and boundary points, and raises exactly for an edge without points.","all edges and points","all reals",B+"geo/edge.py:Edge.distance2D")
p("Convex faces are triangulated completely","A convex polygon (whose corners are at least 1e-6 away from the lines through two others) is always cut into n-2 ears that have its boundary, without an error.","all convex polygons of any size","all polygons",B+"geo/face.py:_cutEars")
p("Offset segments","Segment.offset2D moves the segment at right angles by exactly the distance, to its right side for positive and its left side for negative distances, keeps its direction and length in the plane, and raises exactly when the end points coincide in the plane.","all segments and distances","all reals",B+"geo/segment.py:Segment.offset2D")
p("Moved lines and planes stay with their points","A transformed line consists of exactly the transformed points of the line, in the same order, and raises exactly when they all coincide; a rigidly moved plane keeps the signed distance of every point moved with it; the same holds for translations.","all lines, planes and matrices","all reals",B+"geo/line.py:Line.transformed",B+"geo/plane.py:Plane.transformed",B+"geo/vector.py:Vector.transformedNormal")
p("Triangle measures","Triangle.area is half base times height; the circumradius of every valid triangle is positive and the distance of all three corners from one point in the triangle's plane.","all triangles","all reals",B+"geo/triangle.py:Triangle.area",B+"geo/triangle.py:Triangle.circumradius")
p("Command line options","Options are recognized up to the first argument that is not an option, or up to --; long options can be abbreviated if unambiguous; unknown, ambiguous or incomplete options are errors and nothing is generated; the last --threads wins, --knob is in effect if given anywhere, and the first --help or --version ends the program before any file is read.","all argument lists","all argument lists",B+"__main__.py:main")
p("Upright holes","The outline of an upright hole is symmetric in x, its flat top bridge is exactly at the radius, the rest lies on the circle and the straight lines next to the bridge touch the circle where the arc ends; a half hole ends exactly at (radius, 0) and (-radius, 0), and its straight lines touch the circle exactly if the taper angle is 45 degrees; without taper the holes are round.","all radii, taper angles and chord limits","all reals",B+"part/arc.py:uprightHole2D",B+"part/arc.py:uprightHalfHole2D")
p("Switches sit flush in the roof","Every switch of a finished plan sits flush in the roof of its group: a point z above the key's origin plane is z above the outer roof and z plus the roof thickness above the inner roof; hence the outer rim of every switch hole lies exactly in the outer roof and the inner rim exactly in the inner roof.","all configurations for which a plan is made, all keys of all groups on both sides","all configurations; composition of nine rigid motions with rotated planes",B+"part/plan.py:Plan.__init__",B+"part/key.py:Key")
p("The body encloses the keys","In a finished plan no key sticks through a wall: inner bounds of all keys of both sides stay inside the inner front and back walls, outer bounds inside the outer ones, alnum keys right of the left plane and behind the alnum front, thumb keys in front of it, pinky keys left of the right wall; every wall and roof has exactly its configured thickness.","all configurations for which a plan is made","all configurations; later steps (tilt, bosses, shifts) must not break earlier ones",B+"part/plan.py:Plan.__init__",B+"part/plan.py:_wallLines2D")
p("Corners are where the walls meet","Each reference point of a finished plan is the one and only common point of its three planes, and the ridge ends exactly on the thumb roof (outer and inner, offset like the thumb corner).","all configurations for which a plan is made","all configurations",B+"part/plan.py:Plan.__init__",B+"geo/plane.py:Plane.intersectPlanes")
p("Clearances of the body","The lowest key is exactly at the minimum roof height; every reference point leaves room for the floor lip and the chamfer; the pins of the plan's side stay above the floor with the configured margin; all keys and the ridge are right of the middle plane, the ridge has its minimum width, and the halves are as close as these rules allow.","all configurations for which a plan is made","all configurations",B+"part/plan.py:Plan.__init__")
p("Screw bosses fit between walls and keys","The four bosses of a finished plan keep their radius plus the wall margin from the outer wall and their radius from the inner bounds of the two keys beside them, on the final walls and for the final key positions; the two left bosses touch the wall margin exactly.","all configurations with non-negative diameter for which a plan is made","all configurations; boss fitting moves walls repeatedly for both sides",B+"part/plan.py:Plan.__init__",B+"part/plan.py:_fitBoss2D")
p("The crease between alnum and pinky keys","The crease planes halve the angle between the roofs left and right of them, and both roofs meet exactly there; the tops of two keycaps on both sides of the crease that are one column pitch apart in the flat layout have the same distance in the finished plan as in the flat layout.","all configurations for which a plan is made","all angles",B+"part/plan.py:Plan.__init__",B+"part/layout.py:Layout.tentCreaseOffset")
p("Groups are moved as rigid bodies","Each key group of the flat layout is moved as one rigid body: turned by its tent angle, the tilt and the split, then shifted by one vector for both sides; the grid of keys keeps its order; roofs and walls have the configured directions.","all configurations for which a plan is made","all configurations",B+"part/plan.py:Plan.__init__")
p("Symmetric configurations give equal plans","If the configured layout is the same for both sides, the plans of both sides are equal (or fail with the same exception), so both halves of the keyboard are exact mirror images.","all symmetric configurations","all configurations",B+"part/plan.py:Plan.__init__",B+"make.py:make")
p("Height only lifts the keyboard","A larger minimum roof height lifts keys, planes and corners of the plan by the difference, changes nothing else and never makes a plan fail; for every configuration either no height gives a plan, or exactly the heights from some lowest one on do, and below it the program stops with a ValueError.","all configurations and heights","a statement about all pairs of configurations",B+"part/plan.py:Plan.__init__")
p("Key meshes close the roof holes","For every switch with a sane hole (and a clip notch that fits into it, or none), the triangles of a key, wherever the key is moved, close the gap between its hole in the outer roof and its hole in the inner roof: each directed edge of triangles and both holes is balanced by its reverse.","all switch dimensions, all key transformations","all dimensions; needs every degenerate case of the pairwise mesh",B+"part/key.py:KeyFactory",B+"part/key.py:Key")
p("Screw holes are closed","For every sane configuration, the triangles of a screw head close the gap between the clearance hole on top of the floor and the head hole on its bottom, both round and around the boss position at their configured diameters (the countersink cut off by the floor if it is too deep). The triangles of a thread close the hole they start from, for round and for tapered holes and any roof that is not too steep, no part of the thread comes closer to the roof than the margin (roofs up to 54 degrees), and a thread is rejected with a ValueError exactly if one of minimal length would get into that margin or is longer than the maximal length. A boss can always be built if no circle is smaller than a chord is high and the thread fits.","all boss configurations, positions, directions, roofs and qualities","all sizes; number of points depends on the quality",B+"part/boss.py:Boss._initHead",B+"part/boss.py:Boss._initThread")
p("Bosses join the walls smoothly","The outline between a wall and a screw boss is a fillet that starts on the wall right below its center, a straight line that touches both the fillet and the boss, and an arc of the boss up to its far side. No point of it is inside the boss, and all are between the inner side of the wall and the boss's far side, wherever the boss is placed and however the wall is directed.","all boss configurations, wall thicknesses, wall directions and qualities","all reals",B+"part/boss.py:_smoothTransition",B+"part/boss.py:Boss._initWall")
p("The encoder closes its gap","For every sane encoder and every roof that points upwards, the surfaces of the encoder's hole fit together exactly and leave only its outlines in the outer roof, the inner roof and the split plane open, each in the direction that fits to its neighbours: the triangles together with these four paths are balanced.","all encoder dimensions, roofs, tapers and qualities","all sizes; needs coinciding points of six edges",B+"part/encoder.py:Encoder.__init__")
p("The cable hole closes its gap","The surfaces of the cable hole (fillet, bend, bump and taper) fit together exactly and leave only the outlines in the inner and outer wall and in the split plane open, each in the direction that fits to its neighbours. For sensible dimensions and a quality that is not too coarse, the profile of the hole has no sides so short that they would be dropped.","all cable configurations, positions, wall thicknesses and qualities","all sizes",B+"part/cable.py:Cable.__init__")
p("Brackets close their gaps","The surfaces of the corner, roof and floor brackets, with or without ziptie or mount for the circuit board, at the front or at the back, fit together exactly and leave open only the edges and holes that they expose for their neighbours, which join end to end; everything left to the split lies exactly in the split plane, and the edges that meet the inner walls, the roof and the floor profile start and end at the given points (a floor bracket may miss its lip by less than 0.000001, otherwise it fits).","all bracket configurations, positions and qualities","all sizes",B+"part/bracket.py:CornerBracket",B+"part/bracket.py:RoofBracket",B+"part/bracket.py:FloorBracket")
p("The body is watertight","For every configuration with sane dimensions for which a plan and a body are made, on either side, with or without an encoder, brackets, a cable hole and palm rests, the surfaces of the body (roofs with key holes, crease, step, chamfers, walls, ridge, split faces, bottom with threads) fit together exactly: every directed edge of their outlines is cancelled by its reverse. Hence its triangles form a closed surface if no quad of a strip is a sliver and the faces are cut completely.","all configurations for which plan and body are made","all configurations; dozens of edges that have to coincide, with many optional parts",B+"part/body.py:Body.__init__",B+"part/plan.py:Plan.__init__")
p("The floor is watertight","For every configuration with sane dimensions for which plan, body and floor are made, on either side, with or without brackets, hexagonal holes, bumpers and palm rests, the surfaces of the floor (bottom, inner floor, rim, lip, chamfer, split faces, screw heads, recesses, holes) fit together exactly, provided that the lip starts and ends in the split plane and the brackets meet the lip. Hence its triangles form a closed surface if no quad of a strip is a sliver and the faces are cut completely.","all configurations for which plan, body and floor are made","all configurations; many edges that have to coincide, with many optional parts",B+"part/floor.py:Floor.__init__",B+"part/bracket.py:FloorBracket")
p("Bumpers keep their margin in the corners","A bumper in an outer corner of the floor keeps the configured margin from both walls and from all points of the rounded corner, whatever the corner radius and the angle of the corner are, and no more than that: it touches both walls' margins if the corner radius is not larger than its inset, and otherwise the margin of the corner circle at its middle. Every proper corner has a place for a bumper.","all corners, radii, bumper diameters and margins","all reals",B+"part/floor.py:Floor._cornerBumper",B+"part/floor.py:Floor.__init__")
p("The grid of holes stays inside and keeps its margins","For every border polygon in general position, the holes of the floor's grid are regular hexagons (with rounded corners of the configured radius) whose diameters are within the configured limits; everything inside of a hole is inside of the border polygon, convex or not; and any two holes keep the configured margin. A cell of the honeycomb that fits completely into the border always becomes a full hole. A cell near the border that can be shrunk towards one of its corners, which is inside of the border, by a factor that keeps the minimal diameter, becomes a hole: the cell shrunk towards one of its corners by at least this factor. The grid is generated for every non-empty border.","all border polygons, sizes, margins, offsets and radii","all reals, unbounded numbers of cells and corners",B+"part/floor.py:Floor._hexGrid2D")
p("The pieces of the palm rest fit together without a gap","For every plan and configuration with sensible threads and bumpers, with or without grooves, clamps and bumpers, the strips and faces of a palm rest that is generated fit together: every boundary that one piece leaves open is the boundary of another piece, in the opposite direction. If no single piece has a flaw, the mesh of the palm rest is watertight.","all plans, palm rest configurations, grooves, clamps, bumpers and sets of triangles of the pieces","all reals, unbounded numbers of points of the arcs",B+"part/palm.py:Palm.__init__",B+"part/palm.py:Palm._roofSpine")
p("The palm rest has the configured dimensions","For every plan and palm rest configuration whose roof profile is tilted by less than 45 degrees and leaves space between its fillets, a palm rest that is generated keeps exactly the configured margin from the front wall of the body and reaches exactly the configured depth in front of it, on both sides; nothing of its outline is below the ground; the highest point of its left side is at the configured height above the ground; and both sides start at the corners of the wall and taper at the configured angle. Its four bumpers are under its corners, each at the configured inset from both sides of its corner.","all plans and palm rest configurations","all reals, unbounded numbers of points of the arcs",B+"part/palm.py:Palm.__init__",B+"part/palm.py:Palm._roofSpine")
p("A palm rest of sensible dimensions is generated or rejected with a ValueError","For every configuration with sensible angles, lengths and screws, generating the palm rest and its hitch either succeeds or stops with a ValueError; there is never a division by zero, an index out of range or another exception. The hitch itself is always generated.","all plans, palm rest configurations, grooves and bumpers","all reals: a division by zero occurs at single values that no sample hits",B+"part/palm.py:Palm.__init__",B+"part/plan.py:Plan.__init__")
p("The hitch fits into the notch of the palm rest","For every plan and configuration with a palm rest that is generated, the corners of the hitch are on the front wall and exactly margin plus hitch depth in front of it, the screws are in the middle, exactly the configured pitch apart and symmetric to the wall; the sides of the notch are parallel to those of the hitch and further out by more than half the corner radius (plus the margin times the sine of the taper angle), and the front of the notch is in front of the hitch.","all plans and palm rest configurations with a taper of at most 45 degrees","all reals, unbounded numbers of points of the arcs",B+"part/plan.py:Plan.__init__",B+"part/palm.py:Palm.__init__")
p("The two printed halves of the keyboard meet","For every configuration with layouts of both sides that mirror each other, the left and the right half have the same plan (up to the side): the same walls, bosses and palm hitch. The faces of both bodies and both floors in the plane between the halves (x = 0) have the same outlines and the same screw holes, although only one half has recesses for the nuts and the other one for the screw heads; both bodies have the same outline at the bottom, and both floors have the same faces.","all configurations with mirrored layouts, with or without encoder, cable, brackets, palm rest","all reals and both optional parts: a screw hole that is off by a little on one half only shows in a comparison of both halves",B+"part/body.py:Body.__init__",B+"part/floor.py:Floor.__init__",B+"part/bracket.py:CornerBracket.__init__",B+"plan.py:Plan.__init__")
p("Chamfers have the configured size","Every point of a chamfered rim of the body is the corresponding corner of the outline moved inside: it is in the plane of the roof, at the configured chamfer size from both edges that meet in the corner (within a millionth if the corner is almost straight), and the walls end one chamfer size below (outside) or above the edge of the roof. Where two roofs meet, the chamfer of the one ends on their common edge and is parallel to its own edge. A chamfer exists unless a neighbour is directly above or below the corner.","all corners, normals and sizes; all configurations for which plan and body can be generated","the corners are results of the whole layout, over the reals; a wrong offset is at most a few tenths of a millimeter",B+"part/body.py:_chamfer",B+"part/body.py:_parallelChamfer",B+"part/body.py:_cornerChamfer",B+"part/body.py:Body.__init__")
p("The key plates of the body are flat","If the thumb keys have the same tent angle as the pinky keys, then all corners of each of the six key plates of the body (inside and outside, for alphanumeric, pinky and thumb keys), with the outlines of all key holes, are exactly in the plane of that roof; the inner pinky plate is flat for all tent angles.","all configurations for which plan and body can be generated","a face that is not flat is triangulated anyway: the key plate gets a kink that no test of a mesh shows",B+"part/body.py:Body.__init__",B+"plan.py:Plan.__init__")
p("Switch cutouts have the configured size", "For every sane switch, with or without clip notches, sideways or not, the hole of each key is exactly switch.width by switch.depth on the inner side of the roof and wider by the entry chamfer on the outer side; the notches are in the front and back walls (sideways: left and right), have the configured width, depth and taper, and end clip height below the outer side of the roof, unless they would cut through it. No triangle of the key reaches into the column of the switch housing. The key's inner bounds are the hole with the inner margin and the housing down to the pins, its outer bounds are the hole with the outer margin and the cap with its gaps.", "all switch dimensions, roof thicknesses, key sizes and key transformations", "all dimensions; the sideways case swaps width and depth and then turns the key back", B+"part/key.py:KeyFactory.__init__", B+"part/key.py:Key.__init__")
p("Walls keep their thickness at rounded corners","At each of the three rounded corners of a half of the keyboard's outer wall (thumb front, pinky front, pinky back), the inner and the outer side of the wall are, seen from above, arcs around one common center that reach from one ray to the same other ray; the radius of the outer arc is the configured corner radius and that of the inner one is smaller by exactly the configured wall thickness.","Every configuration whose plan and body are built, with convex corners (what is next to a corner along one wall is inside of the other), a non-negative wall thickness and a corner radius that is larger than it.","The corner points come from intersections of planes at arbitrary angles; a test only sees some angles, and a wrong radius or bisector of the thumb corner leaves a closed mesh.",B+"part/body.py:Body.__init__",B+"part/arc.py:cornerArc2D",B+"part/plan.py:Plan.__init__")
p("Supports fit the holes they support","The printing support of a key is inside the key's hole: its base and top are slots with rounded ends, of the configured width and depth, at the configured gaps from the left and right walls, moved sideways by the relative position; no point is closer than the side gap to the front and back walls, or above or below the roof; without relative insets, its underside is the side gap above the bottom of the roof. The file holds one copy, moved like the key, for exactly those keys whose x axis, seen from above, is turned by at most the overhang angle. For sensible dimensions, each support can be made and is watertight, without further assumptions.","Every sane chord quality and every support configuration with sensible dimensions (a base that is thicker than the top and thinner than the roof, straight parts of at least 1 mm, relative values between 0 and 1), and every list of key placements.","A test checks one configuration; an offset or a wrong radius still gives a closed mesh, and whether slivers appear depends on all dimensions.",B+"part/support.py:SupportFactory.__init__",B+"part/support.py:SupportFactory.make",B+"part/support.py:Support.__init__")
p("Knobs fit their shaft and have the configured outline", "The knob that is generated (upside down) has a flat top, a chamfer that is a cone of 45 degrees and not higher than configured, an outer wall between the full radius and the depth of the grooves, a round skirt hole of the configured thickness, and a shaft hole that starts at the skirt and ends below the roof. Each of the grooves reaches the configured depth, exactly at its multiple of the segment angle, and between two grooves the outline reaches the full radius. No corner of the shaft hole is inside the D-shaped shaft, below the flat side every corner is on the shaft's circle, and on both sides a prong touches the flat side. Knobs whose grooves fit beside each other can be generated if the allowed deviation is small compared to the roundings.", "Every chord quality and every knob configuration with sensible dimensions, any number of grooves (including none).", "The positions of the arcs come from intersections of circles, tangents and bisectors; a test sees a few sizes and cannot tell that a hinge or a prong never enters the shaft.", B+"part/knob.py:Knob.__init__", B+"part/knob.py:Knob._grooveSketch2D", B+"part/knob.py:Knob._shaftSketch2D")
p("Encoder holes have the configured shape and place", "The encoder is placed at a point of the outer roof and along its normal: the hole around this axis has the configured diameter (never less, even where a taper replaces its ceiling), its chamfer opens it at the outer side of the roof, it ends at the configured height, and there a box of the configured width and depth around the axis begins, which reaches parallel to the axis to the inner side of the roof, with notches for the pins at its sides. In the body, the encoder is in the middle between both halves and at its relative position between ridge and step. An encoder hole can be made for every sensible configuration and roof.", "Every chord quality, taper, encoder configuration, and pair of roof planes; every body with an encoder.", "The walls of the box end at intersections with a plane of arbitrary inclination, after an alignment by arbitrary angles; a test sees a few of them.", B+"part/encoder.py:Encoder.__init__", B+"part/body.py:Body.__init__")
p("Cable holes have the configured shape and bend the cable gently", "The hole for the cable goes through the wall with the cable's diameter (never less, even where a taper replaces its ceiling) and widens towards the outside along a quarter circle of the fillet's size. Inside, below the hole, is a bump with a groove: every cross section of the groove is the lower half of the hole, and it follows a circle of the configured minimal bend radius from the horizontal to 45 degrees, and then the rounded tip. The underside of the bump is tangent to the tip at the taper angle and ends at the wall; its side is at the configured width. A cable hole can be made for every sensible configuration.", "Every chord quality, taper, cable configuration with sensible dimensions, bracket length, position and wall thickness.", "The hole is swept along arcs with numbers of points that depend on the quality, and the taper line is intersected with the wall; a test sees a few configurations.", B+"part/cable.py:Cable.__init__")
p("Parts that do not fit are rejected", "A body is only made if its parts fit: chamfers at least as large as the roundings raise ValueError at once; in every body that is made, each boss in a wall ends before the corner or crease next to it and stands out of the wall by at least a tenth of its thickness; the brackets and the bump of the cable hole end above the lip of the floor (with its margin), the front bracket stays in front of the ridge and beside the thumb's roof, the back bracket ends before the wall's end at the ridge, and the cable hole is above the ground and at the split; a floor is only made if, seen from the side, its front bracket does not cover a corner of the body's front bracket, and its back bracket does not cover a corner of the body's back bracket grown by the cable's diameter.", "Every configuration and both sides, for every body that is made; the cable claims for sensible cable dimensions.", "The checks compare single points of the parts (first or last points of polylines after projections and collapsing of short edges); that these are the extreme points of the whole part, for every configuration, is not visible to a test of a few.", B+"part/body.py:Body.__init__", B+"part/cable.py:Cable.__init__", B+"part/bracket.py:CornerBracket.__init__")
p("The floor has the body's outline, its configured heights and a lip at the configured distance from the wall", "The floor is made of flat faces at the configured heights: its underside at minus the outer height, its rim (the joint to the body) at zero, the top of its lip at the lip height and its inside at the inner height (except for the tapered places of the brackets). The outline it takes from the body goes exactly once around the underside of the body (apart from the points at which body faces only bend). The rim of the floor has that outline; its lip follows the inside of the wall at exactly the lip margin, its inner side at margin plus thickness, and its foot at margin, thickness and chamfer, in the order of the corners, as long as no side of the outline vanishes and no two moved sides run into each other; the offset outline begins at the corner nearest to the original start. For an outline of any shape, the offset outline consists of parts of the moved and joined sides, in their order, that do not cross each other any more (short sides are dropped). The thread, clearance and countersink holes of body and floor are concentric around the same positions.", "Every configuration with sensible floor dimensions, both sides, with or without brackets, bumpers, hexagonal holes and palm rest; for the lip: every outline without special cases, of every length.", "Offsets are computed by chains of line intersections over outlines whose number of points depends on the configuration; a test sees only a few outlines.", B+"part/floor.py:Floor.__init__", B+"part/floor.py:_naiveOffset2D", B+"part/body.py:Body.__init__")
p("The screws of the brackets keep their configured margins","The screw of a corner bracket keeps exactly the configured margins from the wall, from the (inclined) roof, from the bottom of the bracket and from its tapered side: measured to the nearest corner of the nut or the nearest point of the screw's head, whichever is closer, whatever the inclination and the taper are; the back bracket adds the configured extra margin at the corner and the inset of the cable. The bracket at the front is the mirror image of such a one. A floor bracket keeps exactly the margins from the floor and its tapered sides, and at least the margin from the lip; its foot is on the outer side of the lip or not before its inner side. A roof bracket (without a mount) turns with the roof; its screw keeps exactly the margins from the roof, from its apex and from its tapered sides, and it divides the rest of the roof 85 : 15. With sensible dimensions all three kinds of brackets are made without an exception; the back bracket with a ziptie for the cable is made exactly if there is room between the bend at the wall and the bend at the bracket's hump, otherwise a ValueError tells so. The screw hole goes from the split plane to the counterbore of the configured depth, is nowhere narrower than its diameter, and the nut's recess is exactly the hexagon with the configured distance of its sides.","all bracket configurations, roofs, walls and lips for which a bracket is made","all reals: the distance of a tangent of a hexagon depends on an angle modulo 60 degrees",B+"part/bracket.py:CornerBracket.__init__",B+"part/bracket.py:FloorBracket.__init__",B+"part/bracket.py:RoofBracket.__init__",B+"part/bracket.py:_hexTangentDist",B+"part/bracket.py:_screwHole")
p("Firmware counters never overflow","The counters of the firmware are unsigned C variables that are never checked for overflow. They stay small in every run, however long the device is powered and however the keys are used: the Fn tap counter never exceeds FN_KEY_TAPS plus the number of Fn keys, the BOOT tap counter never exceeds BOOT_KEY_TAPS, the timeout of the encoder and the counter of the LED never exceed the configured numbers of ticks, and keycodes, consumer codes and the LED pattern fit their types.","all key maps, settings and runs (sequences of scans of any length with any key levels, encoder levels, USB states and host requests)","a counter overflows only after a long and unusual history; tests run for short ones","firmware/chrumm/matrix.c: report","firmware/chrumm/encoder.c: report","firmware/chrumm/led.c: led_tick","firmware/chrumm/hid.c: addKeycode")
p("An idle keyboard is silent","On each of the two USB interfaces the firmware offers a report to the USB stack only if a usage of that interface was pressed or released since the last accepted report (or since power-on), and at most once per iteration of the main loop. An idle keyboard sends nothing, whatever the host, the USB stack and the other interface do.","all key maps, settings and runs of the main loop, with any pattern of ready and accepted flags of the USB stack","a spurious report depends on an interleaving of flags of the USB stack over an unbounded history","firmware/chrumm/hid.c: hid_tick, addKeycode, removeKeycode, addConsumer")
p("The shipped configuration meets the assumptions",
  "The dimensions in the shipped chrumm.json satisfy the assumptions under which the other claims about the body, the floor, the palm rest, the screws, the supports, the brackets and the cable hold. From them the layout, the closed key hole, the watertight support, the encoder's hole, the hole for the cable, the bracket with the cable's ziptie, the other brackets, the hexagonal holes and the bumpers can always be made, wherever they are in the keyboard; a palm rest that is made is watertight, and its generation never fails unexpectedly for keyboards at least 60 mm wide; a body or floor that is made is watertight if its reference points at the split plane are in their usual order.",
  "all positions of the cable in walls of at least 1.6 mm; all roofs that do not rise by more than 45 degrees; all palm rests at least 60 mm wide",
  "the places of cable, bracket and palm rest depend on everything else in the configuration, tests see one of them",
  "body/chrumm.json","body/chrumm/cfg.py")
json_lines="\n".join(json.dumps(x) for x in P)+"\n"
open("/verif/properties.jsonl","w").write(json_lines)
print(len(P))
for x in P: print(x["id"],x["title"])
