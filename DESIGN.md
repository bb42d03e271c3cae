# Formal model of sevmeyer/chrumm-keyboard in Lean 4

The repository has two independent programs: the Python generator of the keyboard body
(`body/chrumm`) and the C firmware (`firmware/chrumm`). Both are modelled function by function in
`lean/Verif/`; the properties of `properties.jsonl` are proved in `lean/Verif/Props/`.

## Layout

* `Verif/Fw/*.lean` - firmware model (debounce, matrix scan, layers, HID report, encoder, LED, main loop).
* `Verif/Geo/*.lean` - `body/chrumm/geo` model.
* `Verif/App/*.lean` - `cfg.py`, `stl.py`, `make.py`, `__main__.py`.
* `Verif/Part/*.lean` - `body/chrumm/part/*` and `pcb.py`.
* `Verif/Spec/*.lean` - small specifications, written without the model's helpers.
* `Verif/Props/*.lean` - the property theorems (named `Cnn_...`), each with a non-vacuity example.
* `seeded/` - the mutation runner and the log of wrong programs; `tools/` - generators of `properties.jsonl` and
  `MANIFEST.json`.

## Conventions

* A raised Python exception is a value `Except.error e`; a C function is a state transformer and its
  calls to the SDK (`reset_usb_boot`, `tud_*`, `gpio_*`) are parameters or output actions.
* Real arithmetic: the geometry is modelled over `ℝ` (IEEE rounding is not modelled). Combinatorial
  functions (mesh strips, ear cutting, hole merging, flipping, file assembly) are modelled generically
  over the point type and the geometric predicates, so their theorems hold for *any* arithmetic,
  including the floating point one, and are then instantiated at `ℝ` where area statements are made.
* Python's `set.pop()` order is an arbitrary schedule; theorems quantify over all schedules.
* `multiprocessing.Pool.map` is an order preserving map that may raise (documented contract).

## Plan per property

| Property | Model | Proof |
|---|---|---|
| C01-C05 | `debounce` on a byte, per-key state array, sample histories | induction over histories with a counter invariant; refinement to a signed integrator spec |
| C06-C09, C17 | `report`, `hid_*` over full firmware state, any keymap | invariant by induction over event histories; C09 is refuted by a concrete history (double removal of a modifier), the rest is `_partial` |
| C10, C11 | layer/tap state machine | characterisation by a spec function of the event history |
| C12-C14 | encoder decoder table and virtual key timer | invariant; winding-number potential for quadrature paths |
| C15, C16 | LED state machine | closed form by induction on ticks |
| C18 | scan as a list of GPIO actions | induction over rows/columns |
| C19-C24 | `Vector`, `Matrix`, `Triangle` | algebra over `ℝ`; C23 refuted for antiparallel input, proved otherwise |
| C25-C30 | `Line`, `Plane`, `Segment`, `Circle` | algebra over `ℝ`, exceptions characterised |
| C31 | monotone chain as a stack machine | loop invariant (convex chain, all points on one side) |
| C32, C33 | strip meshes generic in the choice oracle | boundary chain via antisymmetric edge functionals, induction |
| C34 | crossing number loop | mod-2 chain homomorphism, triangle case by algebra; constant on paths: the two crossing numbers differ by a cycle sum |
| C35 | `collapsed` | list reasoning; full claim refuted by a witness |
| C36-C42 | `Face.triangulate` and its three phases | chain invariants; flip termination by the lifted paraboloid potential |
| C43 | byte level encoder and an independent decoder | induction over triangles |
| C44-C47 | `make`, `main` with parts abstract | case analysis and list induction |
| C48-C50 | JSON trees, recursive merge into namespaces | induction over trees and config lists |
| C51 | `Layout` with both sides, columns, staggers | list induction; success characterised |
| C52 | `_flattenLayout`, `toKiCadFootprint` over a finished plan, number format as parameter | rotation algebra on the rigid motions of C74; success from a bound on the tent angles |
| C53, C54, C67 | `arc2D`, `cornerArc2D`, upright holes | trigonometry; sagitta bound; tangency from orthogonality; lower bound for chords from `2/pi * x <= sin x` |
| C55, C72 | `_fitBoss2D` with its endless loop as a separate outcome; bosses of the plan | termination measure; invariants preserved by later wall moves |
| C56, C69 | `_wallLines2D`, walls of the plan | minimum over all bounds, preserved by the remaining steps |
| C57, C58 | knob, support | chain calculus: `Fit` of pieces over C32 and C42 |
| C59 | bumper recess | explicit rings, strip boundaries of C32 with `GoodQuad` proved |
| C60 | projection of a face before triangulation | sign of the transformed normal |
| C61 | `Edge.distance2D`, signed distance to hulls | minimum over segments |
| C62 | ear cutting of convex polygons | existence of an acceptable ear, induction |
| C63-C65 | `Segment.offset2D`, moved lines/planes, triangle measures | algebra over `ℝ` |
| C66 | `getopt` with abbreviations, `main` | list induction; spec as a function on argument lists |
| C68, C70, C71, C73, C74 | all steps of `Plan.__init__` | one record (`Made`) of facts about all intermediate values, each step shown to preserve the earlier ones |
| C75, C76 | `Plan.make` on pairs of configurations | equality of runs; translation equivariance of each step |
| C77 | key hole meshes with clip notch | explicit strips, `GoodQuad` for all degenerate cases |
| C78, C79 | screw head, thread, wall fillet | rings as in C59; tangency |
| C80-C82 | encoder, cable hole, brackets as pieces | `Fit` with the open edges that they leave for others; `C81_apart`: every two neighbours of the hole's profile are apart, from the lengths of chords (C53) |
| C83 | `Body.__init__` as pieces | `Fit` of all faces and strips with C77, C78, C80-C82 (`C83_cable`: also with a cable hole, from its dimensions alone) |
| C84 | `Floor.__init__` as pieces; `FloorMeets.lean` | `Fit` with C59, C78, C82; C84_lip/C84_brackets: with a lip thicker than 0.000001 (or a bracket that is wide enough) the split edges of the brackets end exactly at the lip; `FloorWith.lean` makes a whole floor with brackets |
| C85 | `_cornerBumper` | planar trigonometry |
| C86 | `_hexGrid2D` | invariants of the loops; a fan of triangles at the fixed corner, walked along paths that avoid the border (C34_path); lattice directions for the margins. C86_largest: a cell near the border that can be shrunk towards a corner by a factor φ gives a hole whose factor is at least φ (loop invariants with lower bounds, and the intersection theorem C29 for the meaning of each hit) |
| C87 | `Palm.__init__` as pieces | `Fit` with C59 and C78 |
| C88 | `_roofSpine`, the outline and `placeMatrix` of `Palm.__init__` | the profile as a path from right to left, arcs by their angles, then the placement; `C88_bumpers`: the four recesses are at the configured inset from the sides of the outline's corners |
| C89 | `Palm.__init__`, the hitch of `Plan.__init__` | every step is an `ok` or a `ValueError`: division by division, from the bounds on the angles |
| C90 | the hitch of `Plan.__init__`, the notch of `Palm.__init__` | both in coordinates along and from the front wall; the check of palm.py:135-139 gives the gap |
| C91 | both halves: `FullPlan`, `Body`, `Floor` for both sides | relation of two runs through every bind (`Rel`); screw holes with and without nuts start with the same ring |
| C92 | `_chamfer`, `_parallelChamfer`, `_cornerChamfer` and their use in `Body.__init__` | planar geometry in the plane of the roof; the steps of `Body.__init__` as one record (`Body.Parts`) |
| C93 | the six plates of `Body.__init__` | each corner is in its roof: by C68, C92 and the intersections of the plan |
| C94 | `KeyFactory.__init__`, `Key.__init__` | exact vertex sets of both holes and of the bounds, by cases on the sideways turn; corners of all triangles from the vertices of `meshPairwise` |
| C95 | `Body.__init__` (corner arcs), `cornerArc2D`, the thumb corner of `Plan.__init__` | the center of a corner arc is as far inside of both sides as the radius; inner and outer corner are offset by the thickness (C69, C70, the thumb corner's plane is a bisector, C70_thumb) |
| C96 | support | both ends are slots `(List.range (n + 1)).map …` on both sides; convexity from product formulas for the areas; `C58_solid` needs no assumption about meshes (C62 for the ends, C32 for the side) |
| C97 | knob | trigonometry of the arcs: every arc point is `circlePoint c r (start + s * span)`, `s` in [0,1] (C53); the corner center is the second intersection of two circles (C30); bounds for the hinge from its two tangents. `C97_succeeds` + the default knob for non-vacuity. Not checked by the code: too many grooves overlap silently (hypothesis `GroovesFit.fit` of `C97_succeeds`) |
| C98 | encoder | `Placement` (rigid, moves the z axis to the normal) from the alignment matrix (C17/C18); walls of the hole from C67; the walls of the box by the intersection of line and plane; `C98_body` unfolds the body; `C98_succeeds` + a default-like encoder for non-vacuity. The alignment is inexact for normals that are upwards but for rounding (hypothesis `NotAlmostUp`) |
| C99 | cable | points of the half holes from C67 scaled by the fillet's radii (C53); the bump profile is two eighths of circles and a tangent; `C99_succeeds` for sensible dimensions, default cable as example |
| C100 | the checks of `Body.__init__` and `Floor.__init__`; `Collisions.lean`, `FloorBrackets.lean` | unfolding of the success case; the first/last point of the cable's split edge is the lowest of the bump/hole (`cable_heights`, from C99 and `collapsed`), so that the code's check of one point covers the part. Finding: bosses that stand out by less than a tenth of the wall have no wall edge, and the body raises IndexError instead of being made (`C100_protrude`) |
| C101 | `Floor.__init__`, `_naiveOffset2D`; `Spec/Offset.lean`, `FloorShape.lean`, `OffsetClean.lean`, `OffsetStart.lean` | heights: every step of the offset keeps the height (induction over the connect and cut loops); outline: the body's bottom face and the outlines are the same concatenation up to rotation and crease points; offset: `CleanOffset e d closed q` says that `q` has its corners on the moved sides, that no side vanishes, that sides that do not follow each other do not meet and that corners are either smooth or not nearly parallel; then `connect` (in-place, induction over the steps with an explicit invariant `connected`), the cut loop, the filter and the second `connect` return a rotation of `q`. For outlines for which the cut loop removes something, `OffsetCut.lean` (`C101_cut`): induction over the loop; what is left consists of parts of the moved sides in their order (a strictly increasing index), is closed, begins at the same corner, and no side meets a later one except at its own end, because each side ends at its nearest intersection; the second `connect` keeps a closed outline. Not covered there: the joints of sides next to dropped ones (shorter than 0.001). `C101_start`: every offset outline begins at its corner nearest to the original start. |
| C102 | `CornerBracket.__init__`, `FloorBracket.__init__`, `RoofBracket.__init__`, `_hexTangentDist`, `_screwHole`; `Spec/Bracket.lean`, `BracketShape.lean`, `BracketRoof.lean`, `BracketSucceeds.lean` | the largest extent of the flat hexagon in a direction is max(|u|, |u|/2 + √3/2·|w|) (over its six corners); `_hexTangentDist` equals it by its period of 60 degrees; a margin is then the least distance over the points of nut and head. For the floor bracket the collapsed arch keeps both feet (the corner takes away at most its diameter). The roof bracket is sketched around a screw at the origin and moved by a rotation and a translation, under which the margins are the same. `BracketTop.lean`: the circle of a rounded corner below a level line touches that line, so the floor bracket does not reach above its top. `BracketZip.lean`: the ziptie's hump, the cable's bend around it and the hole of the ziptie exist iff the two bends of the cable do not overlap (`CableRoom`). Not covered: the position of a roof bracket with a mount. |
| C103 | all of the firmware model; `Bounds.lean` | invariant over the micro steps: the Fn counter is at most `FN_KEY_TAPS` plus the number of Fn keys that are down in the debounce bytes (a press adds one key, every release resets or leaves it), the other variables by their updates; this justifies that the model's counters are unbounded natural numbers |
| C104 | `hid_tick` and the pending flags; `Spec/Traffic.lean`, `Traffic.lean` | invariant over the micro steps and the trace: a flag is set only if a call of the interface's page follows the last accepted report; stated about the trace of actions alone, for both interfaces at once |
| C105 | chrumm.json transcribed value by value; `Spec/Shipped.lean`, `Shipped.lean` | the shipped dimensions are shown to meet the `Sane…` assumptions by estimates of π, cos and sin; the theorems of success are then applied to them |

"As pieces": the triangles of a part come from `meshPairwise` strips, triangulated faces and other parts. The model keeps the
pieces (`Part/Pieces.lean`) in the order of the program, because `Face.triangulate` may return different triangles for the
same face (`set.pop`). `Spec.Fit` says that the directed outlines of all pieces cancel out. `C83_watertight` and its
siblings add what turns this into a closed triangle mesh, for each possible outcome of the triangulation: no quad of a strip
is a sliver or folded (`GoodQuad`, needed: C32), each face is cut completely (V + 2H - 2 triangles, C42), and collapsing an edge
merges only points that coincide.

## What is modelled, and how

* Firmware (`firmware/chrumm/*.c`): every function of the scan, debounce, layer, HID, encoder and LED modules. USB and GPIO
  calls are recorded actions, the time is an input. Not modelled: TinyUSB, SDK, electrical behaviour, interrupt timing.
* `geo/*`: all functions used by the program, over `ℝ` instead of doubles. Comparisons with 1e-6 etc. are kept. `ZeroDivisionError`,
  `ValueError`, `IndexError`, `AttributeError` and `TypeError` are outcomes. A negative number to the power of 0.5 is complex in
  Python: outcome `Exn.complexResult`. `math.atan2` is `Complex.arg`. Objects that Python changes in place are values that are replaced;
  where two names refer to the same object and one of them is changed (segments in `connect`, keys in a layout), the model updates
  the shared place.
* `face.py`: holes, ears and flips are generic in the geometric predicates, `set.pop` is an arbitrary schedule.
* `part/*`: arc, key, layout, wall, plan (complete, with palm hitch), boss, bumper, support, knob, encoder, cable, bracket (all three),
  body, floor, palm. Types in the configuration are those of the documented settings (a list where a number is expected is
  not modelled). Loops that never end have the outcome `Exn.diverges`. Log messages and warnings are not modelled. Where Python evaluates
  several expressions of which more than one would raise, the model keeps the order.
* `pcb.py`: complete; the formatting of numbers is a parameter.
* `cfg.py`: merging of parsed JSON trees; `json.loads` and `str.isidentifier` are parameters, `lower()` is ASCII lower case.
* `stl.py`: bytes; `struct.pack('<f')` is a parameter.
* `make.py`: parts are parameters; `Pool.map` with its chunks and first error is modelled from CPython's documentation.
* `__main__.py`: `getopt` modelled from CPython; file reading, writing, `int()` and `Path.stem` are parameters.

## Trusted base

Lean's kernel and the axioms `propext`, `Quot.sound`, `Classical.choice` (checked with `#print axioms` for all theorems named in
the manifest; there are no others); the faithfulness of the model to the cited lines; the reading of CPython's documentation for
`getopt`, `multiprocessing`, `set.pop`. Not modelled: IEEE-754 rounding, the JSON parser, the file system, the TinyUSB and
Pico SDK internals, electrical behaviour, timing of the main loop.

## Findings

Claims that are false of the code, or conditions that turned out to be necessary:

* C09: after pressing a modifier on both layers and releasing one, the host can keep seeing Shift (hid.c, stale flag overwritten).
* C23: `Matrix.fromAlignment` of (nearly) antiparallel directions is not the alignment.
* C32: a folded quad gets a triangle whose boundary is not that of the quad; `GoodQuad` is needed.
* C35: `collapsed` compares neighbours of the original edge, so the result can still have short segments.
* C45: without any faces and with more than one thread the program raises `IndexError`.
* C52: the footprint is empty unless the thumb keys are within 1e-6 of the plane of the pinky keys.
* C53: `arc2D` raises `ValueError` for a radius below half of `maxChordHeight`, `ZeroDivisionError` for a zero span.
* C55: `_fitBoss2D` never ends for diameters of -1 or less; bosses are only kept away from the two keys beside them.
* C67: the straight sides of a half hole are tangent only for 45 degrees.
* Plan: straight thumb keys without split and with a taper of 0 raise `ZeroDivisionError`.
* Body: `IndexError` if a boss protrudes less than a tenth of the wall thickness; a corner radius below 1e-6 more than the wall
  leaves a crack.
* Support: `ZeroDivisionError` if the roof thickness equals `baseDepth` or `topDepth`, even if the insets are configured.
* Floor bracket: an arch that ends within 1e-6 of the lip, but not at it, leaves a crack (`MeetsLip` is needed; `C84_lip` proves it for lips thicker than 1e-6).
* The cable is ignored without brackets.
* Hexagonal holes: the grid loop never ends for a non-positive pitch; if `minDiameter` is not positive and no corner of a hexagon is
  inside, `scaled` is called with `None` (`AttributeError`); with a wall margin of about 0 the border keeps its height and the
  distances are those of the lifted border, so that a hole may include a corner of the border (`CleanBorder.flat`). Corners of the border
  within 1e-6 of the corner of a cell are skipped (`CleanCell`), and sides that are nearly parallel to a diagonal do not cut it
  (`CleanBorder.angles`).
* Palm: the checks for a notch that is too small come after the corner arcs; if the notch ends exactly at the front, or its front
  has no width, there is a `ZeroDivisionError` instead of the explanation; likewise if a tilt of 45 degrees leaves no end arc. For a negative
  taper angle the check ignores the margin, so that a hitch that passes can touch the notch (`gap` in `C90_fits`).
* Body: a straight keyboard without split (front wall parallel to the x axis) always raises `ZeroDivisionError` at the front corner next
  to the split, because its three points are on one line.
* If the thumb keys have another tent angle than the pinky keys, the three roofs have no common line (the pivot is at the height of the caps):
  all key plates but the inner pinky plate are then slightly bent (C93). With the same tent angle for alphanumeric and thumb keys
  there is always a `ZeroDivisionError`.
* If the layouts of the halves are not symmetric, the halves may fit their bosses differently, so that the walls do not meet (C91).
* Body: if a boss stands out of its wall by less than a tenth of the wall's thickness, it has no bump, and the check of overlapping
  bosses takes the last point of an empty edge: an `IndexError` instead of a keyboard (body.py:108-114).
* If the front wall leads to the front instead of the back, the corner at the thumb keys is concave. The code still gives the larger
  radius to the outer arc, so that the wall is thicker there (the hypothesis `thumbI` of C95).
