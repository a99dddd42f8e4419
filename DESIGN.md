# Formal model of GEAR in Lean 4

## Method

The C++ source in /repo is read as text and transcribed, function by function, into total Lean
functions under `lean/Verif/`. Each definition cites the file and lines it models and names its
simplifications. Property theorems live in `*Props.lean` files, apart from the model and from helper lemmas.

* Outcomes of a call are explicit: a value, a C++ exception (by class), or undefined behaviour
  (out of table read, null dereference, use after free). Loops without an evident bound are run
  with fuel, and non-termination is the statement that no fuel suffices.
* `double` is modelled by exact numbers: an arbitrary linearly ordered field (with floor where the
  code truncates) or the reals where trigonometry or square roots are used, and the rationals where
  numbers are printed. Rounding, overflow, NaN and infinities of IEEE arithmetic are not modelled.
* `int` pad indices are `BitVec 32` / range-checked `Int`.
* `std::map` is a list sorted by key; `std::vector` is `List`; `std::string` is `String` / `List Char`.
* XML elements are trees (name, attribute list, children); printing and parsing are on characters.

## Trusted base

Lean's kernel, the axioms `propext`, `Classical.choice`, `Quot.sound` (used through Mathlib), and the
faithfulness of the transcription. No other axioms, no `sorry`, no `native_decide`/`bv_decide`.

## Properties and plan

* **C01** Named parameters: last write wins, types and keys are isolated. Six sorted association lists, op type `Op`, `run`; last-write semantics by induction over the history (Params).
* **C02** Key listings are exact, sorted and duplicate free. Same model; key cache as part of the state, listing is an op; sortedness invariant (Params).
* **C03** Manager sections: getters return the last object set, or throw. Slots as a function from a section enumeration to `Option Ptr`; induction over histories (GearMgr).
* **C04** Generic parameter collections in the manager. Sorted association list plus deletion log (GearMgr).
* **C05** Forward calorimeters always carry a beam crossing angle. Setter composed with the parameter model of C01 (GearMgr).
* **C06** Material registry: unique names, failed registration changes nothing. Material map state machine, explicit throw outcome (GearMgr).
* **C07** The manager frees every object handed to it exactly once. Heap of object ids with `live/freed` count; `cleanup` model. False in general: witnesses for leak on replacement, double free, use after free; partial theorem for histories that hand over every pointer once and never replace (GearMgr).
* **C08** Pad index encoding is invertible. `BitVec 32` model of the shifts and masks, bridged to `Int`; proved for all row < 65536 / pad < 65536 (PadIndex).
* **C09** getPadIndex rejects exactly the non-existing pads. Explicit `ub` outcome for out of table reads, `size()-1` unsigned wrap modelled. False: negative pad numbers / negative rows / empty layout; partial theorem for non-negative arguments and non-empty layouts (PadIndex, RectLayout).
* **C10** Rectangular rows stack without gap or overlap. Row list over an arbitrary ordered field, induction over the build history (RectLayout).
* **C11** Rectangular: pad counts and pad lists agree. Same.
* **C12** Rectangular: a rejected addRow leaves the layout unchanged. False (`_nPad` is updated before the check): witness and a partial theorem for the other observables and the other failure cause.
* **C13** Rectangular: repeatRows repeats the pattern exactly count times, once. Same model; `repeatRows` as a loop with unsigned counter; count 0 wraps (finding).
* **C14** Rectangular: pads of one layout do not overlap. Order reasoning on the tiling invariant of C10.
* **C15** Rectangular: a pad's centre belongs to that pad. Arithmetic on the tiling invariant; search analysed for the centre point.
* **C16** Rectangular: getNearestPad terminates with an existing pad for every point. Search loop with fuel; outcome `ub` for out of table reads, `diverge` when no fuel suffices. False: oscillation witness and out of bounds witness; partial theorem for row heights that only grow or only shrink (convexity of the row edges), and a bound on the passes of every search that ends (pigeonhole).
* **C17** Rectangular: the point's pad is the nearest pad. As C16.
* **C18** Neighbour navigation is inverse and stays in the row. Index arithmetic, one theorem per layout class.
* **C19** Copies of a pad layout answer every query like the original. `copy` functions modelled field by field. False for the rectangular layout (pad lists of copies are empty), proved for the others and for all other queries of the rectangular one.
* **C20** Rectangular: distance to a pad is the Euclidean distance to its box. Real plane; `IsLeast` over the box, expressed with squared distance and `Real.sqrt`.
* **C21** FixedPadAngle: every point in the covered sector has a valid nearest pad. Ordered field with floor and a constant for pi. False at phi = phiMax; partial theorem for phi < phiMax.
* **C22** FixedPadSize: rows and pads fit into the declared disk. Ordered field with floor; constructor as a total function with explicit throw.
* **C23** FixedPadSize: pad centres map to their own pad and nearest pads exist. As C22.
* **C24** Versatile: the plane extent covers all rows. Constructor/addRow history. False (only the last repeated row is seen, first row compared with 0): witness and partial theorem.
* **C25** Versatile: counts and failed adds. History with failing row constructor. False: `_nPad` is advanced before the throw; partial theorem for histories without failures.
* **C26** Versatile: nearest pad is in the row with the smallest distance. Brute force minimum over rows; proved for an arbitrary distance function.
* **C27** Module coordinates: local/global conversion is a round trip. Real plane, `Real.cos/sin`; complex rotation algebra.
* **C28** Module transformation does not depend on the order of setters. Setter state machine with the stale flag. False for setZPosition; partial theorem for the other setters.
* **C29** Cartesian module extent encloses the whole pad plane. Bounding box of the four rotated corners contains the rotated rectangle; convexity argument.
* **C30** TPC: module IDs are unique and rejected modules change nothing. State machine over the module list with throw outcomes.
* **C31** TPC: halves. Same.
* **C32** TPC: plane extent is the smallest box around all modules. Fold of componentwise min/max; permutation invariance.
* **C33** TPC: nearest module minimises the distance. First strict minimum of a fold; proved for an arbitrary distance.
* **C34** TPC: inside tests are the union over modules. Fold of `||` = exists.
* **C35** TPC: cathode position. Arithmetic of setCathodePosition.
* **C36** TPC parameters can be copied. Copy as a recursive call with fuel: no fuel suffices. The property is false; proved negation.
* **C37** GlobalPadIndex is a strict total order consistent with equality. Direct order reasoning on pairs of Int.
* **C38** Vector3D constructors and accessors agree. Real vectors, `Complex.arg` as atan2.
* **C39** ZPlanar layers: getters return what addLayer stored. History of pushes.
* **C40** ZPlanar: a point is reported exactly in the ladder or sensitive volume that contains it. Geometry over the reals: boxes placed by azimuth, the code's angle tests against them. False on the negative y axis, for offsets beyond half the width and for start angles outside of a full turn: witnesses; partial elsewhere; soundness up to an explicit tolerance.
* **C41** ZPlanar: the vector to the nearest ladder leads to a nearest point. Projection and clamping onto the six faces; fold over ladders and layers with the least distance as invariant. False at the origin, for layers of one ladder and for ladders that reach far around: witnesses; partial for the volumes that are near in angle.
* **C42** ZPlanar: the first crossing of a straight line with a ladder. Slab argument for the six faces; fold over ladders and layers. Soundness proved; first crossing proved for z >= 0; false for negative z (the border interval is empty) and without a gap (the zero vector of a missed plane counts as a point): witnesses.
* **C43** ZPlanar: start and end angles of the inner and outer faces. arctan geometry over the reals. Inner angles proved; the outer ones belong to the other volume (flag swapped): proved as such, refuted as stated.
* **C44** FTD: disks are mirrored pairs for any number of layers. Index arithmetic, `at()` with throw. False unless N = 7; exact characterisation.
* **C45** FTD: sensors sit on the support surface. Arithmetic with explicit throw outcome.
* **C46** FTD: point queries find the layer. False: always -1; proved negation for every layout.
* **C47** Calorimeter layers are contiguous and the extent is their hull. History of pushes.
* **C48** Telescope planes: getters return what was added. History of pushes.
* **C49** Surface coordinates: local/global round trip. 3x3 orthogonal matrices.
* **C50** Surface boundaries are exactly the documented shapes. Order reasoning over the reals.
* **C51** Surface store: unique IDs and one successful fill. State machine with a list of additions that may throw in the middle. False for failure atomicity; partial.
* **C52** Tokenised vectors round trip. List of characters; split/join.
* **C53** Named parameters survive the XML round trip. XML element tree model; false for empty values and blanks, partial on the well-formed class.
* **C54** Numbers are written with ten significant digits. `%.9e` and `atof` over the rationals.
* **C55** Integers survive the XML round trip. `%d` and `atoi` on digit lists.
* **C56** Attribute values survive escaping. PutString and ReadText/GetEntity on character lists. False for values containing `&#x`; partial otherwise.
* **C57** XML documents survive saving and loading. Printer and parser on character lists, mutual induction on trees.
* **C58** Calorimeter layers survive the XML round trip. Run-length coding over lists with tolerance. Exact for layer lists in which close layers are equal; drift witness.
* **C59** Calorimeter sections come back into the slot they were written from. Substring routing decision on the fixed names.
* **C60** Vertex-type (ZPlanar) sections survive the XML round trip. Tree model.
* **C61** FTD sections survive the XML round trip. Tree model with C44 accessors. False for N > 7.
* **C62** Telescope sections survive the XML round trip. Tree model. False for rotations/resolutions; TrackerPlanes cannot be re-read.
* **C63** Pad layouts survive the XML round trip. Tree model; what is read back is characterised for every layout of the four classes. Proved for rectangular layouts without `repeatRows` and for fixed pad sizes; refuted for repeated rows, fixed pad angles and versatile layouts.
* **C64** TPC sections survive the XML round trip. Tree model (XmlTpc/XmlTpcProps) for every TPC built by the API; layouts under C63. False for the drift velocity, for readout frequencies above nine and for polar TPCs with a Cartesian layout.
* **C65** B field and materials survive the XML round trip. Tree model.
* **C66** createGearMgr: a failing parse never yields a manager. State machine of the cached manager pointer. False after a failure.
* **C67** Merging keeps all information of the dominant file. Tree merge by structural recursion (XmlMerge); kept part: relation `Keeps`, for all documents; added part: relation `Adds`, if elements can be told apart by name. False for content below unnamed elements, for everything outside the three sections, and for repeated elements that are not adjacent.
* **C68** Merging terminates without invalid memory access for all gear files. Null dereferences as `ub`; the swapping of the files as state. False for common named elements without content, missing sections, and repeated calls with the first file dominant; proved otherwise.
* **C69** MaterialMap: interpolation stays between the neighbouring grid values. Ordered field with floor and a rounding function as parameter; induction over the neighbours. Proved for exact arithmetic; false with the rounding of doubles: kernel-computed witness (MaterialMapProps).
* **C70** MaterialMap construction terminates and stays in its array. Three loops with fuel, `ub` for writes out of range. Decided for all arguments in exact arithmetic; false with the rounding of doubles: kernel-computed witnesses (MaterialMapProps).
* **C71** MaterialMapFactory returns the map that was asked for. Cache keyed by a tuple without the coordinate type; invariant over the history of requests. False for other coordinate types of the same grid: witness; partial theorem otherwise (MaterialMapFactoryProps).
* **C72** Distance properties do not depend on earlier queries. Cache state machine over an abstract tracing function; invariant over the history of queries. False after queries between equal points and after exceptions: witnesses; partial theorem otherwise (TGeoDistanceProps).
* **C73** XML handler registry. Map with operator[] insertion.
* **C75** Rectangular: addRow adds exactly the rows asked for. Decision of the argument checks; appended rows by induction on the repeat count (RectProps).
* **C76** FixedPadAngle: the pads tile the ring segment. Ordered field with floor; grid arithmetic (PadAngle).
* **C77** Polar layouts: distance to a pad is the Euclidean distance. Real plane with cos and sqrt, `IsLeast`. False if phi is off by more than a full turn from the pad: witness; partial theorem otherwise (DiskDistance).
* **C78** FixedPadAngle: no pad is nearer than the one returned by getNearestPad. Real plane. True for angles in the segment; false beside it (the row is taken from r and not from the foot point): witness (PadAngleDistance).
* **C79** FixedPadSize: inside tests agree with each other. Ordered field with floor. One direction proved outright; the other is false on the border between rows: witness, partial theorem for rows with a gap (PadSizeProps).
* **C80** Polar layouts: full turns of the angle do not matter. Ordered field with a constant for pi; wrap loops. False for open segments and at the seam: witnesses; partial theorems elsewhere (PadSizeProps).
* **C81** Versatile: pads sit where addRow put them. Ordered field; invariant over the addRow history. The inside test is false for angles more than a turn below the pad: witness; partial theorem otherwise (VersatileProps).
* **C82** Module conversions report angles between 0 and a full turn. Proved within explicit bounds on the rotation; refuted beyond them (line 53 adds a turn instead of subtracting it).
* **C83** isInsideModule is membership in the placed module. Over the reals with true trigonometric functions; uses the placement theorem of C27 and injectivity of the placement. Refuted at the tip of a sector.
* **C84** getDistanceToModule is the Euclidean distance to the placed module. The placement is an isometry; rectangle distance and keystone distance in the module's plane. Sectors over a full turn are the full ring.
* **C85** The border enlarges the module on all sides. Invariant over histories of setter calls. Refuted for polar layouts that reach a full turn.
* **C86** Queries of a module are the layout's queries at the local point. Via the placement theorem of C27.
* **C87** Polar module extents describe the placed module. Without offset: the extent describes exactly the placed region (set equality). With an offset: the radii are the minimum and the maximum, and the angles are exactly the range of the directions in which the module is seen from the origin, in all cases of the code; excluded are the origin just on the border of the module (refuted on a straight edge) and an outer corner that the tangent from the origin touches. Refuted for full rings.
* **C88** TPC: the interface for a single module. Case analysis on the module list, the history invariant of C30.
* **C89** TPC: nearest pad minimises the distance. Induction over the search loop.
* **C90** Vector3D: bracket operator reads and writes single components. get/set with the static dummy as state. False for non-const reads after an out-of-range write; witness, partial theorem.
* **C91** ZPlanar: the thickness seen under an angle. Intersection of a ray with a rectangle. False in the corner at the start edge and for a first ladder that is not at the top: witnesses; partial elsewhere.
* **C92** ZPlanar: the largest radius. Upper bound and a corner that attains it.
* **C93** FTD: petals are staggered as documented. Ftd/FtdProps: proved for +z disks whose sign is ±1 (or any integer); the sign is truncated to an int, and the index rule wrong for N≠7, refuted there.
* **C94** FTD: getters return what was added. Ftd/FtdProps: induction over the calls; indices by cases.
* **C95** Calorimeter: layer getters return what was added. Calo/CaloProps: induction over the calls, getExtent (which mutates) among them.
* **C96** Telescope setters: what is set is what is read. Telescope/TelescopeProps: value of the last setter in the history, for every field; TrackerPlanesLayerLayoutImpl::getID returns 0 always, so refuted for that one.
* **C97** Destroying a surface store deletes its surfaces once. The destructor as a function to the list of deleted addresses (`Surf.lean`). False: the condition is inverted and nothing is ever deleted (`nothing_deleted`, for all stores).
* **C98** Loading any file terminates. The parser is modelled with a budget of steps, running out of which is a result of its own; it is shown never to run out, by a measure on the remaining text. The search for rows and columns, which runs along, is modelled in XmlPlace.lean; it does not end for some files, and is shown to end for all others. Files: Xml.lean, XmlSafety.lean, XmlProps.lean, XmlPlaceParse.lean, XmlPlaceProps.lean.
* **C99** Loading never reads outside the file's text. Refuted for files cut off in a quoted value, comment, reference, multi-byte character or declaration; proved for every file in which all of these are closed (`Closed`, XmlClosed.lean), for files without these and for all written files.
* **C100** Files cut off are rejected. Refuted: without the end tag of the root after white space the file loads as if complete; proved for cuts between the attributes of the root.
* **C101** XML handlers are deleted exactly once and never while they can still be returned. Invariant over the history of calls in XmlRegistryProps: proved if each handler is handed over only once; refuted for a handler registered twice, which is deleted while it stays registered.
* **C102** Missing and malformed attributes are reported, not turned into wrong values. Missing attributes: exact characterisation of the exception for all elements; malformed numbers: refuted, `atof` gives 0, and the string stream of the materials passes the rest on to the following attributes, which become 0 too.
* **C103** TPC sections in the old syntax describe one module. XmlTpc/XmlTpcProps: evaluation of the reader given what it finds under each name, with the history invariant of TpcParams for the TPC.
* **C104** A whole geometry survives createXMLFile and createGearMgr. GearXML.cc on top of all handlers; the round trips of the sections (C53-C65) are composed, with the writer and the parser of the XML text. Partial: conditions of the sections; TrackerPlanes cannot be read, an empty name becomes Unknown.
* **C105** Distance queries report what a straight path crosses. TGeoTrace: a navigator that moves along a ray of volumes, as a specification of ROOT's; induction over the passes of the loop, with the split of the remaining path as invariant. False for volumes (or rests after steps of 500) thinner than MINSTEP, after which a volume is lost, and if the world ends within the next step behind p1, when the last volume is lost; witnesses.
* **C106** Following a path ends. TGeoTrace: induction over the passes with the length behind the navigator as variant, any navigator as a parameter.
* **C107** Printing a detector stays within its buffers. Print: printf's %w.pf and %wd as functions to text, sprintf into a buffer of 1024 characters as an outcome that is undefined if the text does not fit; bounds on the length of a formatted number from its magnitude, induction over the rows. False for great values, and for more than seven discs, where printing throws; witnesses for whole families of values.
* **C108** Printing leaves the format of the stream alone. Print: the manipulators as functions on the format flags; decided for all formats: true exactly if there are no materials or the stream was already fixed, without plus signs and decimal.
* **C109** Point queries answer for the point asked. TGeoPoint: the manager's current path as the state, the geometry as a parameter; for all states.
* **C110** Lists of volumes lead from the point to the world. TGeoPoint: induction over the path from the innermost volume to the top.
* **C111** The local position is that in the volume at the point. TGeoPoint: the answer uses the current path of the manager, without a search for the point: proved right after a query for a number or a name at the same point; false for the first query, after a query elsewhere and after a list of volumes; witnesses.
* **C112** Cell IDs identify cells. Cga: bit vectors for the shifts and masks, reduced to the concatenation of words; the message of the exception is composed in a buffer for all points, which is proved to be long enough.
* **C113** A Mokka properties object answers for its own model. Cga: the singleton as state; true exactly if no object was made before or the first one had the same setup, false otherwise.
* **C114** Mokka distance queries follow the segment asked for. Cga: Mokka's functions as parameters; proved for the numbers; for the lists, which are static, exactly what follows if Mokka replaces or appends to the contents of the vectors it is given, as its source is not part of the repository.
* **C115** Printed tables show the values of the layers. PrintTable: the rows cut at their bars, each cell read with the model of atoi and atof, compared with the list of values.
* **C116** The columns of printed tables stand below their heads. PrintTable: widths of the cells of a row and of the head; false for the device under test and for vertex detectors with long ladders.
* **C117** The table of a calorimeter tells the structure of every layer. PrintMgr: the loop with the remembered values; induction over the layers; false for cell sizes.
* **C118** Printing a collection shows all named parameters. PrintMgr: the six loops; from C01 and C02.
* **C119** Printing a manager shows everything registered once. PrintMgr: the list of blocks; counting; false for the inner and outer silicon trackers.
* **C120** The nodes of an XML document form the tree that was built. Model: heap of cells with parent, sibling and child pointers, undefined behaviour for dead cells (`XmlDom.lean`); specification: lists of trees (`XmlDomSpec.lean`). Proof: refinement by induction over the calls, the heap being a multiset of cells.
* **C121** XML nodes are released exactly once and with all that is below them. The same model; the heap has a cell exactly for the names in the specification.
* **C122** A copy of an XML node has the same content and shares nothing with it. Proof by induction over trees. False for children of comments and texts, which are not copied, and for assigning a node to itself, which empties it, or to one that contains it, which reads freed memory.
* **C123** Looking for children, siblings and elements finds the first that fits. The same model; the loops are compared with `List.find?` on the lists of the specification.
* **C124** The attributes of an XML element are those that were set, in order. Model: ring of cells with a sentinel on a heap (`XmlAttr.lean`); specification: lists (`XmlAttrSpec.lean`). False if an attribute has neither name nor value: it ends the walk, and hides later attributes from printing and copying.
* **C125** Attributes have different names, are copied in full and are released once. The same model. Uniqueness is false after SetName; a copy is complete if the names differ and no attribute lacks both name and value.
* **C126** FTD: the thickness seen under an angle. Over the reals: the result is the distance of any two points of such a line on the two faces. The sides of the petal are not considered, as in the code.
* **C127** FTD: start and end angle enclose the first petal. Refuted: the results are -2 phi0 and 0, whatever the size of the petal; proved what they are.
* **C128** Rows and columns of nodes and attributes. `Stamp` is modelled byte by byte; rows and columns are specified on a list of signs (characters, tabulators, marks, line breaks). The whole parser is modelled a second time with the calls of `Stamp`, and shown to read the same as the one of Xml.lean by a simulation that carries an invariant on the cursor. The invariant is proved for files in ASCII, in UTF-8 and in encodings of one byte, and across the switch of encodings at the declaration. Files: XmlPlace.lean, XmlPlaceSpec.lean, XmlPlaceParse.lean, XmlPlaceTree.lean, XmlPlaceLemmas.lean, XmlPlaceSim.lean, XmlPlaceNodes.lean, XmlPlaceTrack.lean, XmlPlaceCode.lean, XmlPlaceProps.lean.
* **C129** The error a failed load reports. The model of C128 with `SetError` and the message of the exception; the invariant on the cursor also gives the place of the error. Files: XmlPlaceParse.lean, XmlPlaceCode.lean, XmlPlaceProps.lean.
* **C130** Which files are accepted, and what is read from them. An inductive grammar (XmlGrammarSpec.lean) is shown to be equivalent to the parser of Xml.lean: soundness by induction on the steps, completeness by induction on the derivation.
* **C131** A GDML file answers for the geometry it contains. State machine of the plugin, induction over the calls from the end; for createGearMgr, no other step changes the two properties.
* **C132** Handles lead to the right child or to null. Model: XmlHandle.lean on the heap of XmlDom.lean. Spec: `follow` in the tree of the history. Proof: induction on the index and on the chain, with the search theorems of C123.
* **C133** Documents written to a stream are read from it again. Model: XmlStream.lean. Spec: `Document.Good`. Proof: every node is framed, i.e. the reader takes exactly what the writer has written for it (induction on trees), and what was taken parses to the nodes.
* **C134** Reading a document from any stream ends and gives what the bytes taken give. Model: XmlStream.lean. Proof: the loops take a prefix and every step takes at least one byte, induction on the number of steps.
* **C135** Saving what was loaded changes nothing. Model: Xml.lean. Spec: XmlSaveSpec.lean (`Signs`, `SaysUtf8`, `NoQuotes`). Proof: by the grammar of files (C130) what is loaded has the properties by which it survives (C57), by induction on derivations; a saved tree follows the grammar, by induction on trees.
* **C136** Copies of geometry files. Model: XmlCopy.lean, over the model of whole files. Spec: `Savable` (XmlFileSpec.lean), `Stable` (XmlCopyProps.lean). Proof: rounding is idempotent, so that every section that is read is written as before; then induction on the number of copies. The exceptions are shown by witnesses.
* **C137** The exit status and the target of mergeXML. Model: XmlMergeMain.lean, on the models of the parser, of MergeXML and of printing. Spec: XmlMergeSpec.lean, XmlSaveSpec.lean, `TextFirst` (XmlMergeMainProps.lean). Proof: case analysis for the status; by induction on trees merging preserves what makes a document survive saving, so that C57 and C67 hold for the target. Exceptions by witness.
* **C138** What printMaterials prints. Model: PrintMaterials.lean, on the model of the distance properties (TGeoDistance.lean). Spec: TGeoTrace.lean (`crossed`, `Split`, `pointAt`, `Rides`). Proof: a navigator that follows the path follows it to each of its points, so C105 gives the answers of a fresh object; C98 carries them over the history of queries; induction on the pieces. That a line shows the values of its piece alone is refuted by witness.
* **C139** The coordinates of a vector of N numbers. Model: VectorND.lean, with the conversion of `N-1` to unsigned in the comparison and with undefined behaviour outside the array. Proof: arithmetic of the conversion; induction on the assignments.
* **C140** Pads of a layout with a fixed pad angle, in double arithmetic. Model: PadAngleDouble.lean, the functions of PadAngle.lean with a rounding after each operation and with conversions to int that may be out of range; Doubles.lean has what is assumed of the rounding, and proves it for binary64. Proof: monotonicity of the rounding and bounds of its error (DoublesGrid.lean). That the margins are needed is shown by doubles at the border for which the answers are wrong.
* **C141** getNearestPad of a layout with a fixed pad angle returns, and gives a pad that exists, in double arithmetic. Model: PadAngleDouble.lean. Proof: each pass of the loop brings the angle nearer by at least 5; the computed projection on an edge is at most a few roundings larger than the radius. False for angles from 2^57 on (the loop does not end), for points further out than 2^31 rows (conversion out of range), and for a point just below the inner radius, with the real cosine and sine (row -1); these are proved.
* **C142** Pads of a layout with a fixed pad size, in double arithmetic. Model: PadSizeDouble.lean, the functions of PadSize.lean with a rounding after each operation, with conversions to int that may be out of range and with loops that may not end. Proof: bounds of the error of chains of roundings (DoublesGrid.lean, row_props). That the margins are needed is shown by a row with one pad more than fits.
* **C143** getNearestPad of a layout with a fixed pad size returns an existing pad, in double arithmetic. Model: PadSizeDouble.lean. Proof: each pass of the loop brings the angle nearer by at least 5; all cases after the loops give a row and a pad in range, whatever the rounded projections are. False for angles from 2^57 on (the loop does not end) and for points further out than 2^31 rows (conversion out of range); these are proved.
* **C144** Layers of a calorimeter in double arithmetic. Model: CaloDouble.lean, addLayer and getExtent with rounded additions. Proof: induction over the history, with monotonicity of rounding for the order and a product of n error factors for the place. That the sums are not exact and that layers can coincide is shown with doubles.
* **C145** Coordinates of a TPC module in double arithmetic. Model: TpcModuleDouble.lean, the functions of TpcModule.lean with a rounding after each operation; the extents are left out. Proof: points as complex numbers, placement as an isometry, error of each step (TpcModuleDoubleLemmas, TpcModuleDoubleNear); the wrong test of the offset in line 48 does no harm since doubles are rational and pi is not. That the round trip is not exact is shown with doubles.
* **C146** Nearest pad of a rectangular layout in double arithmetic. Model: RectDouble.lean, the layout of RectLayout.lean with a rounding after each operation. Proof: error bounds for the centres of rows by induction (RectDoubleLemmas), then a bound on the estimate of each pass, so that it stays in the row, or goes to it from the one below or above (RectDoubleSearch, RectDoubleWidth); for arbitrary rows an invariant of the search (RectDoubleSafe). Points within ten times the error of a border of two rows are excepted: the search can go back and forth between two rows for ever there, as shown with doubles; near the right edge it throws.
* **C147** Pads of a rectangular layout in double arithmetic. Model: RectDouble.lean. Proof: as for C146; the error of a row is bounded by induction on the rows.
* **C148** Radiation and interaction lengths in double arithmetic. Model: TGeoDistanceDouble.lean, the two functions with a rounding after each operation; the cache is that of TGeoDistance.lean. Proof: induction on the volumes, with a product of error factors and with monotonicity of rounding.
* **C149** Versatile disk layouts in double arithmetic. Model: VersatileDouble.lean, the functions of Versatile.lean with a rounding after each operation. Proof: an invariant of all histories that bounds the error factor of every radius by a power of one rounding.
* **C150** Searching versatile disk layouts in double arithmetic. Model: VersatileDouble.lean; the square root of a negative number is NaN, comparisons with NaN are false. Proof: error bounds for all angles and radii of a row, a lower bound for the computed distance to a corner, and induction on the rows of the search.
* **C151** FixedPadSize: no pad is nearer than the one returned by getNearestPad. Model: PadSize.lean over the real numbers. Proof: on each side of the segment the nearest point is the projection on the edge, moved into the radial range; the row computed by the code contains it. Refuted by two witnesses on a half ring.
* **C152** RectangularPadRowLayout: no pad is nearer than the one returned by getNearestPad. Model: RectLayout.lean, RectDistance over the real numbers. Proof: the row at which the search stops has the smallest vertical distance (bands of rows are stacked), the pad taken in it the nearest centre, and moving a point into the extent shortens all distances by the same amounts. Needs that rows are equally near in the direction of the rows, shown for rows in line and for rows without gaps; refuted by a witness otherwise.
* **C153** RectangularPadRowLayout: getDistanceToPad in double arithmetic is the distance to the pad up to rounding. Model: RectDistanceDouble.lean, the calculation of getDistanceToPad with a rounding after each operation. Proof: each of the four limits is near the limit of the rectangle, the Euclidean norm is 1-Lipschitz in each coordinate, the rounded norm has a small relative error.
* **C154** Disk layouts: getDistanceToPad in double arithmetic is the distance to the pad up to rounding. Model: DiskDistanceDouble.lean, the calculation of getDistanceToPad with a rounding after each operation and NaN as a result. Proof: the coordinates of the point along and across an edge have errors of 7u r, the distance is 1-Lipschitz in the radius of the nearest point of an edge, the argument of the square root has an error of 12u times the square of the radii. Refuted near the corners of a pad by concrete doubles.
* **C155** Surface coordinates in double arithmetic: conversions and round trips up to rounding. Model: SurfDouble.lean, the sums and products with a rounding after each. Proof: error of a row times a vector (5 roundings of the sum of the sizes), rows of rotations have entries of at most one, rotations of differences.
* **C156** Surface boundaries in double arithmetic are decided correctly off the border. Model: SurfDouble.lean. Proof: the coordinates along the sides have errors of 15 roundings, the width of a trapezoid at a height an explicit error; the shapes shrunk and enlarged by these margins enclose the answer.
* **C157** Planar vertex detector with float borders: points in ladders. Model: ZPlanarFloat.lean, the functions with a conversion wherever the code stores a float. Proof: a clamp to borders that move by e moves by at most e; inside of the borders nothing changes; the largest radius loses at most three roundings. Refuted on the side faces: there the relative comparison fails for a ladder that is not quite horizontal.
* **C158** Planar vertex detector with float borders: the nearest ladder. Model: ZPlanarFloat.lean. Proof: each of the six points that are compared moves by at most the slack, so the smallest distance changes by at most the slack.
* **C159** Planar vertex detector with float borders: the first crossing of a line. Model: ZPlanarFloat.lean. Proof: each of the six faces is a step of the search with the rounded borders; a met face is within the slack of the volume. Refuted at the edges: a line along a side face is lost between the rounded borders.
* **C160** Printing TrackerPlanes shows all layers and stays within its buffer. Model: PrintTracker.lean, the characters of every row and the size of the buffer. Proof: words of padded fields, bounds on the widths of conversions, induction over the loops. Refuted: an info text of 819 characters, which may come from a file, overflows the buffer.
* **C161** printParameters shows everything that is in a file. Model: PrintGeometry.lean, the items that are written for every class, what remains written when an exception is thrown, which exceptions are caught, and the exit status. Proof: composition of the parts (C107, C115, C117, C118, C160) through the sequence of blocks. Refuted: a file with more than seven discs of an FTD is read, but printing ends with status one after the seventh disc.
* **C162** Pads of the modules of a TPC with the rounding of doubles. Model: TpcDouble.lean, the functions of a module over any arithmetic with rounding, with the rectangular layout of RectDouble and the transformations of TpcModuleDouble. Proof: the transformation theorems (C145) composed with the theorems on rectangular layouts (C146, C153) by the triangle inequality; for the TPC an induction over the modules with the nearest one as invariant. Near borders of pads the answers differ from the exact ones (refutations of C146). Disk layouts in modules: C163.
* **C163** Pads of the disk modules of a TPC with the rounding of doubles. Model: TpcDiskDouble.lean, the layout with a fixed pad angle behind the interface of a module. Proof: the transformation theorem (C145), near points have near polar coordinates up to turns, and the nearest pad of an angle with any number of turns (C140). The full statement is false: in a Cartesian TPC no point is inside of a pad at negative angles, for any rounding, and getDistanceToPad gives the distance from its edges, so that the TPC answers with a pad of a neighbouring module for a point that is on a pad.
* **C164** Pads of a fixed size in the modules of a TPC, with the rounding of doubles. Model: TpcSizeDouble.lean, the layout with a fixed pad size behind the interface of a module. Proof: as C163, with the theorems of C142; the angles of these layouts begin at 0, so that the range of the local angles is the one that the layout uses. Polar TPCs are left out: the layout takes off full turns only from angles outside of the range from minus to plus a full turn.
* **C165** Areas of the rectangular modules of a TPC, with the rounding of doubles. Model: TpcAreaDouble.lean, the Cartesian branches of the three functions with every operation rounded. Proof: local coordinates by C145, the extent by one rounding, the distance from a rectangle as in C153; the distance of a point from a rectangle changes by no more than the point and the edges do. For the TPC: the first smallest of the computed distances (C33), and any of the answers.
* **C166** Areas of the disk modules of a TPC, with the rounding of doubles. Model: TpcAreaDiskDouble.lean, the polar branches of the functions with every operation rounded, and the loops with a bound on their passes. Proof: local coordinates by C163; an induction over the passes of each loop bounds the error of the angle and shows that the loops end; an angle that is not at the ends of one turn is then on the right turn. The agreement of the two queries for pads is refuted for pads at negative angles (disk_pad_queries_false): only the one without a pad brings the angle into the range of the module.
* **C167** Distances from the disk modules of a TPC, with the rounding of doubles. Model: TpcAreaDiskDouble.lean (ringDistance). Proof: the computed distance is near to the exact distance between the rounded point and the rounded ring segment (the bound for keystones of C154 and C163), and this changes by no more than the point and the borders do.
* **C168** Areas of TPC modules with any disk layout and of TPCs with modules of several kinds, with the rounding of doubles. Model: TpcAreaDiskDouble.lean, TpcSizeDouble.lean. Proof: what a module answers for areas depends on its layout only through the extent and the type of coordinates (simulation over all sequences of setter calls), so the module answers as one with a single large pad does (C166, C167); one bound for all kinds of modules then gives the nearest one.
* **C169** Pads of TPC modules with versatile layouts, with the rounding of doubles. Model: TpcVersatileDouble.lean. Proof: the errors of the local coordinates (C163) are added to the errors of the edges of pads (C149, C150); that local angles lie in a full turn leaves only one turn.
* **C170** Distances from disk pads of TPC modules, and the nearest pad of a mixed TPC, with the rounding of doubles. Proof (TpcPolarDoubleFar.lean): one lemma for every layout in polar coordinates whose borders are known up to errors in radius and angle: the distance from the rounded ring segment (C163) differs from that of the exact one by no more than these errors; then the borders of both layouts. The distance is stated as the least element of the set of distances to the points of the placed segment.

## What is modelled

Lean modules (in `lean/Verif/`) and the code they transcribe. `X*` means the model `X.lean` with its
specification, lemma and property files. Every definition cites its lines.

| Modules | Code |
| --- | --- |
| `Basic`, `Num` | exception classes of `include/gear/GEAR.h`; `std::map`; conversions of doubles to `int` |
| `Params*` | `GearParametersImpl.cc`: all setters, getters, key listings |
| `GearMgr*` | `GearMgrImpl.cc`: all setters, getters, materials, destructor (ownership) |
| `PadIndex*` | the pad index arithmetic of all pad layouts |
| `Rect*` | `RectangularPadRowLayout.cc/.h`: everything |
| `Disk*`, `PadAngle*`, `PadSize*`, `Versatile*` | `FixedDiskLayoutBase.cc`, `FixedPadAngleDiskLayout.cc`, `FixedPadSizeDiskLayout.cc`, `VersatileDiskRowLayout.cc` and headers: everything |
| `TpcModule*` | `TPCModuleImpl.cc/.h`: everything but the printing of errors |
| `TpcParams*` | `TPCParametersImpl.cc/.h`, `GlobalPadIndex.h` |
| `Vector3D*` | `Vector3D.h`: everything but the stream operator |
| `Calo*` | `LayerLayoutImpl.cc/.h`, `CalorimeterParametersImpl.cc/.h` |
| `ZPlanar*` | `ZPlanarLayerLayout.cc`, `ZPlanarParametersImpl.cc` and headers: everything |
| `Ftd*` | `FTDLayerLayoutImpl.cc`, `FTDParametersImpl.cc` and headers: everything but the frames `_eL`, `_eS` |
| `Telescope*` | `SiPlanesLayerLayout.cc`, `TrackerPlanesLayerLayout.cc` and the headers of the telescope classes |
| `Surf*` | `src/gearsurf`: coordinate systems, boundaries, surfaces, store |
| `Xml`, `XmlSpec`, `XmlLemmas`, `XmlRoundTrip`, `XmlSafety`, `XmlProps` | `tinyxml.cc`, `tinyxmlparser.cc`: entities, tree, attributes, printing to a file, loading and parsing a file |
| `XmlDom*`, `XmlAttr*` | `tinyxml.cc`, `tinyxml.h`: nodes with their pointers to parent, children and siblings, and the rings of attributes, as objects on a heap |
| `XmlNum*` | `%d`, `%.9e`, `atoi`, `atof` as used by `TiXmlAttribute` |
| `XmlParams*` | `GearParametersXML.cc` with its tokenizer |
| `XmlRegistry*`, `XmlUtil`, `XmlRead` | `XMLHandlerMgr.cc`, attribute helpers |
| `XmlSimple*` | `ConstantBFieldXML.cc`, `SimpleMaterialXML.cc` |
| `XmlTracker*`, `XmlTelescope*`, `XmlCalo*`, `XmlLayouts*`, `XmlTpc*` | the handlers of all detector sections in `src/gearxml` |
| `XmlMerge*` | `MergeXML.cc` |
| `XmlSave*` | the same functions, for C57 and C135 |
| `XmlHandle*` | `tinyxml.cc`, `tinyxml.h`: `TiXmlHandle` |
| `XmlStream*` | `tinyxml.cc`, `tinyxmlparser.cc`: `StreamOut`, `StreamIn`, `operator<<`, `operator>>` |
| `XmlPlace*` | `tinyxmlparser.cc`: rows and columns, errors, the message of a failed load |
| `XmlGrammarSpec`, `XmlGrammarProps` | no code: a grammar of the files that are accepted, shown to be equivalent to the parser of `Xml` |
| `XmlFile*` | `GearXML.cc`: writing and reading of whole files |
| `XmlCopy*` | `testXMLCopy.cc`: files that are read and written again |
| `XmlMergeMain*` | `mergeXML.cc`: the program, on a file system |
| `PrintMaterials*` | `printMaterials.cc`: the queries and the lines of the program |
| `VectorND*` | `Vectors.h` |
| `PadAngleDouble*`, `PadSizeDouble*`, `CaloDouble*`, `TpcModuleDouble*`, `RectDouble*`, `RectDistanceDouble`, `DiskDistanceDouble`, `SurfDouble`, `ZPlanarFloat*`, `TpcDouble*`, `TpcDiskDouble*`, `TpcSizeDouble*`, `TpcVersatileDouble*`, `TpcPolarDoubleFar`, `TpcTurnDoubleFar`, `TpcMixedDoubleProps`, `TpcAreaVersatileDouble*`, `TpcAreaDouble*`, `TpcAreaDiskDouble*`, `TpcAreaAnyDouble*`, `VersatileDouble*`, `TGeoDistanceDouble*`, `Doubles*` | `FixedPadAngleDiskLayout.cc`, `FixedPadSizeDiskLayout.cc`, `FixedDiskLayoutBase.cc`, `CartesianCoordinateSystem.cc`, `BoundaryRectangle.cc`, `BoundaryTrapezoid.cc`, `LayerLayoutImpl.cc`, `CalorimeterParametersImpl.cc`, `RectangularPadRowLayout.cc`, `VersatileDiskRowLayout.cc`, the sums of `TGeoGearDistanceProperties.cc` and the transformations of `TPCModuleImpl.cc` with the rounding of doubles; properties of IEEE rounding |
| `MaterialMap*`, `MaterialMapFactory*`, `TGeoDistance*`, `TGeoTrace*`, `TGeoPoint*`, `Gdml*` | `src/geartgeo`, with ROOT's geometry as a parameter |
| `Cga*` | `src/gearcga`, with Mokka's functions as parameters |
| `Print*` | `Util.cc`: tables, parameters, managers, format flags of the stream; the table of `TrackerPlanesLayerLayoutImpl.h`; `src/test/printParameters.cc` |

## What is not modelled

* IEEE arithmetic: rounding, overflow, signed zero, NaN and infinity. Rounding is modelled for material maps and for
  layouts with a fixed pad angle or pad size, rectangular and versatile layouts, calorimeter layers, sums of radiation lengths, measurement surfaces and module transformations (`MaterialMap`, `PadAngleDouble`, `PadSizeDouble`, `CaloDouble`, `TpcModuleDouble`, `RectDouble`, `RectDistanceDouble`, `DiskDistanceDouble`, `SurfDouble`, `ZPlanarFloat`, `TpcDouble`, `TpcDiskDouble`, `TpcSizeDouble`, `TpcVersatileDouble`, `TpcAreaDouble`, `TpcAreaDiskDouble`, `VersatileDouble`, `TGeoDistanceDouble`). Other exceptions are named in the modules
  (`ZPlanar` has a NaN outcome where the code can divide by zero; `Print` bounds widths of printed numbers).
* The functions of `<cmath>`. Where a theorem is about distances or angles they are the real functions;
  where they are arbitrary parameters the theorem holds for any functions with those results.
* Allocation failure, exceptions of the standard library other than those named, concurrency (GEAR has none).
* ROOT, CLHEP, Mokka, dlopen, the file system: parameters, or assumed to succeed as stated in the module.
* `src/test` other than `testXMLCopy.cc`, `mergeXML.cc`, `printMaterials.cc` and `printParameters.cc`; the CMake build.
* Of tinyxml: `tinystr` (not compiled), `userData`.
* Of `Util.cc`: the exact characters outside of the `sprintf` tables (modelled as lists of items).
* Getters and trivial constructors of abstract interfaces (`include/gear/*.h` without implementation).

## Findings

Properties that a user would expect and that are false of the code. Each is a theorem (a concrete
witness, `*_false*`, or the hypothesis that a `_partial` theorem needs).

* Manager: replaced objects leak, an object registered twice is deleted twice.
* Rectangular layouts: a rejected `addRow` changes the pad count; `repeatRows(0)` wraps; copies lose their pad
  lists; the nearest pad search can oscillate for ever or read past the table.
* Disk layouts: no pad at the largest angle; versatile layouts see only the last repeated row, and a
  failed `addRow` advances the number of pads.
* TPC modules: copies lose named parameters; self-assignment uses the freed layout; an inner radius of 0
  with a border gives endless loops; copying or assigning `TPCParametersImpl` recurses for ever; the cathode
  stays 0 if a module without a z position is added first; a module with the origin on a straight edge
  gets a full turn as angular extent, and one whose outer corner is where a line from the origin touches
  the outer circle can get almost a full turn.
* `Vector3D`: the non-const `operator[]` hands out a shared dummy for wrong indices.
* `ZPlanar`: only one turn of angle is corrected, the nearest ladder is wrong for two or fewer ladders, faces at
  negative z are never hit, a gap of 0 makes the origin an intersection, outer phi flag swapped.
* `FTD`: `getframe` writes to reserved memory, point queries return −1, support queries at z = 0 are undefined,
  mirrored layer indices are not accepted by several getters, more than 7 layers cannot be written or printed,
  the start and end angles do not depend on the petal.
* Telescopes: the short `addLayer`; sensor rotations and resolutions are not written; the DUT is lost for type 2;
  `TrackerPlanes` files cannot be read back; `getID` of the layer layout is always 0.
* Surfaces: the store's destructor frees nothing, `getFillerName` throws, a failed fill leaves a part of it.
* XML parser: an unterminated attribute or comment reads past the end; `<?xml ` fails an assertion; a truncated
  root is accepted; an unknown `&` is dropped; `&#x…;` values are not round-tripped.
* XML files: strings are cut at the first blank; malformed numbers are 0; calorimeter layers drift when
  compressed; `padSize` and rectangular layouts change their number of rows by rounding; `padAngle` layouts and polar
  TPCs with Cartesian layouts are written but cannot be read; versatile layouts are written in radians and read as mm.
* Registry: `setHandler` with the handler already registered deletes it.
* `MergeXML`: null pointers for childless named elements and missing sections; the dominating file changes with every
  call; content below unnamed elements is not merged.
* `createGearMgr` caches the manager before parsing, so that a second call returns an incomplete one.
* Material maps: degenerate ranges are undefined behaviour; the value stored at the last grid point is not returned;
  the factory's key omits the coordinate system.
* ROOT distances: a repeated query after an exception answers 0; volumes thinner than the minimal step are lost.
* Printing: `sprintf` buffers overflow for huge values; the stream keeps `fixed`; SIT and SET are printed twice;
  columns are misaligned.
* CGA: the first setup wins for all objects; results share static vectors.
* tinyxml nodes: assigning a node to itself empties it, assigning it one of its descendants reads freed memory; a node linked to two
  parents is deleted twice; children of comments and texts are not copied; an attribute with neither name nor value hides all later
  ones from walking, printing and copying; `SetName` can give two attributes of an element the same name.
* XML parser: a byte EF among the last two bytes of a file read as UTF-8 can keep loading from ever ending, e.g. after the name of an
  attribute; an empty file fails to load without an error text; columns after multi-byte characters in front of the
  declaration are neither those in bytes nor those in characters.
* XML parser: a numeric reference takes everything up to the next `;`, so that `&#x<b>x41;` hides an element; an end tag or text
  behind the root is neither read nor rejected; a root without its end tag is accepted if white space follows its last child.
* `createXMLFile` does not save the name of the GDML file.
* Streams of tinyxml: a zero byte in the content of an element keeps `operator>>` from ever ending; a `>` or `/>` in the value of an
  attribute, or a comment that begins with `>`, makes it take too much or too little; nodes behind the root are not written by
  `operator<<`; `operator>>` adds to the nodes a document has; errors found while reading are forgotten before it returns.
* Loading and saving a file with tinyxml can change it each time: references in comments are replaced once more, `&amp;#x41;` in a value
  becomes `A`, and the fields of declarations are not escaped. In a text, a stray ampersand between blanks leaves two blanks, of which the next loading drops one. (C135)
* Copying a geometry file with testXMLCopy can change it each time: the drift velocity of a TPC is lost, readout frequencies lose digits,
  the pitch of the pads of versatile disks is divided by the radius of the row by every copy, and calorimeter layers that differ by less
  than about 1e-5 are merged by the first copy. (C136)
* The program mergeXML ends with status zero after an exception, although it has not written the target. (C137)
* printMaterials prints with each piece of a path the radiation and interaction lengths, and the coordinates, from the first point on, not those of the piece. (C138)
* FixedPadAngleDiskLayout::getNearestPad throws for doubles just below the end of the range of angles for many numbers of pads (3, 6, 7, 9, ... pads between 0 and 1), and isInsidePad finds doubles between two pads in neither. (C140)
* FixedPadAngleDiskLayout::getNearestPad does not return for angles from 2^57 on; it converts rows that do not fit an int for points far out; for points just below the inner radius it can make an index with row -1. (C141)
* FixedPadSizeDiskLayout::getNearestPad does not return for angles from 2^57 on and converts rows that do not fit an int for points far out; a row can have one pad more than fits, through rounding. (C142, C143)
* The wrong test of the offset in TPCModuleImpl::globalToLocal (C27) does no harm with doubles: the cosine of a double is never zero, so the first Cartesian component of a polar offset vanishes only with the offset. (C145)
* RectangularPadRowLayout::getNearestPad does not return for points on borders of rows in ordinary layouts with doubles: with four rows of height 0.9 from 0, getNearestPad(0.5, 2.7) goes back and forth between rows 2 and 3 for ever. (C146)
* RectangularPadRowLayout::getNearestPad throws std::out_of_range for doubles just below the right edge, for example for 1 - 2^-53 with three pads between 0 and 1. (C146)
* VersatileDiskRowLayout::getNearestPad gives the pad of the row below for points near the corner of that row with doubles: the squared distance to the corner cancels to zero (a point 1e-7 above a corner at radius 12), and a later row at distance zero is not nearer. (C150)
* FixedPadSizeDiskLayout::getNearestPad takes the last pad for every angle above the segment, also for those nearer to the first pad, and the first pad for every negative angle down to a full turn, also for points on the segment. (C151)
* RectangularPadRowLayout::getNearestPad looks for the row only vertically: if rows have different gaps or offsets, a pad of the next row may be ten times nearer than the one returned. (C152)
* FixedDiskLayoutBase::getDistanceToPad takes the square root of a difference that cancels: for a point that touches a corner of a pad the difference can be negative through rounding; the result is NaN, or, as the comparison with NaN is false, the distance from the far edge. (C154)
* ZPlanarParametersImpl stores the borders of ladders in float: the points of a side face of a ladder with half width 10.2 are outside of the rounded border, and as the comparison of directions is relative, isPointInSensitive says no for them if the ladder is not quite horizontal; a line along that face meets nothing. (C157, C159)
* TrackerPlanesLayerLayoutImpl::PrintLayers formats the info text of a layer into a buffer of 1024 characters: a text of 819 or more characters, which can come from the file, writes behind the buffer. (C160)
* printParameters ends with an error for a valid file with an FTD of more than seven discs: the file is read, but after the seventh disc `getEquivLayer` makes the index negative, `at` throws `std::out_of_range`, which the blocks of `operator<<` do not catch, and nothing of what follows is shown. (C161)
* A module normalises local angles to the range from 0 to a full turn, but FixedPadAngleDiskLayout::isInsidePad and FixedDiskLayoutBase::getDistanceToPad compare angles without turns: in a Cartesian TPC no point is inside of a pad at negative angles, the distance of a point on it is the distance from its edges, and getNearestPad of the TPC can return a pad of a neighbouring module. (C163)
* TPC modules with disk layouts whose pads are at negative angles: isInsidePad(c0, c1) is true on such a pad and getNearestPad gives it, but isInsidePad(c0, c1, pad) is false for it, as only the first one brings the angle into the range of the module. (C166)
## Axioms of each theorem

From `#print axioms` for every theorem named in MANIFEST.json.

**Classical.choice, Quot.sound, propext** (650):
`Gear.Params.getIntVal_run`, `Gear.Params.getDoubleVal_run`, `Gear.Params.getStringVal_run`,
`Gear.Params.getIntVals_run`, `Gear.Params.getDoubleVals_run`, `Gear.Params.getStringVals_run`,
`Gear.Params.getIntKeys_run`, `Gear.Params.getDoubleKeys_run`, `Gear.Params.getStringKeys_run`,
`Gear.Params.getIntVecKeys_run`, `Gear.Params.getDoubleVecKeys_run`, `Gear.Params.getStringVecKeys_run`,
`Gear.Params.listing_unique`, `Gear.Params.getIntKeys_twice`, `Gear.Mgr.getSection_run`,
`Gear.Mgr.getDetectorName_run`, `Gear.Mgr.run_defined`, `Gear.Mgr.getGear_run`, `Gear.Mgr.gearKeys_run`,
`Gear.Mgr.forward_crossingAngle`, `Gear.Mgr.forward_set_ok`, `Gear.Mgr.registerMaterial_run`,
`Gear.Mgr.getMaterial_run`, `Gear.Mgr.materialNames_run`, `Gear.Mgr.ownership_partial`,
`Gear.Mgr.ownership_each_partial`, `Gear.Mgr.ownership_false_leak`, `Gear.Mgr.ownership_false_doubleFree`,
`Gear.Mgr.ownership_false_dangling`, `Gear.Rect.padIndex_roundtrip_partial`, `Gear.Rect.padIndex_injective`,
`Gear.Rect.padIndex_false_negative`, `Gear.Rect.padIndex_false_wide`, `Gear.PadAngle.padIndex_roundtrip_partial`,
`Gear.PadAngle.padIndex_injective`, `Gear.PadAngle.padIndex_false_negative`,
`Gear.PadSize.padIndex_roundtrip_partial`, `Gear.PadSize.padIndex_injective`, `Gear.PadSize.padIndex_false_negative`,
`Gear.Versatile.padIndex_roundtrip_partial`, `Gear.Versatile.padIndex_injective`,
`Gear.Versatile.padIndex_false_negative`, `Gear.Rect.getPadIndex_rejects_partial`,
`Gear.Rect.getPadIndex_false_negative`, `Gear.Rect.getPadIndex_false_empty`,
`Gear.PadAngle.getPadIndex_false_negativePad`, `Gear.PadAngle.getPadIndex_false_negativeRow`,
`Gear.PadSize.getPadIndex_rejects_partial`, `Gear.PadSize.getPadIndex_false_negative`,
`Gear.PadSize.getPadIndex_false_empty`, `Gear.Versatile.getPadIndex_rejects_partial`,
`Gear.Versatile.getPadIndex_false`, `Gear.Rect.rows_stack`, `Gear.Rect.padsInRow_run`,
`Gear.Rect.getNPads_run_partial`, `Gear.Rect.getNPads_false_rejected`, `Gear.Rect.addRow_rejected_partial`,
`Gear.Rect.addRow_rejected_false`, `Gear.Rect.repeatRows_run_partial`, `Gear.Rect.repeatRows_false_zero`,
`Gear.Rect.pads_disjoint`, `Gear.Rect.isInsidePad_eq`, `Gear.Rect.center_inside`, `Gear.Rect.nearest_center`,
`Gear.Rect.nearest_center_partial`, `Gear.Rect.nearest_safe_partial`, `Gear.Rect.nearest_terminates_partial`,
`Gear.Rect.nearest_ends_iff`, `Gear.Rect.nearest_false_gap`, `Gear.Rect.nearest_false_loop`,
`Gear.Rect.nearest_contains`, `Gear.Rect.nearest_of_strictlyInPad`, `Gear.Rect.insideAny_partial`,
`Gear.Rect.insideAny_false_border`, `Gear.Rect.neighbours`, `Gear.Rect.left_right`, `Gear.Rect.right_left`,
`Gear.Rect.right_center`, `Gear.PadAngle.left_neighbour`, `Gear.PadAngle.right_neighbour`, `Gear.PadAngle.left_right`,
`Gear.PadSize.left_neighbour`, `Gear.PadSize.right_neighbour`, `Gear.PadSize.left_right`,
`Gear.Versatile.left_neighbour`, `Gear.Versatile.right_neighbour`, `Gear.Versatile.left_right`,
`Gear.Rect.copy_false_lists`, `Gear.PadAngle.copy_queries`, `Gear.PadSize.copy_queries`,
`Gear.PadSize.padsInRow_made`, `Gear.Versatile.copy_queries`, `Gear.Versatile.padsInRow_made`,
`Gear.Rect.distance_isLeast`, `Gear.Rect.distance_zero_iff`, `Gear.PadAngle.nearest_exists_partial`,
`Gear.PadAngle.nearest_in_sector`, `Gear.PadAngle.nearest_contains_partial`, `Gear.PadAngle.nearest_center`,
`Gear.PadAngle.nearest_false_phiMax`, `Gear.PadAngle.nearest_false_fullCircle`, `Gear.PadSize.rows_fit`,
`Gear.PadSize.rows_tile`, `Gear.PadSize.pads_fit`, `Gear.PadSize.pad_in_angle`, `Gear.PadSize.getNPads_sum`,
`Gear.PadSize.new_accepts`, `Gear.PadSize.rows_fit_false_height`, `Gear.PadSize.center_inside`,
`Gear.PadSize.nearest_center`, `Gear.PadSize.nearest_exists`, `Gear.PadSize.nearest_in_sector`,
`Gear.PadSize.nearest_false_emptyRow`, `Gear.Versatile.extent_radial`, `Gear.Versatile.extent_phi_partial`,
`Gear.Versatile.extent_false_repeat`, `Gear.Versatile.counts`, `Gear.Versatile.addRow_ok_iff`,
`Gear.Versatile.addRow_rejected_partial`, `Gear.Versatile.addRow_rejected_false`,
`Gear.Versatile.nearest_exists_partial`, `Gear.Versatile.nearest_throws_iff`, `Gear.Versatile.nearest_false_offset`,
`Gear.Versatile.rowDistance_isLeast_partial`, `Gear.Versatile.rowDistance_false_side`,
`Gear.TpcModule.localToGlobal_is_placement_partial`, `Gear.TpcModule.globalToLocal_is_placement_partial`,
`Gear.TpcModule.global_roundtrip_partial`, `Gear.TpcModule.local_roundtrip_partial`,
`Gear.TpcModule.global_roundtrip_false_offset_along_y`, `Gear.TpcModule.setter_order_partial`,
`Gear.TpcModule.setter_order_false_z_last`, `Gear.TpcModule.cartesian_extents_partial`,
`Gear.TpcModule.sector_extents_partial`, `Gear.TpcModule.cartesian_extents_false_z_last`,
`Gear.TpcModule.sector_extents_false_new`, `Gear.TpcParams.getModules_eq`, `Gear.TpcParams.addModule_ok_iff`,
`Gear.TpcParams.addModule_effect`, `Gear.TpcParams.getModule_spec`, `Gear.TpcParams.queries_by_side`,
`Gear.TpcParams.no_z`, `Gear.TpcParams.getPlaneExtent_spec`, `Gear.TpcParams.getPlaneExtent_order`,
`Gear.TpcParams.tpc_isInsideModule_iff_partial`, `Gear.TpcParams.cathode_partial`, `Gear.TpcParams.drift_values`,
`Gear.TpcParams.cathode_false_module_without_z`, `Gear.TpcParams.copy_equal_partial`,
`Gear.TpcParams.globalPadIndex_order`, `Gear.TpcParams.globalPadIndex_less_iff`,
`Gear.Vector3D.cylindrical_coordinates`, `Gear.Vector3D.spherical_coordinates`, `Gear.Vector3D.coordinates_determine`,
`Gear.Vector3D.accessors`, `Gear.Vector3D.dot_laws`, `Gear.Vector3D.ofArray_eq`, `Gear.Vector3D.unit_laws`,
`Gear.ZPlanar.point_reported_partial`, `Gear.ZPlanar.reported_in_volume`,
`Gear.ZPlanar.point_reported_false_negative_y_axis`, `Gear.ZPlanar.point_reported_false_offset`,
`Gear.ZPlanar.point_reported_false_start_angle`, `Gear.ZPlanar.nearest_partial`, `Gear.ZPlanar.nearest_inside`,
`Gear.ZPlanar.nearest_false_origin`, `Gear.ZPlanar.nearest_false_one_ladder`,
`Gear.ZPlanar.nearest_false_wide_ladder`, `Gear.ZPlanar.intersection_sound`,
`Gear.ZPlanar.intersection_first_partial`, `Gear.ZPlanar.no_intersection_negative_z`,
`Gear.ZPlanar.intersection_first_false`, `Gear.ZPlanar.intersection_first_false_no_gap`, `Gear.ZPlanar.inner_phi`,
`Gear.ZPlanar.outer_phi_swapped`, `Gear.ZPlanar.outer_phi_partial`, `Gear.ZPlanar.outer_phi_false`,
`Gear.Ftd.mirrored_sensors_partial`, `Gear.Ftd.mirrored_iff`, `Gear.Ftd.mirrored_false`,
`Gear.Ftd.mirrored_false_many`, `Gear.Ftd.sensor_z`, `Gear.Ftd.sensor_z_false`, `Gear.Ftd.point_query_false`,
`Gear.Calo.contiguous`, `Gear.Calo.stacked`, `Gear.Calo.stacked_extent`, `Gear.Calo.extent_covers`,
`Gear.Telescope.tracker_layers`, `Gear.Telescope.tracker_object`, `Gear.Telescope.tracker_by_id`,
`Gear.Surf.global_local`, `Gear.Surf.local_global`, `Gear.Surf.distances_kept`, `Gear.Surf.rectangle`,
`Gear.Surf.trapezoid_partial`, `Gear.Surf.trapezoid_false_documented`, `Gear.Surf.trapezoid_false_flat`,
`Gear.Surf.surface_global`, `Gear.Xml.vectors_roundtrip`, `Gear.Xml.params_roundtrip_partial`,
`Gear.Xml.params_file_roundtrip_partial`, `Gear.Xml.r10_close`, `Gear.Xml.params_false`, `Gear.Xml.double_error`,
`Gear.Xml.double_exact`, `Gear.Xml.double_stable`, `Gear.Xml.double_not_exact`, `Gear.Xml.int_roundtrip`,
`Gear.Xml.value_roundtrip_partial`, `Gear.Xml.value_false`, `Gear.Xml.document_roundtrip_partial`,
`Gear.Xml.document_text_false`, `Gear.Xml.document_comment_false`, `Gear.Xml.Save.save_load_partial`,
`Gear.Xml.Save.mark_false`, `Gear.Xml.Save.incomplete_false`, `Gear.Xml.Save.declaration_false`,
`Gear.Xml.calo_roundtrip_partial`, `Gear.Xml.calo_same_partial`, `Gear.Xml.calo_compressed`,
`Gear.Xml.calo_exact_partial`, `Gear.Xml.calo_false`, `Gear.Xml.calo_slot_partial`, `Gear.Xml.calo_slot_false`,
`Gear.Xml.zplanar_roundtrip_partial`, `Gear.Xml.zplanar_exact_partial`, `Gear.Xml.zplanar_false`,
`Gear.Xml.ftd_roundtrip_partial`, `Gear.Xml.ftd_exact_partial`, `Gear.Xml.ftd_false`, `Gear.Xml.ftd_type_false`,
`Gear.Xml.siplanes_roundtrip_partial`, `Gear.Xml.siplanes_same_partial`, `Gear.Xml.siplanes_false`,
`Gear.Xml.siplanes_dut_false`, `Gear.Xml.siplanes_type_false`, `Gear.Xml.tracker_false`,
`Gear.Xml.tracker_read_partial`, `Gear.Xml.rect_roundtrip_partial`, `Gear.Xml.rect_exact_partial`,
`Gear.Xml.rect_repeat_false`, `Gear.Xml.rect_rounding_false`, `Gear.Xml.padSize_roundtrip_partial`,
`Gear.Xml.padSize_exact_partial`, `Gear.Xml.padSize_same`, `Gear.Xml.padSize_false`, `Gear.Xml.padAngle_false`,
`Gear.Xml.padAngle_read_partial`, `Gear.Xml.versatile_roundtrip_partial`, `Gear.Xml.versatile_rows_partial`,
`Gear.Xml.versatile_false`, `Gear.Xml.tpc_roundtrip_partial`, `Gear.Xml.driftVelocity_false`,
`Gear.Xml.frequency_false`, `Gear.Xml.unsupported_false`, `Gear.Xml.material_roundtrip`, `Gear.Xml.material_exact`,
`Gear.Xml.bField_roundtrip`, `Gear.Xml.bField_roundtrip_partial`, `Gear.Xml.same_manager`, `Gear.Xml.first_call`,
`Gear.Xml.after_failure_false`, `Gear.Xml.Merge.merge_keeps`, `Gear.Xml.Merge.merge_adds_partial`,
`Gear.Xml.Merge.others_lost_false`, `Gear.Xml.Merge.field_lost_false`, `Gear.Xml.Merge.unnamed_lost_false`,
`Gear.Xml.Merge.repeated_false`, `Gear.Xml.Merge.merge_safe_partial`, `Gear.Xml.Merge.merge_refused`,
`Gear.Xml.Merge.merge_repeat`, `Gear.Xml.Merge.merge_ub_false`, `Gear.Xml.Merge.section_ub_false`,
`Gear.Xml.Merge.material_ub_false`, `Gear.Xml.Merge.parameter_ub_false`, `Gear.Xml.Merge.merge_repeat_false`,
`Gear.MaterialMap.interpolation_between_partial`, `Gear.MaterialMap.interpolation_at_grid_partial`,
`Gear.MaterialMap.outside_throws`, `Gear.MaterialMap.interpolation_false_border`,
`Gear.MaterialMap.interpolation_false_rounding`, `Gear.MaterialMap.construct_rejects`,
`Gear.MaterialMap.construct_partial`, `Gear.MaterialMap.construct_false`, `Gear.MaterialMap.construct_iff`,
`Gear.MaterialMap.construct_no_distance`, `Gear.MaterialMap.construct_false_last_cell`,
`Gear.MaterialMap.construct_false_endless`, `Gear.MapFactory.create_partial`, `Gear.MapFactory.create_same_grid`,
`Gear.MapFactory.create_false_coord`, `Gear.MapFactory.create_false_null`, `Gear.TGeoDistance.history_false_names`,
`Gear.TGeoDistance.history_false_undefined`, `Gear.Xml.Registry.getHandler_last`, `Gear.Xml.Registry.setHandler_null`,
`Gear.Rect.nearestOld_exists`, `Gear.Rect.nearestOld_contains`, `Gear.Rect.addRow_ok_iff`, `Gear.Rect.addRow_rows`,
`Gear.PadAngle.isInsidePad_iff`, `Gear.PadAngle.center_and_size`, `Gear.PadAngle.insideAny_iff`,
`Gear.PadAngle.pads_disjoint`, `Gear.PadAngle.padsInRow_made`, `Gear.Disk.keystoneDistance_isLeast`,
`Gear.Disk.keystoneDistance_false_turn`, `Gear.PadAngle.distance_isLeast`, `Gear.PadSize.distance_isLeast`,
`Gear.Versatile.distance_isLeast`, `Gear.PadAngle.nearest_least_partial`, `Gear.PadAngle.nearest_false_outside`,
`Gear.PadSize.insideAny_exists`, `Gear.PadSize.insideAny_iff_partial`, `Gear.PadSize.insideAny_false_border`,
`Gear.PadSize.isInsidePad_turn_partial`, `Gear.PadSize.nearest_turn_partial`, `Gear.PadSize.nearest_false_turn`,
`Gear.PadSize.nearest_false_seam`, `Gear.Versatile.nearest_turn_partial`, `Gear.Versatile.nearest_false_seam`,
`Gear.Versatile.isInsidePad_false_turn`, `Gear.Versatile.pads_placed`, `Gear.Versatile.pads_disjoint`,
`Gear.Versatile.isInsidePad_iff_partial`, `Gear.TpcModule.localToGlobal_angle_range_partial`,
`Gear.TpcModule.globalToLocal_angle_range_partial`, `Gear.TpcModule.globalToLocal_angle_range_false`,
`Gear.TpcModule.isInsideModule_iff_partial`, `Gear.TpcModule.isInsideModule_false_tip`,
`Gear.TpcModule.getDistanceToModule_isLeast_partial`, `Gear.TpcModule.distance_zero_iff_partial`,
`Gear.TpcModule.border_cartesian`, `Gear.TpcModule.border_polar_partial`,
`Gear.TpcModule.border_polar_false_full_circle`, `Gear.TpcModule.queries_are_local_partial`,
`Gear.TpcModule.padCenter_is_placed_partial`, `Gear.TpcModule.queries_at_padCenter`,
`Gear.TpcModule.polar_extents_centred_partial`, `Gear.TpcModule.polar_extents_false_full_circle`,
`Gear.TpcModule.polar_extents_radii_partial`, `Gear.TpcModule.polar_extents_angles_partial`,
`Gear.TpcModule.polar_extents_angles_false_edge`, `Gear.TpcModule.polar_extents_angles_false_graze`,
`Gear.TpcParams.getReadoutFrequency_ok_iff`, `Gear.TpcParams.setReadoutFrequency_spec`,
`Gear.TpcParams.getPadLayout_ok_iff`, `Gear.TpcParams.setPadLayout_spec`, `Gear.TpcParams.getNearestPad_first_least`,
`Gear.TpcParams.getNearestPad_least`, `Gear.Vector3D.bracket_components`, `Gear.Vector3D.bracket_outside_partial`,
`Gear.Vector3D.bracket_outside_false_not_const`, `Gear.ZPlanar.thickness_partial`,
`Gear.ZPlanar.thickness_false_corner`, `Gear.ZPlanar.thickness_false_turned`, `Gear.ZPlanar.max_radius`,
`Gear.Ftd.staggered_partial`, `Gear.Ftd.staggered_false`, `Gear.Ftd.staggered_false_mirrored`,
`Gear.Ftd.getters_throw`, `Gear.Calo.layers_return`, `Gear.Telescope.tracker_layout_id_false`,
`Gear.Xml.load_terminates_partial`, `Gear.Xml.Place.load_ends_partial`, `Gear.Xml.Place.load_erases`,
`Gear.Xml.Place.load_false_endless`, `Gear.Xml.load_safe_partial`, `Gear.Xml.load_closed_partial`,
`Gear.Xml.load_written_partial`, `Gear.Xml.load_safe_false`, `Gear.Xml.Grammar.unclosed_iff`,
`Gear.Xml.Grammar.unclosed_rejected_partial`, `Gear.Xml.Grammar.cut_in_child_rejected_partial`,
`Gear.Xml.truncated_rejected_partial`, `Gear.Xml.truncated_false`, `Gear.Xml.repeated_attribute_false`,
`Gear.Xml.Registry.ownership_partial`, `Gear.Xml.Registry.ownership_false`, `Gear.Xml.material_missing_partial`,
`Gear.Xml.bField_missing_partial`, `Gear.Xml.material_malformed_false`, `Gear.Xml.number_malformed_false`,
`Gear.Xml.oldSyntax`, `Gear.Xml.file_roundtrip_partial`, `Gear.Xml.noName_false`, `Gear.Xml.trackerFile_false`,
`Gear.Xml.gdmlFile_false`, `Gear.TGeoDistance.trace_partial`, `Gear.TGeoDistance.thicknesses_sum_partial`,
`Gear.TGeoDistance.lengths_partial`, `Gear.TGeoDistance.trace_false_thin`, `Gear.TGeoDistance.trace_false_border`,
`Gear.TGeoDistance.trace_ends`, `Gear.Print.zplanar_partial`, `Gear.Print.ftd_partial`, `Gear.Print.si_partial`,
`Gear.Print.dut_partial`, `Gear.Print.zplanar_false`, `Gear.Print.ftd_false`, `Gear.Print.ftd_false_layers`,
`Gear.Print.si_false`, `Gear.TGeoPoint.getList_history`, `Gear.TGeoPoint.local_false_first`,
`Gear.TGeoPoint.local_false_other`, `Gear.TGeoPoint.local_false_list`, `Gear.Cga.pack_eq`, `Gear.Cga.getCellID_spec`,
`Gear.Cga.pack_injective`, `Gear.Cga.beamOn_spec`, `Gear.Print.zplanar_shows`, `Gear.Print.ftd_shows`,
`Gear.Print.si_shows`, `Gear.Print.dut_shows`, `Gear.Print.si_columns_partial`, `Gear.Print.dut_columns_false`,
`Gear.Print.zplanar_columns_partial`, `Gear.Print.zplanar_columns_false`, `Gear.Print.calo_partial`,
`Gear.Print.calo_false`, `Gear.Print.params_history`, `Gear.Print.manager_partial`, `Gear.Print.manager_false`,
`Gear.Xml.Dom.tree_history`, `Gear.Xml.Dom.memory_history`, `Gear.Xml.Dom.no_leak`,
`Gear.Xml.Dom.copy_content_partial`, `Gear.Xml.Dom.reads_history`, `Gear.Xml.Attr.attr_history_partial`,
`Gear.Xml.Attr.attr_memory`, `Gear.Ftd.getThicknessForAngle_eq`, `Gear.Ftd.getThicknessForAngle_throws`,
`Gear.Ftd.start_end_phi_false`, `Gear.Xml.Place.stamp_place_partial`, `Gear.Xml.Place.load_places_partial`,
`Gear.Xml.Place.load_places_false_late`, `Gear.Xml.Place.load_error_iff_partial`,
`Gear.Xml.Place.load_error_false_empty`, `Gear.Xml.Place.load_error_place_partial`, `Gear.Xml.Grammar.load_iff`,
`Gear.Xml.Grammar.file_unique`, `Gear.Xml.Grammar.load_lenient`, `Gear.Gdml.properties_of_last`, `Gear.Gdml.null_iff`,
`Gear.Gdml.initialize_throws_iff`, `Gear.Xml.gdml_read`, `Gear.Xml.gdml_unreadable`, `Gear.Xml.gdml_ignored`,
`Gear.Xml.Dom.handle_history`, `Gear.Xml.Stream.written_read_partial`, `Gear.Xml.Stream.written_read_all_partial`,
`Gear.Xml.Stream.comment_false`, `Gear.Xml.Stream.unknown_false`, `Gear.Xml.Stream.after_false`,
`Gear.Xml.Stream.replaced_false`, `Gear.Xml.Stream.read_takes_partial`, `Gear.Xml.Stream.read_as_file_partial`,
`Gear.Xml.Stream.read_zero_false`, `Gear.Xml.Stream.read_greater_false`, `Gear.Xml.Stream.read_slash_false`,
`Gear.Xml.Save.resave_partial`, `Gear.Xml.Save.resave_reference_false`, `Gear.Xml.Save.resave_stray_false`,
`Gear.Xml.Save.resave_blank_false`, `Gear.Xml.Save.resave_comment_false`, `Gear.Xml.Save.resave_declaration_false`,
`Gear.Xml.Save.resave_incomplete_false`, `Gear.Xml.saved_copy_partial`, `Gear.Xml.copy_copy_partial`,
`Gear.Xml.rect_stable_partial`, `Gear.Xml.padSize_stable_partial`, `Gear.Xml.velocity_copy_false`,
`Gear.Xml.frequency_copy_false`, `Gear.Xml.versatile_copy_false`, `Gear.Xml.calo_copy_false`,
`Gear.Xml.Merge.mergeXML_files`, `Gear.Xml.Merge.mergeXML_zero_partial`, `Gear.Xml.Merge.mergeXML_fails`,
`Gear.Xml.Merge.mergeXML_target_partial`, `Gear.Xml.Merge.exception_false`, `Gear.Xml.Merge.text_false`,
`Gear.TGeoDistance.printMaterials_partial`, `Gear.TGeoDistance.piece_false`, `Gear.VectorND.get_spec`,
`Gear.VectorND.history`, `Gear.PadAngle.Double.nearest_near`, `Gear.PadAngle.Double.nearest_deep`,
`Gear.PadAngle.Double.nearest_is_pad`, `Gear.PadAngle.Double.nearest_turns_double`,
`Gear.PadAngle.Double.nearest_beyond_double`, `Gear.PadAngle.Double.nearest_before_double`,
`Gear.PadAngle.Double.inside_deep`, `Gear.PadAngle.Double.nearest_center_double`,
`Gear.PadAngle.Double.nearest_double_false_below_end`, `Gear.PadAngle.Double.inside_double_false_gap`,
`Gear.Doubles.binary64_rounding`, `Gear.PadAngle.Double.nearest_ends_partial`,
`Gear.PadAngle.Double.nearest_valid_partial`, `Gear.PadAngle.Double.nearest_ends_false_large`,
`Gear.PadAngle.Double.nearest_valid_false_far`, `Gear.PadAngle.Double.nearest_valid_false_below`,
`Gear.PadSize.Double.rows_fit_double`, `Gear.PadSize.Double.pads_fit_double`,
`Gear.PadSize.Double.nearest_in_sector_double`, `Gear.PadSize.Double.nearest_deep_double`,
`Gear.PadSize.Double.inside_double`, `Gear.PadSize.Double.nearest_center_double`,
`Gear.PadSize.Double.pads_fit_double_false_exact`, `Gear.PadSize.Double.nearest_exists_double_partial`,
`Gear.PadSize.Double.nearest_exists_double_false_large`, `Gear.PadSize.Double.nearest_exists_double_false_far`,
`Gear.Calo.Double.ordered_double`, `Gear.Calo.Double.stacked_double`, `Gear.Calo.Double.extent_double`,
`Gear.Calo.Double.stacked_double_false_exact`, `Gear.Calo.Double.ordered_double_false_strict`,
`Gear.TpcModule.Double.localToGlobal_double`, `Gear.TpcModule.Double.globalToLocal_double`,
`Gear.TpcModule.Double.local_roundtrip_double`, `Gear.TpcModule.Double.global_roundtrip_double`,
`Gear.TpcModule.Double.offset_along_y_never`, `Gear.TpcModule.Double.roundtrip_double_false_exact`,
`Gear.Rect.Double.nearest_double_partial`, `Gear.Rect.Double.nearest_double_ends_partial`,
`Gear.Rect.Double.nearest_double_safe_partial`, `Gear.Rect.Double.nearest_double_false_endless`,
`Gear.Rect.Double.nearest_double_false_throws`, `Gear.Rect.Double.index_double`, `Gear.Rect.Double.center_double`,
`Gear.Rect.Double.inside_double`, `Gear.Rect.Double.nearest_center_double`, `Gear.TGeoDistance.Double.radlen_double`,
`Gear.TGeoDistance.Double.intlen_double`, `Gear.TGeoDistance.Double.radlen_grows`,
`Gear.TGeoDistance.Double.intlen_grows`, `Gear.TGeoDistance.Double.radlen_double_false_exact`,
`Gear.Versatile.Double.counts_double`, `Gear.Versatile.Double.extent_double`, `Gear.Versatile.Double.sizes_double`,
`Gear.Versatile.Double.angle_double`, `Gear.Versatile.Double.nearest_double_partial`,
`Gear.Versatile.Double.nearest_center_double_partial`, `Gear.Versatile.Double.inside_double_partial`,
`Gear.Versatile.Double.inside_only_double_partial`, `Gear.Versatile.Double.nearest_ends_double`,
`Gear.Versatile.Double.nearest_endless_false`, `Gear.Versatile.Double.nearest_corner_false`,
`Gear.PadSize.nearest_least_partial`, `Gear.PadSize.nearest_distance_partial`, `Gear.PadSize.nearest_least_circle`,
`Gear.PadSize.nearest_false_opening`, `Gear.PadSize.nearest_false_lower`, `Gear.Rect.nearest_least_partial`,
`Gear.Rect.nearest_least_aligned`, `Gear.Rect.nearest_least_noGaps`, `Gear.Rect.nearest_least_false`,
`Gear.Rect.Double.distance_double`, `Gear.Rect.Double.distance_double_inside`, `Gear.Rect.Double.exact_distance`,
`Gear.Disk.Double.distance_double_partial`, `Gear.Disk.Double.distance_double_within`,
`Gear.Disk.Double.distance_false_nan`, `Gear.Disk.Double.distance_false_far`, `Gear.Surf.Double.local_double`,
`Gear.Surf.Double.global_double`, `Gear.Surf.Double.round_trip_double`, `Gear.Surf.Double.round_trip_local_double`,
`Gear.Surf.Double.exact_surface`, `Gear.Surf.Double.rectangle_double`, `Gear.Surf.Double.trapezoid_double`,
`Gear.Surf.Double.rectangle_global_double`, `Gear.Surf.Double.wider_zero`, `Gear.ZPlanar.Float.reported_float`,
`Gear.ZPlanar.Float.point_reported_float_partial`, `Gear.ZPlanar.Float.point_reported_float_false`,
`Gear.ZPlanar.Float.binary32_converts`, `Gear.ZPlanar.Float.nearest_float_partial`,
`Gear.ZPlanar.Float.nearest_inside_float`, `Gear.ZPlanar.Float.intersection_sound_float`,
`Gear.ZPlanar.Float.intersection_first_float_partial`, `Gear.ZPlanar.Float.intersection_first_float_false`,
`Gear.Print.Tracker.tracker_partial`, `Gear.Print.Tracker.tracker_shows`,
`Gear.Print.Tracker.tracker_columns_partial`, `Gear.Print.Tracker.tracker_false`, `Gear.Print.Geo.print_partial`,
`Gear.Print.Geo.print_saved_partial`, `Gear.Print.Geo.print_unreadable`, `Gear.Print.Geo.print_missing`,
`Gear.Print.Geo.print_usage`, `Gear.Print.Geo.seven_false`, `Gear.Print.Geo.seven_file_false`,
`Gear.TpcModule.Double.distance_double`, `Gear.TpcModule.Double.center_double`, `Gear.TpcModule.Double.inside_double`,
`Gear.TpcModule.Double.nearest_double_partial`, `Gear.TpcModule.Double.tpc_nearest_double_partial`,
`Gear.TpcModule.Double.tpc_side_double_partial`, `Gear.TpcModule.Double.disk_nearest_double_partial`,
`Gear.TpcModule.Double.disk_inside_double_partial`, `Gear.TpcModule.Double.disk_distance_double_partial`,
`Gear.TpcModule.Double.disk_center_double`, `Gear.TpcModule.Double.tpc_disk_nearest_double_partial`,
`Gear.TpcModule.Double.disk_far_double_partial`, `Gear.TpcModule.Double.tpc_disks_nearest_double_partial`,
`Gear.TpcModule.Double.disk_inside_false`, `Gear.TpcModule.Double.tpc_disk_nearest_false`,
`Gear.TpcModule.Double.size_nearest_double`, `Gear.TpcModule.Double.size_inside_double`,
`Gear.TpcModule.Double.size_distance_double`, `Gear.TpcModule.Double.size_center_double`,
`Gear.TpcModule.Double.tpc_size_nearest_double`, `Gear.TpcModule.Double.area_distance_double`,
`Gear.TpcModule.Double.area_inside_double`, `Gear.TpcModule.Double.any_pad_double`,
`Gear.TpcModule.Double.tpc_inside_double`, `Gear.TpcModule.Double.tpc_nearest_module_double`,
`Gear.TpcModule.Double.tpc_any_pad_double_partial`, `Gear.TpcModule.Double.disk_area_inside_double_partial`,
`Gear.TpcModule.Double.disk_any_pad_double_partial`, `Gear.TpcModule.Double.disk_any_pad_only_double`,
`Gear.TpcModule.Double.tpc_disk_inside_double_partial`, `Gear.TpcModule.Double.disk_pad_queries_false`,
`Gear.TpcModule.Double.disk_area_far_double_partial`, `Gear.TpcModule.Double.disk_area_within_double`,
`Gear.TpcModule.Double.tpc_disk_nearest_module_double_partial`,
`Gear.TpcModule.Double.any_area_inside_double_partial`, `Gear.TpcModule.Double.any_area_within_double`,
`Gear.TpcModule.Double.any_area_far_double_partial`, `Gear.TpcModule.Double.tpc_any_inside_double_partial`,
`Gear.TpcModule.Double.tpc_mixed_nearest_module_double_partial`, `Gear.TpcModule.Double.size_ring`,
`Gear.TpcModule.Double.size_area_inside_double_partial`, `Gear.TpcModule.Double.versatile_nearest_double_partial`,
`Gear.TpcModule.Double.versatile_inside_double_partial`, `Gear.TpcModule.Double.versatile_distance_double`,
`Gear.TpcModule.Double.tpc_versatile_nearest_double_partial`, `Gear.TpcModule.Double.versatile_center_double`,
`Gear.TpcModule.Double.versatile_segment_double`, `Gear.TpcModule.Double.versatile_area_inside_double_partial`,
`Gear.TpcModule.Double.size_far_double_partial`, `Gear.TpcModule.Double.versatile_far_double_partial`,
`Gear.TpcModule.Double.size_beside_double_partial`, `Gear.TpcModule.Double.versatile_beside_double_partial`,
`Gear.TpcModule.Double.pad_distance_double_partial`,
`Gear.TpcModule.Double.tpc_mixed_versatile_nearest_double_partial`,
`Gear.TpcModule.Double.tpc_mixed_size_nearest_double_partial`,
`Gear.TpcModule.Double.tpc_mixed_angle_nearest_double_partial`,
`Gear.TpcModule.Double.tpc_mixed_rectangular_nearest_double_partial`

**Quot.sound, propext** (70):
`Gear.PadAngle.getPadIndex_rejects_partial`, `Gear.Versatile.illegal_row`, `Gear.Rect.nearest_unique`,
`Gear.Rect.copy_queries_partial`, `Gear.PadAngle.nearest_negative_radius`, `Gear.PadSize.new_rejects`,
`Gear.PadSize.nearest_origin`, `Gear.Versatile.nearest_row`, `Gear.TpcParams.smallestExtent_unique`,
`Gear.TpcParams.getNearestModule_first_least`, `Gear.TpcParams.getNearestModule_ok_iff`,
`Gear.TpcParams.isInsideModule_spec`, `Gear.TpcParams.isInsidePad_spec`, `Gear.TpcParams.inside_union`,
`Gear.TpcParams.copy_false_never_ends`, `Gear.Vector3D.vector_space`, `Gear.Vector3D.cross_laws`,
`Gear.Vector3D.equal_iff`, `Gear.ZPlanar.getters_return`, `Gear.ZPlanar.getters_throw`, `Gear.ZPlanar.shell_kept`,
`Gear.Ftd.mirrored_partial`, `Gear.Ftd.never_reported`, `Gear.Calo.barrel_extent`, `Gear.Calo.endcap_extent`,
`Gear.Telescope.getters_return`, `Gear.Telescope.getters_range`, `Gear.Telescope.dut_getters`,
`Gear.Telescope.short_is_full`, `Gear.Surf.origin_axes`, `Gear.Surf.fill_new`, `Gear.Surf.failed_fill`,
`Gear.Xml.tokens_roundtrip`, `Gear.Xml.tokens_of_any`, `Gear.MapFactory.made_stable`, `Gear.MapFactory.create_again`,
`Gear.TGeoDistance.history_partial`, `Gear.TGeoDistance.answers`, `Gear.TGeoDistance.answers_equal`,
`Gear.TGeoDistance.history_false_exception`, `Gear.PadAngle.isInsideAnyPad_iff`, `Gear.PadAngle.counts`,
`Gear.TpcParams.getNearestPad_few`, `Gear.Ftd.petal_angles`, `Gear.Ftd.getters_return_partial`,
`Gear.Ftd.getNLayers_eq`, `Gear.Ftd.getMaxRadius_eq`, `Gear.Calo.run_const`, `Gear.Telescope.tracker_layout_info`,
`Gear.Telescope.tracker_layout_id_partial`, `Gear.Surf.nothing_deleted`, `Gear.Surf.no_double_delete_partial`,
`Gear.Surf.deleted_false`, `Gear.Xml.Place.stamp_ends_partial`, `Gear.Xml.Place.stamp_endless`,
`Gear.Print.manager_format_partial`, `Gear.TGeoPoint.local_partial`, `Gear.Cga.number_spec`, `Gear.Cga.list_history`,
`Gear.Xml.Attr.attr_unique_partial`, `Gear.Xml.Attr.attr_copy_partial`, `Gear.Ftd.start_end_phi`,
`Gear.TGeoDistance.printMaterials_same`, `Gear.VectorND.negative`, `Gear.PadSize.Double.nearest_origin_double`,
`Gear.Calo.Double.contiguous_double`, `Gear.Rect.Double.exact_arithmetic`,
`Gear.TGeoDistance.Double.exact_arithmetic`, `Gear.Versatile.Double.exact_arithmetic`,
`Gear.ZPlanar.Float.exact_floats`

**propext** (22):
`Gear.Surf.filled_once`, `Gear.Surf.surface_stable`, `Gear.Surf.surface_stable_history`,
`Gear.Surf.surface_from_filler`, `Gear.Surf.filler_throws`, `Gear.Surf.failed_fill_false`,
`Gear.Xml.Place.stamp_false_endless`, `Gear.Print.afterMaterial_iff`, `Gear.TGeoPoint.getNumber_history`,
`Gear.TGeoPoint.getMaterialName_history`, `Gear.TGeoPoint.matName_after`, `Gear.Cga.own_partial`,
`Gear.Xml.Dom.link_false_twice`, `Gear.Xml.Dom.copy_content_false`, `Gear.Xml.Dom.assign_false_self`,
`Gear.Xml.Dom.assign_false_child`, `Gear.Xml.Attr.walked_all`, `Gear.Xml.Attr.attr_lists`,
`Gear.Xml.Place.stamp_place_false_cut`, `Gear.Xml.Place.stamp_off`, `Gear.Xml.Place.setError_first`,
`Gear.VectorND.constructed`

**none** (4):
`Gear.Print.manager_format_false`, `Gear.Cga.own_false`, `Gear.Xml.Attr.attr_history_false`,
`Gear.Xml.Attr.attr_unique_false`
