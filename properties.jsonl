{"id": "C01", "title": "Named parameters: last write wins, types and keys are isolated", "statement": "After any sequence of set calls on a GearParametersImpl, get<Type>Val/Vals(key) returns the value most recently set under that key for that type, and throws UnknownParameterException when that key was never set for that type; a set for one type or key never changes what any other type or key reads back.", "quantifier": "every finite sequence of setter calls, every key, all six value types", "why_tests_cant": "the number of call histories and keys is unbounded; isolation is a statement about all other keys", "anchors": ["src/gearimpl/GearParametersImpl.cc: getIntVal, setIntVal, getDoubleVal, setDoubleVal, getStringVal, setStringVal, getIntVals, setIntVals, getDoubleVals, setDoubleVals, getStringVals, setStringVals"]}
{"id": "C02", "title": "Key listings are exact, sorted and duplicate free", "statement": "After any sequence of set and key-listing calls, get<Type>Keys() lists exactly the keys set so far for that type, each once, in strictly ascending order, however often the listing is requested.", "quantifier": "every sequence of setter and key-listing calls", "why_tests_cant": "history property (mutable cache refilled on each call)", "anchors": ["src/gearimpl/GearParametersImpl.cc: getIntKeys, getDoubleKeys, getStringKeys, getIntVecKeys, getDoubleVecKeys, getStringVecKeys"]}
{"id": "C03", "title": "Manager sections: getters return the last object set, or throw", "statement": "After any sequence of section setters on a GearMgrImpl, each section getter returns the object most recently passed to that section's setter and throws UnknownParameterException if it is unset; setters of one section never affect another section.", "quantifier": "every sequence of the section setters, every section", "why_tests_cant": "unbounded histories times 20 sections", "anchors": ["src/gearimpl/GearMgrImpl.cc: getTPCParameters..getTrackerPlanesParameters, setTPCParameters..setTrackerPlanesParameters, getDetectorName, setDetectorName"]}
{"id": "C04", "title": "Generic parameter collections in the manager", "statement": "After any sequence of setGearParameters(key, p) calls, getGearParameters(key) returns the last non-null collection registered under key and throws if there is none; passing null changes nothing; getGearParameterKeys lists exactly the registered keys, sorted.", "quantifier": "every call sequence, every key", "why_tests_cant": "history property", "anchors": ["src/gearimpl/GearMgrImpl.cc: setGearParameters, getGearParameters, getGearParameterKeys"]}
{"id": "C05", "title": "Forward calorimeters always carry a beam crossing angle", "statement": "After setLcalParameters/setLHcalParameters/setBeamCalParameters the stored object has a double parameter beam_crossing_angle: the value it had before, or 0.0 if it had none, and all its other parameters are unchanged.", "quantifier": "every calorimeter object and prior parameter content", "why_tests_cant": "for all parameter contents", "anchors": ["src/gearimpl/GearMgrImpl.cc: setLcalParameters, setLHcalParameters, setBeamCalParameters"]}
{"id": "C06", "title": "Material registry: unique names, failed registration changes nothing", "statement": "registerSimpleMaterial accepts a material iff no material with that name is registered, otherwise throws and leaves every lookup unchanged; getSimpleMaterial returns the first registered material of that name or throws; getMaterialNames is the sorted set of registered names.", "quantifier": "every sequence of registrations and lookups", "why_tests_cant": "history property", "anchors": ["src/gearimpl/GearMgrImpl.cc: registerSimpleMaterial, getSimpleMaterial, getMaterialNames"]}
{"id": "C07", "title": "The manager frees every object handed to it exactly once", "statement": "For every sequence of set calls followed by destruction of the manager, every object that was handed over is deleted exactly once and none is used after deletion.", "quantifier": "every sequence of set calls, including replacing an object and passing the same object twice", "why_tests_cant": "history/ownership property; leaks and double frees are invisible to functional tests", "anchors": ["src/gearimpl/GearMgrImpl.cc: ~GearMgrImpl, cleanup, setTPCParameters, setGearParameters, set*Parameters"]}
{"id": "C08", "title": "Pad index encoding is invertible", "statement": "For every layout class and every (row, pad) that the layout accepts, getRowNumber(getPadIndex(row,pad)) = row and getPadNumber(getPadIndex(row,pad)) = pad; hence different pads have different indices.", "quantifier": "all row and pad numbers accepted by getPadIndex", "why_tests_cant": "2^32 inputs times all layouts", "anchors": ["src/gearimpl/RectangularPadRowLayout.cc: getPadIndex, getRowNumber, getPadNumber", "src/gearimpl/FixedDiskLayoutBase.cc: getPadNumber, getRowNumber", "src/gearimpl/VersatileDiskRowLayout.cc: getPadIndex", "src/gearimpl/FixedPadSizeDiskLayout.cc: getPadIndex", "src/gearimpl/FixedPadAngleDiskLayout.cc: getPadIndex"]}
{"id": "C09", "title": "getPadIndex rejects exactly the non-existing pads", "statement": "getPadIndex(row, pad) succeeds iff the layout has a row 'row' with a pad 'pad', and throws std::out_of_range otherwise; it never reads outside its tables.", "quantifier": "every layout and all int arguments, including negative ones and the empty layout", "why_tests_cant": "2^64 argument pairs", "anchors": ["src/gearimpl/RectangularPadRowLayout.cc: getPadIndex", "src/gearimpl/FixedPadAngleDiskLayout.cc: getPadIndex", "src/gearimpl/VersatileDiskRowLayout.cc: getPadIndex", "src/gearimpl/FixedPadSizeDiskLayout.cc: getPadIndex"]}
{"id": "C10", "title": "Rectangular rows stack without gap or overlap", "statement": "After any sequence of successful addRow/repeatRows calls the rows tile [yMin, yMax] in order: row i covers exactly [yMin + sum of earlier row heights, + its own height], its pads' centres are at the middle, and getPlaneExtent is [xMin, xMax, yMin, yMin + sum of all row heights].", "quantifier": "every sequence of addRow and repeatRows calls with any parameters", "why_tests_cant": "unbounded build histories", "anchors": ["src/gearimpl/RectangularPadRowLayout.cc: RectangularPadRowLayout, addRow, repeatRows, getPlaneExtent"]}
{"id": "C11", "title": "Rectangular: pad counts and pad lists agree", "statement": "After any sequence of addRow/repeatRows calls, getNPads is the sum over rows of the number of pads, getNRows the number of rows, and getPadsInRow(r) lists exactly getPadIndex(r,0..n-1) in order.", "quantifier": "every build history", "why_tests_cant": "unbounded histories", "anchors": ["src/gearimpl/RectangularPadRowLayout.cc: addRow, repeatRows, getPadsInRow, getNPads, getNRows"]}
{"id": "C12", "title": "Rectangular: a rejected addRow leaves the layout unchanged", "statement": "If addRow throws, every later query answers as if addRow had not been called.", "quantifier": "every layout state and every rejected argument list", "why_tests_cant": "failure atomicity over all states", "anchors": ["src/gearimpl/RectangularPadRowLayout.cc: addRow"]}
{"id": "C13", "title": "Rectangular: repeatRows repeats the pattern exactly count times, once", "statement": "repeatRows(count) on a layout with rows R (not repeated yet) gives the row sequence R repeated count times, stacked; a second repeatRows has no effect.", "quantifier": "every layout and every count", "why_tests_cant": "for all counts and layouts", "anchors": ["src/gearimpl/RectangularPadRowLayout.cc: repeatRows"]}
{"id": "C14", "title": "Rectangular: pads of one layout do not overlap", "statement": "No point lies strictly inside two different pads of a rectangular layout (isInsidePad(x,y,i) and isInsidePad(x,y,j) with i and j different implies a common border).", "quantifier": "every layout, every point, all pairs of pads", "why_tests_cant": "quantifies over all points", "anchors": ["src/gearimpl/RectangularPadRowLayout.cc: isInsidePad, getPadCenter"]}
{"id": "C15", "title": "Rectangular: a pad's centre belongs to that pad", "statement": "isInsidePad(getPadCenter(i), i) holds for every pad i and getNearestPad(getPadCenter(i)) = i.", "quantifier": "every layout built by the API and every pad", "why_tests_cant": "for all layouts and pads", "anchors": ["src/gearimpl/RectangularPadRowLayout.cc: getPadCenter, isInsidePad, getNearestPad"]}
{"id": "C16", "title": "Rectangular: getNearestPad terminates with an existing pad for every point", "statement": "For every layout with at least one row and every point (inside or outside the layout) getNearestPad returns the index of an existing pad; it always terminates and never reads outside the row table.", "quantifier": "every layout with >= 1 row and every point of the plane", "why_tests_cant": "termination and memory safety for all inputs", "anchors": ["src/gearimpl/RectangularPadRowLayout.cc: getNearestPad"]}
{"id": "C17", "title": "Rectangular: the point's pad is the nearest pad", "statement": "If a point is inside pad i then getNearestPad returns i (up to shared borders); isInsidePad(x,y) holds iff the point is inside some pad.", "quantifier": "every layout, every point", "why_tests_cant": "for all points", "anchors": ["src/gearimpl/RectangularPadRowLayout.cc: isInsidePad, getNearestPad"]}
{"id": "C18", "title": "Neighbour navigation is inverse and stays in the row", "statement": "For every layout, getRightNeighbour and getLeftNeighbour stay in the row, move by one pad, are inverse to each other, and at the end of a row either wrap around (full-circle disk layouts) or throw.", "quantifier": "every layout and every pad", "why_tests_cant": "for all layouts and pads", "anchors": ["src/gearimpl/RectangularPadRowLayout.cc: getRightNeighbour, getLeftNeighbour", "src/gearimpl/FixedPadSizeDiskLayout.cc: getLeftNeighbour, getRightNeighbour", "src/gearimpl/FixedPadAngleDiskLayout.cc: getLeftNeighbour, getRightNeighbour", "src/gearimpl/VersatileDiskRowLayout.cc: getLeftNeighbour, getRightNeighbour"]}
{"id": "C19", "title": "Copies of a pad layout answer every query like the original", "statement": "clone()/copy construction/assignment of a layout yields an object that answers all queries as the original does.", "quantifier": "every layout and every query", "why_tests_cant": "for all states and queries", "anchors": ["src/gearimpl/RectangularPadRowLayout.cc: copy_and_assign, clone", "src/gearimpl/VersatileDiskRowLayout.cc: clone", "src/gearimpl/FixedPadSizeDiskLayout.cc: clone", "src/gearimpl/FixedPadAngleDiskLayout.cc: clone"]}
{"id": "C20", "title": "Rectangular: distance to a pad is the Euclidean distance to its box", "statement": "getDistanceToPad(x,y,i) is 0 iff the point is inside pad i and otherwise the Euclidean distance from the point to the pad's rectangle.", "quantifier": "every layout, point and pad", "why_tests_cant": "continuum of points", "anchors": ["src/gearimpl/RectangularPadRowLayout.cc: getDistanceToPad, distanceToBox"]}
{"id": "C21", "title": "FixedPadAngle: every point in the covered sector has a valid nearest pad", "statement": "For every point (r,phi) with r >= 0 getNearestPad returns an existing pad, for every point inside the plane extent that pad contains the point, and pad centres map to their own pad.", "quantifier": "every constructed layout and point", "why_tests_cant": "continuum of points, boundary values", "anchors": ["src/gearimpl/FixedPadAngleDiskLayout.cc: getNearestPad, getPadCenter, isInsidePad"]}
{"id": "C22", "title": "FixedPadSize: rows and pads fit into the declared disk", "statement": "For every constructor argument accepted, rows have equal height and tile [rMin,rMax], every row's pads fit into the angle phiMax at its radius, and getNPads is the sum over rows.", "quantifier": "all constructor arguments", "why_tests_cant": "all real parameters", "anchors": ["src/gearimpl/FixedPadSizeDiskLayout.cc: FixedPadSizeDiskLayout, getNPads, getNRows, getPadsInRow"]}
{"id": "C23", "title": "FixedPadSize: pad centres map to their own pad and nearest pads exist", "statement": "getNearestPad(getPadCenter(i)) = i and isInsidePad(getPadCenter(i), i) for every pad; for r >= 1e-6, getNearestPad returns an existing pad.", "quantifier": "every constructed layout, every pad and point", "why_tests_cant": "continuum of points", "anchors": ["src/gearimpl/FixedPadSizeDiskLayout.cc: getNearestPad, getPadCenter, isInsidePad"]}
{"id": "C24", "title": "Versatile: the plane extent covers all rows", "statement": "After any sequence of addRow calls the plane extent's radial range is from the smallest row rMin to the largest row rMax and its angular range covers all pads.", "quantifier": "every sequence of addRow calls including repeat counts", "why_tests_cant": "unbounded histories", "anchors": ["src/gearimpl/VersatileDiskRowLayout.cc: addRow, getPlaneExtent"]}
{"id": "C25", "title": "Versatile: counts and failed adds", "statement": "getNRows and getNPads equal the number of rows and the sum of their pads after any sequence of addRow calls; an addRow that throws changes nothing.", "quantifier": "every sequence of addRow calls, including failing ones", "why_tests_cant": "histories with failures", "anchors": ["src/gearimpl/VersatileDiskRowLayout.cc: addRow, Row::Row, getNPads"]}
{"id": "C26", "title": "Versatile: nearest pad is in the row with the smallest distance", "statement": "getNearestPad returns an existing pad, the one with the smallest distance among the candidates of all rows, and throws iff there are no rows.", "quantifier": "every layout and point", "why_tests_cant": "for all points and row lists", "anchors": ["src/gearimpl/VersatileDiskRowLayout.cc: getNearestPad, Row::getNearestPad"]}
{"id": "C27", "title": "Module coordinates: local/global conversion is a round trip", "statement": "For every module position, angle, z side and coordinate-system combination, converting a point from global to local and back (and conversely) returns the same point (polar points modulo full turns).", "quantifier": "all offsets, angles, z signs, coordinate types and points", "why_tests_cant": "continuum of parameters", "anchors": ["src/gearimpl/TPCModuleImpl.cc: globalToLocal, localToGlobal"]}
{"id": "C28", "title": "Module transformation does not depend on the order of setters", "statement": "After setOffset, setAngle, setZPosition in any order (last values equal) two modules answer all queries alike.", "quantifier": "all orders and values of the setters", "why_tests_cant": "order property", "anchors": ["src/gearimpl/TPCModuleImpl.cc: setOffset, setAngle, setZPosition, checkLocalIsGlobal"]}
{"id": "C29", "title": "Cartesian module extent encloses the whole pad plane", "statement": "For Cartesian layouts in a Cartesian TPC the module's global extent is the bounding box of the local pad plane: the global image of every local point of the pad plane lies in it.", "quantifier": "all angles, offsets and points", "why_tests_cant": "continuum", "anchors": ["src/gearimpl/TPCModuleImpl.cc: convertLocalPlaneToGlobalPlaneExtend, calculateGlobalExtentCartesianCartesian"]}
{"id": "C30", "title": "TPC: module IDs are unique and rejected modules change nothing", "statement": "addModule accepts a module iff it is non-null, has the TPC's coordinate type and a new ID; otherwise it throws and the TPC answers as before; getModule(id) returns the module added with that id or throws.", "quantifier": "every sequence of addModule calls", "why_tests_cant": "histories with failures", "anchors": ["src/gearimpl/TPCParametersImpl.cc: addModule, getModule, getNModules"]}
{"id": "C31", "title": "TPC: queries with a z coordinate use one side", "statement": "There is a plane (the cathode) such that the 3D queries (getNearestModule, isInsideModule, isInsidePad, getNearestPad with z) for z at or below it answer exactly as a TPC that has only the modules with z <= 0 and those without a z position, in insertion order, and for z above it as one with only the modules with z > 0 and those without.", "quantifier": "every sequence of addModule calls", "why_tests_cant": "unbounded histories", "anchors": ["src/gearimpl/TPCParametersImpl.cc: addModule, getNearestModule, isInsideModule, isInsidePad, getNearestPad"]}
{"id": "C32", "title": "TPC: plane extent is the smallest box around all modules", "statement": "getPlaneExtent is the componentwise min/max of the extents of all modules added, independent of the order in which they were added, and throws when there is none.", "quantifier": "every list of modules and every permutation", "why_tests_cant": "all permutations of unbounded lists", "anchors": ["src/gearimpl/TPCParametersImpl.cc: addModule, getPlaneExtent"]}
{"id": "C33", "title": "TPC: nearest module minimises the distance", "statement": "getNearestModule returns a module whose distance to the point is minimal among all modules, the first such in the module order, and throws iff there is none.", "quantifier": "every module list and point", "why_tests_cant": "for all lists and points", "anchors": ["src/gearimpl/TPCParametersImpl.cc: getNearestModule, getNearestModuleTPCHalf"]}
{"id": "C34", "title": "TPC: inside tests are the union over modules", "statement": "isInsideModule/isInsidePad for the TPC hold iff they hold for some module (of the half selected by z relative to the cathode in the 3D versions).", "quantifier": "every module list and point", "why_tests_cant": "for all lists and points", "anchors": ["src/gearimpl/TPCParametersImpl.cc: isInsideModule, isInsidePad"]}
{"id": "C35", "title": "TPC: cathode position", "statement": "The cathode z position after any sequence of addModule calls is determined by the half ends and the drift length: the middle between both sides' modules, or one drift length away from the only side present.", "quantifier": "every module history", "why_tests_cant": "histories", "anchors": ["src/gearimpl/TPCParametersImpl.cc: setCathodePosition, addModule"]}
{"id": "C36", "title": "TPC parameters can be copied", "statement": "Copying or assigning a TPCParametersImpl terminates and gives an equal object.", "quantifier": "every TPC state", "why_tests_cant": "termination for all states", "anchors": ["src/gearimpl/TPCParametersImpl.cc: copy_and_assign, operator="]}
{"id": "C37", "title": "GlobalPadIndex is a strict total order consistent with equality", "statement": "operator< on GlobalPadIndex is irreflexive, transitive and total, and == holds iff neither is smaller, so it can be used as a key of ordered containers.", "quantifier": "all pairs/triples of (module, pad)", "why_tests_cant": "2^64 values", "anchors": ["include/gear/gearimpl/GlobalPadIndex.h: operator<, operator=="]}
{"id": "C38", "title": "Vector3D constructors and accessors agree", "statement": "A vector built from cylindrical (rho,phi,z) or spherical (r,phi,theta) coordinates returns these coordinates from its accessors (for rho>0, r>0, angles in the principal range), and the arithmetic operations satisfy the vector space, dot and cross product laws.", "quantifier": "all real coordinates", "why_tests_cant": "continuum", "anchors": ["include/gear/gearimpl/Vector3D.h: Vector3D(cylindrical/spherical), phi, theta, rho, r, dot, cross, operator+, operator-, operator*, operator[]"]}
{"id": "C39", "title": "ZPlanar layers: getters return what addLayer stored", "statement": "After any sequence of addLayer calls getNLayers is their number and every per-layer getter returns the value passed for that layer (both ladder and sensitive), and throws std::out_of_range for other indices.", "quantifier": "every sequence of addLayer calls and every index", "why_tests_cant": "histories", "anchors": ["src/gearimpl/ZPlanarLayerLayout.cc: addLayer", "include/gear/gearimpl/ZPlanarLayerLayoutImpl.h"]}
{"id": "C40", "title": "ZPlanar: a point is reported exactly in the ladder or sensitive volume that contains it", "statement": "For a detector built with addLayer, isPointInLadder is true (isPointInSensitive returns true and fills the SensorID) for every point of a ladder (sensitive) box; and whenever a point is reported, the layer, side and module numbers of the SensorID name a box that contains it up to the tolerance of the comparison.", "quantifier": "every history of addLayer calls and every point", "why_tests_cant": "a continuum of points and layer geometries", "anchors": ["src/gearimpl/ZPlanarParametersImpl.cc: isPointInLadder"]}
{"id": "C41", "title": "ZPlanar: the vector to the nearest ladder leads to a nearest point", "statement": "distanceToNearestLadder and distanceToNearestSensitive return the zero vector for a point inside, otherwise a vector that leads from the point to a point of a volume such that no point of any volume is nearer.", "quantifier": "every history of addLayer calls and every point", "why_tests_cant": "a continuum of points and layer geometries", "anchors": ["src/gearimpl/ZPlanarParametersImpl.cc: distanceToNearestLadder, distanceToPlane, correctToBorderPoint"]}
{"id": "C42", "title": "ZPlanar: the first crossing of a straight line with a ladder", "statement": "intersectionLadder and intersectionSensitive return a point of the ray from p along v and of a volume, such that the ray meets no volume before it; the zero vector only if there is none.", "quantifier": "every history of addLayer calls, all points and directions", "why_tests_cant": "a continuum", "anchors": ["src/gearimpl/ZPlanarParametersImpl.cc: intersectionLadder, planeLineIntersection"]}
{"id": "C43", "title": "ZPlanar: start and end angles of the inner and outer faces", "statement": "getStartInnerPhi, getEndInnerPhi, getStartOuterPhi and getEndOuterPhi return the angles of the edges of the inner and outer face of the first ladder, or of the first sensitive volume if so asked.", "quantifier": "all layers", "why_tests_cant": "for all layers", "anchors": ["src/gearimpl/ZPlanarLayerLayout.cc: getStartOuterPhi, getEndOuterPhi, getStartInnerPhi, getEndInnerPhi"]}
{"id": "C44", "title": "FTD: disks are mirrored pairs for any number of layers", "statement": "With N layers added, the indices 0..N-1 denote the +z disks and N..2N-1 their mirror images; getters for i and i+N agree and z positions are opposite.", "quantifier": "every N and every index", "why_tests_cant": "all N", "anchors": ["src/gearimpl/FTDLayerLayoutImpl.cc: getEquivLayer, getSupportZposition, getSensitiveZposition"]}
{"id": "C45", "title": "FTD: sensors sit on the support surface", "statement": "For a valid sensor index the sensitive volume's z differs from its petal's support z by exactly half the sum of thicknesses, on the side towards the IP for front sensors (away for the rear half of double-sided petals); other indices throw.", "quantifier": "all layers, petals and sensors", "why_tests_cant": "for all layers", "anchors": ["src/gearimpl/FTDLayerLayoutImpl.cc: getSensitiveZposition, getSupportZposition"]}
{"id": "C46", "title": "FTD: point queries find the layer", "statement": "A point lying in a petal of some layer is reported by isPointInFTD / getLayerIndex / getPetalIndex.", "quantifier": "all points and layouts", "why_tests_cant": "continuum", "anchors": ["src/gearimpl/FTDParametersImpl.cc: isPointInFTD, getLayerIndex, getPetalIndex, getSensitiveIndex"]}
{"id": "C47", "title": "Calorimeter layers are contiguous and the extent is their hull", "statement": "After any sequence of addLayer calls on a layout whose first layer was positioned at d, layer i starts at d plus the thicknesses of the earlier layers, and the calorimeter's outer extent is the end of the last layer.", "quantifier": "every sequence of layer additions", "why_tests_cant": "histories", "anchors": ["src/gearimpl/LayerLayoutImpl.cc: addLayer, positionLayer", "src/gearimpl/CalorimeterParametersImpl.cc: getExtent"]}
{"id": "C48", "title": "Telescope planes: getters return what was added", "statement": "After any sequence of addLayer / addDUT calls on the SiPlanes layout (and addLayer on TrackerPlanes) the getters return the values of the corresponding call; the short addLayer behaves as the full one with zero rotations.", "quantifier": "every sequence of calls", "why_tests_cant": "histories", "anchors": ["src/gearimpl/SiPlanesLayerLayout.cc: addLayer, addDUT", "src/gearimpl/TrackerPlanesLayerLayout.cc: addLayer"]}
{"id": "C49", "title": "Surface coordinates: local/global round trip", "statement": "For every translation and rotation getGlobalPoint(getLocalPoint(p)) = p and conversely; distances are preserved.", "quantifier": "all rotations, translations and points", "why_tests_cant": "continuum", "anchors": ["include/gear/gearsurf/CartesianCoordinateSystem.h: getLocalPoint, getGlobalPoint", "src/gearsurf/MeasurementSurface.cc"]}
{"id": "C50", "title": "Surface boundaries are exactly the documented shapes", "statement": "isInBoundary for a rectangle / trapezoid is true exactly for the points of the (rotated) rectangle / trapezoid of the given dimensions, with the tolerance in w.", "quantifier": "all dimensions and points", "why_tests_cant": "continuum", "anchors": ["src/gearsurf/BoundaryRectangle.cc: isInBoundary", "src/gearsurf/BoundaryTrapezoid.cc: isInBoundary"]}
{"id": "C51", "title": "Surface store: unique IDs and one successful fill", "statement": "In the measurement surface store each cell ID is associated with one surface that never changes; filling twice throws; a fill that throws leaves the store as it was.", "quantifier": "every sequence of FillStore calls, any filler", "why_tests_cant": "histories with failures", "anchors": ["src/gearsurf/MeasurementSurfaceStore.cc: FillStore, addMeasurementSurface, GetMeasurementSurface, getFillerName"]}
{"id": "C52", "title": "Tokenised vectors round trip", "statement": "Writing a vector of values separated by blanks and tokenising it again yields the same elements whenever the elements are non-empty and contain no blank.", "quantifier": "all vectors", "why_tests_cant": "unbounded vectors", "anchors": ["src/gearxml/GearParametersXML.cc: Tokenizer, getXMLForParameters"]}
{"id": "C53", "title": "Named parameters survive the XML round trip", "statement": "A parameter collection written to XML and read back has the same keys and values of all six types (doubles up to the written precision).", "quantifier": "every parameter collection", "why_tests_cant": "all strings and vectors", "anchors": ["src/gearxml/GearParametersXML.cc: getXMLForParameters, setParametersFromXML"]}
{"id": "C54", "title": "Numbers are written with ten significant digits", "statement": "Every double with at most ten significant decimal digits is read back exactly; any other is read back within a relative error of 5e-10; writing the value read back gives the same text.", "quantifier": "all numbers", "why_tests_cant": "continuum", "anchors": ["src/gearxml/tinyxml.cc: SetDoubleAttribute", "src/gearxml/GearParametersXML.cc: getXMLForParameters"]}
{"id": "C55", "title": "Integers survive the XML round trip", "statement": "Every int written as an attribute is read back as the same int.", "quantifier": "all 2^32 ints", "why_tests_cant": "2^32 values", "anchors": ["src/gearxml/tinyxml.cc: SetAttribute(int)", "src/gearxml/GearParametersXML.cc: atoi"]}
{"id": "C56", "title": "Attribute values survive escaping", "statement": "Every attribute value, including quotes, ampersands, angle brackets and control characters, is read back unchanged after printing.", "quantifier": "all strings", "why_tests_cant": "all strings", "anchors": ["src/gearxml/tinyxml.cc: PutString, TiXmlAttribute::Print", "src/gearxml/tinyxmlparser.cc: GetEntity, ReadText, TiXmlAttribute::Parse"]}
{"id": "C57", "title": "XML documents survive saving and loading", "statement": "Printing an element tree and parsing the text gives back the same tree (names, attributes in order, children in order).", "quantifier": "all well-formed trees of any depth and width", "why_tests_cant": "unbounded trees", "anchors": ["src/gearxml/tinyxml.cc: TiXmlElement::Print", "src/gearxml/tinyxmlparser.cc: TiXmlElement::Parse, ReadValue"]}
{"id": "C58", "title": "Calorimeter layers survive the XML round trip", "statement": "A calorimeter whose layers were added contiguously is read back with the same layers (thickness, absorber thickness, cell sizes) in the same order, with identical layers compressed.", "quantifier": "all layer sequences", "why_tests_cant": "unbounded sequences; drift of compression tolerance", "anchors": ["src/gearxml/CalorimeterParametersXML.cc: toXML, fromXML, isEqual"]}
{"id": "C59", "title": "Calorimeter sections come back into the slot they were written from", "statement": "Each calorimeter section written by createXMLFile is stored in the same section by createGearMgr.", "quantifier": "all sections and layout types", "why_tests_cant": "all names", "anchors": ["src/gearxml/CalorimeterParametersXML.cc: fromXML", "src/gearxml/GearXML.cc: createXMLFile"]}
{"id": "C60", "title": "Vertex-type (ZPlanar) sections survive the XML round trip", "statement": "A VXD/SIT/SET section written and read back has the same type, shell values and layers.", "quantifier": "all layer lists", "why_tests_cant": "unbounded layer lists", "anchors": ["src/gearxml/ZPlanarParametersXML.cc: toXML, fromXML"]}
{"id": "C61", "title": "FTD sections survive the XML round trip", "statement": "An FTD section with any number of layers can be written and read back with the same layers.", "quantifier": "all layer lists", "why_tests_cant": "unbounded layer lists", "anchors": ["src/gearxml/FTDParametersXML.cc: toXML, fromXML"]}
{"id": "C62", "title": "Telescope sections survive the XML round trip", "statement": "SiPlanes and TrackerPlanes sections written and read back are equal.", "quantifier": "all layer lists", "why_tests_cant": "unbounded layer lists", "anchors": ["src/gearxml/SiPlanesParametersXML.cc: toXML, fromXML", "src/gearxml/TrackerPlanesParametersXML.cc: toXML, fromXML"]}
{"id": "C63", "title": "Pad layouts survive the XML round trip", "statement": "Each pad layout class written to XML is read back as an equal layout.", "quantifier": "all layouts of the four classes", "why_tests_cant": "unbounded layouts", "anchors": ["src/gearxml/RectangularPadRowLayoutXML.cc", "src/gearxml/FixedPadAngleDiskLayoutXML.cc", "src/gearxml/FixedPadSizeDiskLayoutXML.cc", "src/gearxml/VersatileDiskRowLayoutXML.cc"]}
{"id": "C64", "title": "TPC sections survive the XML round trip", "statement": "A TPC section written and read back has the same drift velocity, drift length, coordinate type and modules (IDs, frequencies, offsets, angles, border).", "quantifier": "all TPC states", "why_tests_cant": "unbounded module lists", "anchors": ["src/gearxml/TPCParametersXML.cc: toXML, fromXML", "src/gearxml/TPCModuleXML.cc: toXML, fromXML"]}
{"id": "C65", "title": "B field and materials survive the XML round trip", "statement": "A constant B field and every simple material written are read back with the same values, names included.", "quantifier": "all field values and materials", "why_tests_cant": "continuum", "anchors": ["src/gearxml/ConstantBFieldXML.cc", "src/gearxml/SimpleMaterialXML.cc"]}
{"id": "C66", "title": "createGearMgr: a failing parse never yields a manager", "statement": "If createGearMgr throws for a file, every later createGearMgr on the same GearXML object throws as well; after a success every later call returns the same manager.", "quantifier": "all files and call counts", "why_tests_cant": "history property with failures", "anchors": ["src/gearxml/GearXML.cc: createGearMgr"]}
{"id": "C67", "title": "Merging keeps all information of the dominant file", "statement": "After MergeXML::mergeFiles every element and attribute of the dominant file is unchanged in the result and every attribute or element only present in the other file is added.", "quantifier": "all pairs of documents", "why_tests_cant": "unbounded trees", "anchors": ["src/gearxml/MergeXML.cc: mergeFiles, mergeNode"]}
{"id": "C68", "title": "Merging terminates without invalid memory access for all gear files", "statement": "mergeFiles on any two parsable gear files either merges or returns false / throws, and repeated calls on the same object give the same result.", "quantifier": "all pairs of documents, repeated calls", "why_tests_cant": "histories and all trees", "anchors": ["src/gearxml/MergeXML.cc: mergeFiles, mergeNode, correctDominantFile"]}
{"id": "C69", "title": "MaterialMap: interpolation stays between the neighbouring grid values", "statement": "For every point inside the map the interpolated value lies between the smallest and the largest stored value of the neighbouring grid points, and at a grid point it is the stored value; points outside are answered with an exception.", "quantifier": "all maps and points", "why_tests_cant": "continuum", "anchors": ["src/geartgeo/MaterialMap.cc: interpolateOnGrid, calculateGridIndex"]}
{"id": "C70", "title": "MaterialMap construction terminates and stays in its array", "statement": "For every accepted argument list construction terminates and writes only inside the grid array, filling every cell; other arguments are answered with an exception.", "quantifier": "all constructor arguments", "why_tests_cant": "termination and memory safety for all arguments", "anchors": ["src/geartgeo/MaterialMap.cc: MaterialMap"]}
{"id": "C71", "title": "MaterialMapFactory returns the map that was asked for", "statement": "createMaterialMap returns a map built with exactly the requested parameters, or throws the exception of the constructor, for every history of requests; equal requests get the same map, and maps handed out are not touched later.", "quantifier": "all request histories", "why_tests_cant": "history property", "anchors": ["src/geartgeo/MaterialMapFactory.cc: createMaterialMap"]}
{"id": "C72", "title": "Distance properties do not depend on earlier queries", "statement": "getMaterialNames, getMaterialThicknesses, getVolumeNames, getBdL, getEdL, getNRadlen, getNIntlen(p0,p1) give the same answer regardless of which queries were made before.", "quantifier": "all query histories", "why_tests_cant": "history property (cache)", "anchors": ["src/geartgeo/TGeoGearDistanceProperties.cc: beamOn, getMaterialNames, getMaterialThicknesses, getNRadlen, getNIntlen"]}
{"id": "C73", "title": "XML handler registry", "statement": "getHandler(type) returns the last handler registered for type, or null; registering null changes nothing.", "quantifier": "all registration histories", "why_tests_cant": "history property", "anchors": ["src/gearxml/XMLHandlerMgr.cc: setHandler, getHandler"]}
{"id": "C74", "title": "Rectangular: the linear pad search always finds an existing pad", "statement": "For every layout with at least one row and every point getNearestPadOld returns the index of an existing pad; for a point inside a pad (not on its upper or lower border) the returned pad contains the point.", "quantifier": "every history of layout building calls and every point of the plane", "why_tests_cant": "Rows may have any heights, offsets and pad counts and points range over the whole plane; a search that misses a row shows only for particular combinations.", "anchors": ["src/gearimpl/RectangularPadRowLayout.cc: getNearestPadOld, distanceToBox"]}
{"id": "C75", "title": "Rectangular: addRow adds exactly the rows asked for", "statement": "addRow succeeds iff the number of pads and repetitions, the widths and heights make sense (positive, pads not wider than the pitch, not higher than the row), and then appends exactly repeat rows with the given number of pads, pitch, width and heights; it throws otherwise.", "quantifier": "all arguments and every layout built before", "why_tests_cant": "the accepted arguments form an unbounded set with several interacting conditions", "anchors": ["src/gearimpl/RectangularPadRowLayout.cc: addRow"]}
{"id": "C76", "title": "FixedPadAngle: the pads tile the ring segment", "statement": "isInsidePad(r,phi,i) holds exactly on the i-th cell of the regular grid in r and phi; the cells of different pads do not overlap; isInsidePad(r,phi) holds exactly for the points in some pad; centre, sizes, counts and pad lists fit to this grid.", "quantifier": "every constructed layout, every pad and point", "why_tests_cant": "the plane is infinite and the layouts have arbitrarily many pads", "anchors": ["src/gearimpl/FixedPadAngleDiskLayout.cc: FixedPadAngleDiskLayout, isInsidePad, getPadCenter, getPadsInRow, getNPads"]}
{"id": "C77", "title": "Polar layouts: distance to a pad is the Euclidean distance", "statement": "For the layouts with polar coordinates getDistanceToPad(r,phi,i) is the smallest Euclidean distance between the point and the points of the pad's keystone shaped cell.", "quantifier": "every layout, every pad and every point", "why_tests_cant": "the minimum is over infinitely many points of the cell", "anchors": ["src/gearimpl/FixedDiskLayoutBase.cc: getDistanceToPad", "src/gearimpl/FixedPadAngleDiskLayout.cc: getDistanceToPad"]}
{"id": "C78", "title": "FixedPadAngle: no pad is nearer than the one returned by getNearestPad", "statement": "For every point, the Euclidean distance to the pad returned by getNearestPad is at most that to any other pad of the layout.", "quantifier": "every constructed layout and point", "why_tests_cant": "a minimum over arbitrarily many pads for every point of the plane", "anchors": ["src/gearimpl/FixedPadAngleDiskLayout.cc: getNearestPad, getDistanceToPad"]}
{"id": "C79", "title": "FixedPadSize: inside tests agree with each other", "statement": "isInsidePad(r,phi) holds iff some pad i has isInsidePad(r,phi,i).", "quantifier": "every constructed layout and point", "why_tests_cant": "a union over arbitrarily many pads for every point of the plane", "anchors": ["src/gearimpl/FixedPadSizeDiskLayout.cc: isInsidePad, getNearestPad"]}
{"id": "C80", "title": "Polar layouts: full turns of the angle do not matter", "statement": "isInsidePad and getNearestPad give the same answer for (r,phi) and (r,phi+2 pi k).", "quantifier": "every layout, point and number of turns", "why_tests_cant": "all numbers of turns", "anchors": ["src/gearimpl/FixedPadSizeDiskLayout.cc: isInsidePad, getNearestPad", "src/gearimpl/FixedPadAngleDiskLayout.cc: isInsidePad, getNearestPad", "src/gearimpl/VersatileDiskRowLayout.cc: getNearestPad, isInsidePad"]}
{"id": "C81", "title": "Versatile: pads sit where addRow put them", "statement": "After successful addRow calls, the pads of a row have the requested height, width and pitch (converted to angles at the row's middle radius), their centres are at the row's middle radius and at the requested offset plus (pad + 1/2) pitches up to full turns, a point is inside a pad exactly if it is in the pad's radial and angular range up to full turns, and the pads' interiors do not overlap.", "quantifier": "every sequence of successful addRow calls, every pad, every point", "why_tests_cant": "offsets and row radii interact; full turns are unbounded", "anchors": ["src/gearimpl/VersatileDiskRowLayout.cc: VersatileDiskRowLayout::addRow, Row::Row, getPadCenter, isInsidePad"]}
{"id": "C82", "title": "Module conversions report angles between 0 and a full turn", "statement": "The polar angles returned by localToGlobal and globalToLocal lie between 0 and 2 pi.", "quantifier": "every module, after any setter calls, every point", "why_tests_cant": "unbounded rotations and angles", "anchors": ["src/gearimpl/TPCModuleImpl.cc: globalToLocal, localToGlobal"]}
{"id": "C83", "title": "isInsideModule is membership in the placed module", "statement": "isInsideModule(c) is true exactly if c is a point of the pad plane enlarged by the border, rotated by the module's angle, moved by its offset and mirrored on the negative side.", "quantifier": "every module after setters, every point", "why_tests_cant": "continuum of placements and points", "anchors": ["src/gearimpl/TPCModuleImpl.cc: isInsideModule, globalToLocal"]}
{"id": "C84", "title": "getDistanceToModule is the Euclidean distance to the placed module", "statement": "The value returned is attained by a point of the placed module and is not larger than the distance to any of its points; it is 0 exactly for points in the module.", "quantifier": "every module after setters, every point", "why_tests_cant": "continuum", "anchors": ["src/gearimpl/TPCModuleImpl.cc: getDistanceToModule"]}
{"id": "C85", "title": "The border enlarges the module on all sides", "statement": "The local module extent is the extent of the pad plane enlarged by the border width on every side (for polar layouts in the radii, and along the inner arc in the angles), whatever setters have been called in whatever order.", "quantifier": "every history of setter calls", "why_tests_cant": "all histories", "anchors": ["src/gearimpl/TPCModuleImpl.cc: convertLocalPlaneToGlobalPlaneExtend, setBorderWidth"]}
{"id": "C86", "title": "Queries of a module are the layout's queries at the local point", "statement": "getNearestPad, isInsidePad, getDistanceToPad and getPadCenter of a module answer what its pad layout answers for the point moved into the module's plane.", "quantifier": "every module after setters, every point and pad", "why_tests_cant": "continuum", "anchors": ["src/gearimpl/TPCModuleImpl.cc: getNearestPad, isInsidePad, getDistanceToPad, getPadCenter"]}
{"id": "C87", "title": "Polar module extents describe the placed module", "statement": "In a polar TPC the extent of a module with a polar layout has as radii the smallest and the largest distance of its points from the origin, and as angles the range of their angles.", "quantifier": "every module after setters", "why_tests_cant": "dozens of geometric cases, continuum", "anchors": ["src/gearimpl/TPCModuleImpl.cc: calculateGlobalExtentPolarPolar"]}
{"id": "C88", "title": "TPC: the interface for a single module", "statement": "getReadoutFrequency and getPadLayout answer iff there is exactly one module (not moved or rotated, for the layout), setReadoutFrequency changes only the frequency of the only module, setPadLayout is accepted iff the TPC is empty and the layout is not itself a module, and then getPadLayout returns it.", "quantifier": "every history of calls", "why_tests_cant": "histories with failures and any number of modules", "anchors": ["src/gearimpl/TPCParametersImpl.cc: getPadLayout, setPadLayout, getReadoutFrequency, setReadoutFrequency"]}
{"id": "C89", "title": "TPC: nearest pad minimises the distance", "statement": "getNearestPad returns the module ID and pad of the module whose nearest pad has the smallest distance (the first such module); so if every module returns the nearest of its pads, the result is the nearest pad of the TPC; it throws when there is no module.", "quantifier": "every module list and point", "why_tests_cant": "for all lists and points", "anchors": ["src/gearimpl/TPCParametersImpl.cc: getNearestPad"]}
{"id": "C90", "title": "Vector3D: bracket operator reads and writes single components", "statement": "Assigning to v[i] for i=0,1,2 changes exactly that component, which v[i] then returns; any other index reads 0 and writing to it changes no vector.", "quantifier": "all vectors, indices and values", "why_tests_cant": "all indices and values; shared state between calls", "anchors": ["include/gear/gearimpl/Vector3D.h: operator[] const, operator[]"]}
{"id": "C91", "title": "ZPlanar: the thickness seen under an angle", "statement": "getThicknessForPhi returns the length of the part of the ray from the beam line under the given angle that lies in the first ladder (or sensitive volume), and -1 if the ray misses it.", "quantifier": "all layers and angles", "why_tests_cant": "a continuum of angles", "anchors": ["src/gearimpl/ZPlanarLayerLayout.cc: getThicknessForPhi"]}
{"id": "C92", "title": "ZPlanar: the largest radius", "statement": "getMaxRadius is the largest distance from the z axis of the points of the layer's ladders (or sensitive volumes).", "quantifier": "all layers", "why_tests_cant": "a continuum of points", "anchors": ["src/gearimpl/ZPlanarLayerLayout.cc: getMaxRadius"]}
{"id": "C93", "title": "FTD: petals are staggered as documented", "statement": "The support of petal k of disk j lies at the disk's z position plus (zSign0)·(-1)^k times the offset (mirrored for the -z disks), and petal k is centred at phi0 plus k times the full angular period.", "quantifier": "every layout, disk and petal", "why_tests_cant": "all layouts and petals", "anchors": ["src/gearimpl/FTDLayerLayoutImpl.cc: getSupportZposition", "src/gearimpl/FTDLayerLayoutImpl.cc: getPhiPetalCd"]}
{"id": "C94", "title": "FTD: getters return what was added", "statement": "After any sequence of addLayer calls every getter, given the index of a disk or of its mirror image, returns the value of the corresponding call; getNLayers counts the calls; any other index throws.", "quantifier": "every sequence of calls and every index", "why_tests_cant": "histories", "anchors": ["src/gearimpl/FTDLayerLayoutImpl.cc: addLayer, getEquivLayer", "include/gear/gearimpl/FTDLayerLayoutImpl.h"]}
{"id": "C95", "title": "Calorimeter: layer getters return what was added", "statement": "After any history of addLayer, positionLayer and getExtent calls on a new calorimeter, layer i has the thickness, absorber and cell sizes of the i-th call that added one (and its distance if it was positioned); getNLayers counts them; other indices throw; kind, symmetry and phi0 never change.", "quantifier": "every sequence of calls", "why_tests_cant": "histories", "anchors": ["include/gear/gearimpl/LayerLayoutImpl.h: getters", "src/gearimpl/CalorimeterParametersImpl.cc: getExtent"]}
{"id": "C96", "title": "Telescope setters: what is set is what is read", "statement": "A setter changes the value its getter returns and no other, until it is set again; this includes the ID and info of the TrackerPlanes layout, and layer objects changed after they were added do not change the layout.", "quantifier": "every history of calls, every field and index", "why_tests_cant": "histories", "anchors": ["include/gear/gearimpl/SiPlanesLayerLayoutImpl.h: setters", "include/gear/gearimpl/TrackerPlanesLayerLayoutImpl.h: setID, getID, setInfo, addLayer"]}
{"id": "C97", "title": "Destroying a surface store deletes its surfaces once", "statement": "When a measurement surface store is destroyed every surface it owns is deleted exactly once.", "quantifier": "all stores", "why_tests_cant": "memory behaviour over every content", "anchors": ["src/gearsurf/MeasurementSurfaceStore.cc: ~MeasurementSurfaceStore"]}
{"id": "C98", "title": "Loading any file terminates", "statement": "Loading an XML file ends for every content of the file, however malformed.", "quantifier": "all byte sequences", "why_tests_cant": "Malformed files are unlimited in number; a loop that does not advance shows only for particular ones.", "anchors": ["src/gearxml/tinyxmlparser.cc: TiXmlDocument::Parse, TiXmlElement::Parse, TiXmlElement::ReadValue, TiXmlDeclaration::Parse, ReadText", "src/gearxml/tinyxml.cc: TiXmlDocument::LoadFile"]}
{"id": "C99", "title": "Loading never reads outside the file's text", "statement": "Loading an XML file of any content neither reads behind the end of the text nor through a null pointer nor fails an assertion.", "quantifier": "all byte sequences", "why_tests_cant": "Reads behind a buffer go unnoticed in tests, and need particular malformed files.", "anchors": ["src/gearxml/tinyxmlparser.cc: ReadText, GetEntity, GetChar, SkipWhiteSpace, TiXmlAttribute::Parse"]}
{"id": "C100", "title": "Files cut off are rejected", "statement": "A file that ends before the end tag of its root element is not accepted by LoadFile.", "quantifier": "all documents and all points at which they are cut off", "why_tests_cant": "A file can be cut off at any byte.", "anchors": ["src/gearxml/tinyxmlparser.cc: TiXmlElement::Parse, TiXmlElement::ReadValue", "src/gearxml/tinyxml.cc: TiXmlDocument::LoadFile"]}
{"id": "C101", "title": "XML handlers are deleted exactly once and never while they can still be returned", "statement": "For every sequence of setHandler and getHandler calls followed by the end of the program, every handler handed to the manager is deleted exactly once, and every handler that getHandler returns has not been deleted at that time.", "quantifier": "all sequences of registrations and lookups", "why_tests_cant": "history property over an unbounded sequence of calls", "anchors": ["src/gearxml/XMLHandlerMgr.cc: setHandler, getHandler, ~XMLHandlerMgr"]}
{"id": "C102", "title": "Missing and malformed attributes are reported, not turned into wrong values", "statement": "Reading a material or a B field throws for every element in which a required attribute is missing or is not a number; it never yields zero or other values in its place.", "quantifier": "all elements", "why_tests_cant": "all possible texts of all attributes", "anchors": ["src/gearxml/SimpleMaterialXML.cc: fromXML", "src/gearxml/ConstantBFieldXML.cc: fromXML", "src/gearxml/XMLHandlerMgr.cc: getXMLAttribute"]}
{"id": "C103", "title": "TPC sections in the old syntax describe one module", "statement": "A TPC section without coordinateType gives a TPC with exactly one module: ID 0, the layout in the file, not shifted, rotated or bordered and without z position; coordinate type is the layout's; drift length, drift velocity, readout frequency and named parameters are those in the file, whatever the order of the elements.", "quantifier": "all such elements", "why_tests_cant": "all layouts, numbers and orders of elements", "anchors": ["src/gearxml/TPCParametersXML.cc: fromXML", "src/gearimpl/TPCParametersImpl.cc: setPadLayout, setReadoutFrequency"]}
{"id": "C104", "title": "A whole geometry survives createXMLFile and createGearMgr", "statement": "A manager that is written with createXMLFile and read from that file with createGearMgr of a new GearXML object has the same detector name, field, sections, user-defined detectors and materials: a section exists after reading exactly if it was set before writing, it is stored under the same getter, and its values are those written, to the ten digits of the text format.", "quantifier": "all managers: every combination of sections, any number of user-defined detectors and materials with any names, any histories of named parameters", "why_tests_cant": "the number of combinations of sections, names and values is unbounded; a test writes one geometry", "anchors": ["src/gearxml/GearXML.cc: createXMLFile, createGearMgr", "src/gearxml/XMLHandlerMgr.cc", "src/gearimpl/GearMgrImpl.cc"]}
{"id": "C105", "title": "Distance queries report what a straight path crosses", "statement": "getVolumeNames, getMaterialNames and getMaterialThicknesses of the ROOT geometry list the volumes between p0 and p1 in their order with the lengths of the path in them, cut at p1; the thicknesses add up to the distance of the points, and getNRadlen and getNIntlen are the sums of thickness over radiation (interaction) length of the crossed volumes.", "quantifier": "all geometries, as sequences of volumes with any lengths along the ray, and all pairs of different points", "why_tests_cant": "thicknesses, numbers of volumes and end points vary without bound; a test follows a few paths through one geometry", "anchors": ["src/geartgeo/TGeoGearDistanceProperties.cc: beamOn, getNRadlen, getNIntlen", "include/gear/GearDistanceProperties.h"]}
{"id": "C106", "title": "Following a path ends", "statement": "A distance query between two points ends, also if ROOT's navigator does not move any more, within a number of passes bounded by the distance over the smallest step.", "quantifier": "all points, and all navigators that never step backwards and go where they are put, including those that make steps of length zero for ever", "why_tests_cant": "the number of passes depends on the geometry and on failures of the navigator a test cannot provoke", "anchors": ["src/geartgeo/TGeoGearDistanceProperties.cc: beamOn"]}
{"id": "C107", "title": "Printing a detector stays within its buffers", "statement": "Printing a vertex detector, forward tracking discs or a telescope with operator<< writes one row per layer with its values, and never writes behind the buffer a row is formatted in, nor fails.", "quantifier": "all numbers of layers and all values of their sizes, including those far from physical ones, as read from a file with a misplaced exponent", "why_tests_cant": "the length of a printed number depends on its value; a test prints ordinary detectors", "anchors": ["src/gearimpl/Util.cc: operator<< of ZPlanarParameters, FTDParameters, SiPlanesParameters"]}
{"id": "C108", "title": "Printing leaves the format of the stream alone", "statement": "After a manager or a material has been printed to a stream, numbers that are printed later look as they would have before.", "quantifier": "all formats of the stream before (floating point format, precision, plus signs, base) and all numbers of materials", "why_tests_cant": "a test does not look at what is printed later to the same stream", "anchors": ["src/gearimpl/Util.cc: operator<< of SimpleMaterial and GearMgr"]}
{"id": "C109", "title": "Point queries answer for the point asked", "statement": "The material name, density, temperature, pressure, radiation and interaction length of the ROOT geometry are those of the innermost volume at the given point, whatever was asked before; outside of the geometry OutsideGeometryException is thrown.", "quantifier": "all geometries, points and histories of queries", "why_tests_cant": "earlier queries move the state of ROOT's manager in unboundedly many ways", "anchors": ["src/geartgeo/TGeoGearPointProperties.cc"]}
{"id": "C110", "title": "Lists of volumes lead from the point to the world", "statement": "getListOfLogicalVolumes and getListOfPhysicalVolumes name the volumes that contain the point, from the innermost to the world volume, each once; outside of the geometry OutsideGeometryException is thrown.", "quantifier": "all geometries of any depth, points and histories of queries", "why_tests_cant": "the depth of the hierarchy is unbounded", "anchors": ["src/geartgeo/TGeoGearPointProperties.cc: getListOfLogicalVolumes, getListOfPhysicalVolumes"]}
{"id": "C111", "title": "The local position is that in the volume at the point", "statement": "getLocalPosition of the ROOT geometry answers in the coordinates of the innermost volume at the given point, whatever was asked before.", "quantifier": "all geometries, points and histories of queries", "why_tests_cant": "a test asks for the local position right after another query at the same point, where the answer is right", "anchors": ["src/geartgeo/TGeoGearPointProperties.cc: getLocalPosition"]}
{"id": "C112", "title": "Cell IDs identify cells", "statement": "getCellID of the Mokka geometry combines the two words of the cell at a point, from which both can be read again; different cells have different IDs, and points outside of the world or of sensitive volumes throw an exception.", "quantifier": "all words of 32 bits and all points with coordinates in the range of a double", "why_tests_cant": "there are 2^63 pairs of words", "anchors": ["src/gearcga/CGAGearPointProperties.cc: getCellID"]}
{"id": "C113", "title": "A Mokka properties object answers for its own model", "statement": "An object made with a model name and a setup answers for that model.", "quantifier": "all sequences of objects with any setups", "why_tests_cant": "depends on the objects made before in the same process", "anchors": ["src/gearcga/CGAGeometryInitializer.cc", "src/gearcga/CGAGearPointProperties.cc: CGAGearPointProperties", "src/gearcga/CGAGearDistanceProperties.cc: CGAGearDistanceProperties"]}
{"id": "C114", "title": "Mokka distance queries follow the segment asked for", "statement": "A query between p0 and p1 sends a beam from p0 to p1 along their difference, in cm; the numbers of radiation and interaction lengths are the sums over its steps, and the lists of names and thicknesses are those of its steps, whatever was asked before.", "quantifier": "all pairs of points and histories of queries", "why_tests_cant": "earlier queries are unbounded in number", "anchors": ["src/gearcga/CGAGearDistanceProperties.cc"]}
{"id": "C115", "title": "Printed tables show the values of the layers", "statement": "When a vertex detector, a forward tracker or a telescope is printed, the table has one row for each layer in their order, and the cells of the row, read as numbers, are the values of the getters for this layer in the order of the column names, rounded to the digits of the column.", "quantifier": "all layouts with any number of layers and any values", "why_tests_cant": "the values and the number of layers are unbounded", "anchors": ["src/gearimpl/Util.cc: operator<<(ostream, ZPlanarParameters)", "src/gearimpl/Util.cc: operator<<(ostream, FTDParameters)", "src/gearimpl/Util.cc: operator<<(ostream, SiPlanesParameters)"]}
{"id": "C116", "title": "The columns of printed tables stand below their heads", "statement": "The bars of every row are at the same places as those of the line with the column names.", "quantifier": "all values that fit into the columns", "why_tests_cant": "depends on the number of characters of every value", "anchors": ["src/gearimpl/Util.cc: operator<<(ostream, ZPlanarParameters)", "src/gearimpl/Util.cc: operator<<(ostream, SiPlanesParameters)"]}
{"id": "C117", "title": "The table of a calorimeter tells the structure of every layer", "statement": "The table lists the last layer and every layer that differs from the one before it, so that thickness, absorber thickness and cell sizes of every layer are those of the last line that is not below it.", "quantifier": "all layouts with any number of layers", "why_tests_cant": "the number of layers is unbounded", "anchors": ["src/gearimpl/Util.cc: operator<<(ostream, CalorimeterParameters)"]}
{"id": "C118", "title": "Printing a collection shows all named parameters", "statement": "Printing named parameters shows, for each of the six kinds, every key that was set once, in ascending order, with its current value, and nothing else, and never throws.", "quantifier": "all histories of calls", "why_tests_cant": "unbounded histories", "anchors": ["src/gearimpl/Util.cc: operator<<(ostream, GearParameters)"]}
{"id": "C119", "title": "Printing a manager shows everything registered once", "statement": "Printing a manager shows the detector name, every registered section, collection and material exactly once and nothing else.", "quantifier": "all histories of calls, and both orders of evaluation of the operands", "why_tests_cant": "unbounded histories", "anchors": ["src/gearimpl/Util.cc: operator<<(ostream, GearMgr)"]}
{"id": "C120", "title": "The nodes of an XML document form the tree that was built", "statement": "After any sequence of allowed calls that make nodes, link them, insert copies at the end, before or after a child, replace, remove or clear children, assign or delete nodes, no call fails, every call returns the node it should, and the children of every node, visited from first to last and from last to first, are those put there in that order, with that node as their parent.", "quantifier": "All sequences of calls of any length, on any number of trees of any size and depth.", "why_tests_cant": "The pointers of up to five nodes change in one call and a wrong one shows only in later calls; the histories cannot be enumerated.", "anchors": ["src/gearxml/tinyxml.cc: TiXmlNode::LinkEndChild, InsertEndChild, InsertBeforeChild, InsertAfterChild, ReplaceChild, RemoveChild, Clear, operator=", "include/gear/gearxml/tinyxml.h: TiXmlNode"]}
{"id": "C121", "title": "XML nodes are released exactly once and with all that is below them", "statement": "After any sequence of allowed calls the nodes in memory are exactly those of the trees that exist: removed, replaced, cleared and deleted nodes are released with everything below them, nothing is released twice, and when all trees are deleted nothing is left.", "quantifier": "All sequences of calls of any length, on any number of trees of any size and depth.", "why_tests_cant": "Leaks and double deletions depend on the history and on the shape of the trees.", "anchors": ["src/gearxml/tinyxml.cc: TiXmlNode::~TiXmlNode, Clear, RemoveChild, ReplaceChild, TiXmlElement::ClearThis"]}
{"id": "C122", "title": "A copy of an XML node has the same content and shares nothing with it", "statement": "Cloning, inserting and assigning copy a node with everything below it: the copy has the same content and only new nodes.", "quantifier": "All trees.", "why_tests_cant": "Trees are unbounded in size and depth.", "anchors": ["src/gearxml/tinyxml.cc: TiXmlElement::Clone, CopyTo, TiXmlDocument::Clone, CopyTo, operator="]}
{"id": "C123", "title": "Looking for children, siblings and elements finds the first that fits", "statement": "After any sequence of allowed calls, FirstChild, LastChild, NextSibling, PreviousSibling and IterateChildren with a value return the first, last, next or previous node with this value; FirstChildElement and NextSiblingElement skip everything that is not an element of this name; GetDocument returns the document at the root, or null.", "quantifier": "All sequences of calls, all nodes of all trees, all values.", "why_tests_cant": "Positions and values are unbounded.", "anchors": ["src/gearxml/tinyxml.cc: TiXmlNode::FirstChild, LastChild, NextSibling, PreviousSibling, IterateChildren, FirstChildElement, NextSiblingElement, GetDocument"]}
{"id": "C124", "title": "The attributes of an XML element are those that were set, in order", "statement": "After any sequence of SetAttribute, RemoveAttribute, SetName, SetValue, copies and deletions, Attribute(name) is the value last given to the first attribute of this name, and visiting from FirstAttribute by Next, or from LastAttribute by Previous, finds all attributes in the order in which they were first set.", "quantifier": "All sequences of calls of any length, on any number of elements, all names and values.", "why_tests_cant": "The ring of attributes is changed in place over unbounded histories; the end of a walk is recognised by content, not by position.", "anchors": ["src/gearxml/tinyxml.cc: TiXmlAttributeSet::Add, Remove, Find, TiXmlAttribute::Next, Previous, TiXmlElement::SetAttribute, RemoveAttribute, CopyTo"]}
{"id": "C125", "title": "Attributes have different names, are copied in full and are released once", "statement": "After any sequence of calls the attributes in memory are exactly those of the existing elements; the names of the attributes of one element differ; and a copied element has the same attributes in the same order.", "quantifier": "All sequences of calls of any length, on any number of elements, all names and values.", "why_tests_cant": "Histories are unbounded.", "anchors": ["src/gearxml/tinyxml.cc: TiXmlAttributeSet, TiXmlElement::ClearThis, CopyTo", "include/gear/gearxml/tinyxml.h: TiXmlAttribute::SetName"]}
{"id": "C126", "title": "FTD: the thickness seen under an angle", "statement": "getThicknessForAngle returns the length of the part of a straight line between the two faces of the disk's petals (or sensors), for a line that seen along y has the angle phi to the z axis and seen along x the angle theta to the petal; other indices throw.", "quantifier": "every layout, index, pair of angles for which such a line exists", "why_tests_cant": "a continuum of angles and thicknesses", "anchors": ["src/gearimpl/FTDLayerLayoutImpl.cc: getThicknessForAngle", "include/gear/FTDLayerLayout.h: getThicknessForAngle"]}
{"id": "C127", "title": "FTD: start and end angle enclose the first petal", "statement": "getStartPhi and getEndPhi are the angles between which the first petal of a disk lies.", "quantifier": "every layout and disk", "why_tests_cant": "all layouts", "anchors": ["src/gearimpl/FTDLayerLayoutImpl.cc: getStartPhi, getEndPhi"]}
{"id": "C128", "title": "Rows and columns of nodes and attributes", "statement": "After a file is loaded, the row and column of every node and attribute are those of the place in the file where it stands: one more than the number of line breaks before it (of one or two characters), and one more than the width of what precedes it on its line, with tab stops every tab size, one column per character (in UTF-8 of up to four bytes, in other encodings of one) and none for byte order marks. They increase in the order of the document. With a tab size below one, all are 1.", "quantifier": "all texts, all tab sizes, all sequences of places asked for; for loading all files", "why_tests_cant": "The cursor is moved on from place to place: an error in one step shows only in later nodes, and depends on the bytes in between.", "anchors": ["src/gearxml/tinyxmlparser.cc: TiXmlParsingData::Stamp, TiXmlElement::Parse, TiXmlAttribute::Parse, TiXmlText::Parse", "include/gear/gearxml/tinyxml.h: TiXmlBase::Row, TiXmlBase::Column"]}
{"id": "C129", "title": "The error a failed load reports", "statement": "Loading a file fails if and only if an error is reported. It is the first one met, and its row and column, which the exception of createGearMgr names, are those of a place in the file, or 0 if the file ended; those of a wrong end tag are those of an end tag.", "quantifier": "all files", "why_tests_cant": "The ways in which a file can be malformed are unlimited.", "anchors": ["src/gearxml/tinyxmlparser.cc: TiXmlDocument::SetError", "src/gearxml/tinyxml.cc: TiXmlDocument::LoadFile", "src/gearxml/GearXML.cc: GearXML::createGearMgr"]}
{"id": "C130", "title": "Which files are accepted, and what is read from them", "statement": "LoadFile accepts a file exactly if it follows the grammar of the library, and the tree it gives is the one that is spelt there: every element inside another one is closed by the end tag of its own name, no attribute occurs twice in a tag, values and texts stand for their characters, entities and references, white space in texts is condensed. Only the last node at the top may be incomplete. No file spells two trees.", "quantifier": "every file content and every list of nodes", "why_tests_cant": "the grammar is recursive and has infinitely many files, well formed and malformed ones; a test shows a tree for one file", "anchors": ["src/gearxml/tinyxmlparser.cc:TiXmlDocument::Parse", "src/gearxml/tinyxmlparser.cc:TiXmlElement::Parse", "src/gearxml/tinyxmlparser.cc:TiXmlElement::ReadValue", "src/gearxml/tinyxmlparser.cc:TiXmlBase::ReadText", "src/gearxml/tinyxmlparser.cc:TiXmlBase::GetEntity", "src/gearxml/tinyxml.cc:TiXmlDocument::LoadFile"]}
{"id": "C131", "title": "A GDML file answers for the geometry it contains", "statement": "A manager read from a file with a GDMLFile element answers point and distance questions for the geometry in the file named there. If that file cannot be read createGearMgr does not return a manager; if the library for it cannot be loaded everything else is read as without the element and getPointProperties and getDistanceProperties throw. An object of the library returns null until an initialize finds the configured file, afterwards both kinds of properties for the geometry found last; an initialize that throws changes nothing.", "quantifier": "every document, every assignment of geometries to file names, every sequence of config and initialize calls", "why_tests_cant": "depends on an installed library and on the history of an object; failing initializations between successful ones", "anchors": ["src/gearxml/GearXML.cc:createGearMgr", "src/geartgeo/TGeoMaterialProperties.cc:TGeoMaterialProperties::initialize", "src/geartgeo/TGeoMaterialProperties.cc:getGearPointProperties", "src/geartgeo/TGeoGeometryInitializer.cc:TGeoGeometryInitializer", "include/gear/GearMaterialProperties.h:config"]}
{"id": "C132", "title": "Handles lead to the right child or to null", "statement": "From a handle of any node, any chain of FirstChild, FirstChildElement, Child and ChildElement calls, with or without a value, leads to the child that is the index-th (counted from zero) of those that have the value and are elements where that is asked for; if there is none at one step, the handle is null from there on, and calls on a null handle are harmless.", "quantifier": "all sequences of allowed calls that build the tree, all nodes, all chains of calls with all values and indices", "why_tests_cant": "Trees and chains of calls are unbounded.", "anchors": ["src/gearxml/tinyxml.cc: TiXmlHandle::FirstChild, FirstChildElement, Child, ChildElement", "include/gear/gearxml/tinyxml.h: TiXmlHandle"]}
{"id": "C133", "title": "Documents written to a stream are read from it again", "statement": "What out << document writes, wherever it stands in a stream, is what in >> document takes from it, no byte more or less, and gives the same nodes up to the root element and with it; documents written one after the other are read one by one.", "quantifier": "all documents (of the stated kind), all lists of documents, all texts that follow", "why_tests_cant": "Trees, texts and lists of documents are unbounded; the reader must stop at the right byte whatever follows.", "anchors": ["src/gearxml/tinyxml.cc: StreamOut, operator<<, operator>>", "src/gearxml/tinyxmlparser.cc: StreamIn, StreamTo, StreamWhiteSpace"]}
{"id": "C134", "title": "Reading a document from any stream ends and gives what the bytes taken give", "statement": "Reading a document from a stream with any bytes ends, fails no assertion, takes a number of bytes off the beginning of the stream, and makes of the document what parsing these bytes makes of it; it takes no byte behind the root element.", "quantifier": "all contents of the stream, all documents read into", "why_tests_cant": "All byte sequences; termination.", "anchors": ["src/gearxml/tinyxml.cc: operator>>", "src/gearxml/tinyxmlparser.cc: TiXmlDocument::StreamIn, TiXmlElement::StreamIn, TiXmlComment::StreamIn, TiXmlText::StreamIn, TiXmlUnknown::StreamIn, TiXmlDeclaration::StreamIn"]}
{"id": "C135", "title": "Saving what was loaded changes nothing", "statement": "If a file is loaded, the document saved and the saved file loaded again, the document is the same as after the first loading, however carelessly the first file was written.", "quantifier": "all files that are loaded without an error (including those with byte order marks, declarations, missing end tags, bare attribute values)", "why_tests_cant": "All files, in all encodings; a test saves a few of them.", "anchors": ["src/gearxml/tinyxml.cc: TiXmlDocument::LoadFile, SaveFile, Print", "src/gearxml/tinyxmlparser.cc: Parse"]}
{"id": "C136", "title": "Copies of geometry files", "statement": "The program that reads a geometry file and writes it again (testXMLCopy) writes, for its own output, exactly the same file: after the first copy, every further copy is identical.", "quantifier": "all geometry files whose content can be written, and any number of copies", "why_tests_cant": "All geometries and all numbers of copies; a test copies a few files once.", "anchors": ["src/test/testXMLCopy.cc: main", "src/gearxml/GearXML.cc: createGearMgr, createXMLFile", "src/gearxml/TPCParametersXML.cc: toXML, fromXML", "src/gearxml/CalorimeterParametersXML.cc: toXML, fromXML"]}
{"id": "C137", "title": "The exit status and the target of mergeXML", "statement": "The program mergeXML ends with status zero exactly if the target has been written, and otherwise changes no file; no other file is ever changed. The target can be loaded and contains all of the primary file and what only the secondary one has in its sections.", "quantifier": "all arguments, all contents of the files, and all file systems in which some of the files cannot be read or written", "why_tests_cant": "All contents of two files and all ways in which files can be missing; tests run the program on a few.", "anchors": ["src/test/mergeXML.cc: main", "src/gearxml/MergeXML.cc: setFile1, setFile2, mergeFiles", "src/gearxml/tinyxml.cc: TiXmlDocument::LoadFile, SaveFile"]}
{"id": "C138", "title": "What printMaterials prints", "statement": "The program printMaterials prints, for two points in millimetres, one line for each piece of the straight path between them, in the order of the path: the material, the thickness in millimetres, and the numbers of radiation and interaction lengths from the first point to the end of the piece, with these two points. The pieces are the volumes the path crosses, each whole or cut into several; the last line ends at the second point. Between a point and itself nothing is printed.", "quantifier": "all pairs of points, all geometries along the path and all navigators that follow it", "why_tests_cant": "All geometries and all paths; the lines depend on a chain of queries to one object with memory, each along another path.", "anchors": ["src/test/printMaterials.cc: main", "src/geartgeo/TGeoGearDistanceProperties.cc: beamOn, getMaterialNames, getMaterialThicknesses, getNRadlen, getNIntlen"]}
{"id": "C139", "title": "The coordinates of a vector of N numbers", "statement": "A new vector has zeros; after any assignments a coordinate is the value assigned to it last. An index that is not below the dimension, and any negative one, gives an exception for reading and for writing, and the vector stays as it is; nothing outside the vector is ever read or written.", "quantifier": "all dimensions from one on, all indices, all sequences of assignments", "why_tests_cant": "All indices, including those that wrap around when an int becomes unsigned, and all histories of assignments.", "anchors": ["include/gear/gearimpl/Vectors.h: VectorND_T, Vector2D_T, Vector3D_T"]}
{"id": "C140", "title": "Pads of a layout with a fixed pad angle, in double arithmetic", "statement": "With every operation rounded as IEEE doubles are, a layout with a fixed pad angle answers correctly up to a few roundings of its radii and angles: getNearestPad gives the pad of every point that lies deeper in a pad than that; every point of the ring segment gets a pad that exists and contains it up to that, unless it is that near to one of the two straight ends; isInsidePad says yes for all points that deep in the pad and for none that is further outside; and the computed centre of a pad is inside it, and the pad is the nearest, unless the pads are as small as some forty roundings. For a point beyond the outer radius, or before the inner one, that lies within the angles of a pad by that much, getNearestPad gives the pad of the last or the first row at this angle. Whatever index getNearestPad gives for any point, it is the index of a pad of the layout.", "quantifier": "all radii, angles and numbers of rows and pads up to 65536 with an angular range up to two pi, all points, every rounding with the properties of IEEE rounding to nearest and an error up to a thousandth", "why_tests_cant": "The answers depend on the last bits of quotients for all combinations of ranges, numbers and points; a test can show a few of them.", "anchors": ["src/gearimpl/FixedPadAngleDiskLayout.cc: FixedPadAngleDiskLayout, getNearestPad, isInsidePad, getPadCenter"]}
{"id": "C141", "title": "getNearestPad of a layout with a fixed pad angle returns, and gives a pad that exists, in double arithmetic", "statement": "For every radius and angle getNearestPad returns, and what it gives is a pad of the layout or the exception out_of_range.", "quantifier": "all layouts with a fixed pad angle, all radii and angles, in the arithmetic of doubles", "why_tests_cant": "The angle is brought into range by adding two pi again and again, and the number of the row comes from a conversion to int; whether that ends and fits depends on the sizes of the numbers, for all doubles.", "anchors": ["src/gearimpl/FixedPadAngleDiskLayout.cc: getNearestPad, getPadIndex"]}
{"id": "C142", "title": "Pads of a layout with a fixed pad size, in double arithmetic", "statement": "With every operation rounded as IEEE doubles are, a layout with a fixed pad size is right up to a few roundings: the number of rows, and the number of pads in each row, is the most that fit up to that; every point of the ring segment, edges included, gets a pad that exists and contains it up to that, and never an exception; a point deeper in a pad than that gets this pad; isInsidePad compares the distance from the exact centre with half the height and half the width of the pad up to that; and the computed centre of a pad is inside it, and the pad is the nearest, unless rows or pads are as small as some forty roundings.", "quantifier": "all radii from zero on, pad sizes, gaps and angular ranges up to two pi for which every row has between 1 and 65536 pads, all points, every rounding with the properties of IEEE rounding to nearest and an error up to a thousandth", "why_tests_cant": "The answers depend on the last bits of products and quotients for all combinations of sizes, ranges and points; a test can show a few of them.", "anchors": ["src/gearimpl/FixedPadSizeDiskLayout.cc: FixedPadSizeDiskLayout, getNearestPad, isInsidePad, getPadCenter, getPadWidth"]}
{"id": "C143", "title": "getNearestPad of a layout with a fixed pad size returns an existing pad, in double arithmetic", "statement": "For every radius and angle, the origin excepted, getNearestPad returns, and what it gives is a pad of the layout.", "quantifier": "all layouts with a fixed pad size, all radii and angles, in the arithmetic of doubles", "why_tests_cant": "The angle is brought into range by adding two pi again and again, and the numbers of row and pad come from conversions to int; whether that ends and fits depends on the sizes of the numbers, for all doubles.", "anchors": ["src/gearimpl/FixedPadSizeDiskLayout.cc: getNearestPad, getPadIndex"]}
{"id": "C144", "title": "Layers of a calorimeter in double arithmetic", "statement": "With additions rounded as IEEE doubles are: after any sequence of addLayer, positionLayer and getExtent, an added layer starts at the sum, as a double, of the distance and thickness reported for the layer before it, hence not before that layer if its thickness is not negative; the n-th of a stack of added layers starts where the thicknesses put it within n roundings; and the outer end that getExtent reports is, to the last bit, where a layer added next would start.", "quantifier": "all sequences of calls with layers of any thickness and number, barrel and endcap, every rounding with the properties of IEEE rounding to nearest", "why_tests_cant": "Rounding errors accumulate over any number of layers, for all combinations of thicknesses.", "anchors": ["src/gearimpl/LayerLayoutImpl.cc: addLayer, positionLayer", "src/gearimpl/CalorimeterParametersImpl.cc: getExtent"]}
{"id": "C145", "title": "Coordinates of a TPC module in double arithmetic", "statement": "With every operation rounded as IEEE doubles are and mathematical functions right to the last bit: localToGlobal gives the place of a local point (rotated, moved, mirrored on the negative side) and globalToLocal the local point placed at a global one, if setOffset or setAngle was called after the last setZPosition; after any setter calls, going there and back, either way, gives the same point; each up to a fixed number of roundings of the size of the coordinates and the offset. This includes polar offsets along the y axis, which are treated wrongly in exact arithmetic.", "quantifier": "all four combinations of Cartesian and polar coordinates of the TPC and of the pads, all sequences of setter calls in which the angle of a polar offset is a double, all points, every rounding with the properties of IEEE rounding to nearest and an error up to a thousandth", "why_tests_cant": "The error of a chain of rounded operations and trigonometric functions must be bounded for all points, angles and offsets; tests compare a few points with a tolerance.", "anchors": ["src/gearimpl/TPCModuleImpl.cc: globalToLocal, localToGlobal, setOffset, setAngle, checkLocalIsGlobal"]}
{"id": "C146", "title": "Nearest pad of a rectangular layout in double arithmetic", "statement": "With every operation rounded as IEEE doubles are: in a layout made of equal rows, getNearestPad gives for a point in the part of a row that belongs to a pad the index of this pad; it answers for every point inside or outside the layout; and for rows of any heights without gaps, whatever it returns is an existing pad in the row that has the height of the point, or in the first or last row if the point is beyond.", "quantifier": "all layouts with equal rows (any number up to 65536, pads of any height, row heights and offsets), for the last part all sequences of calls that leave no gaps, all points, every rounding with the properties of IEEE rounding to nearest", "why_tests_cant": "The search jumps from row to row by rounded estimates and ends by a comparison with rounded centres that accumulate an error per row; whether it ends depends on the last bits of the point and of every row height.", "anchors": ["src/gearimpl/RectangularPadRowLayout.cc: getNearestPad, addRow, repeatRows"]}
{"id": "C147", "title": "Pads of a rectangular layout in double arithmetic", "statement": "With every operation rounded as IEEE doubles are, in a layout made of equal rows: every row and pad number has an index that gives these numbers back; getPadCenter is the middle of the pad up to ten roundings horizontally and two roundings for every row vertically; isInsidePad is right for all points that are not as near as this to the border of the pad; and the pad nearest to the centre of a pad is this pad.", "quantifier": "all layouts with equal rows whose pads are larger than the rounding errors, all pads, all points, every rounding with the properties of IEEE rounding to nearest", "why_tests_cant": "Errors accumulate over any number of rows, for all heights, offsets and widths.", "anchors": ["src/gearimpl/RectangularPadRowLayout.cc: addRow, getPadIndex, getPadCenter, isInsidePad, getNearestPad"]}
{"id": "C148", "title": "Radiation and interaction lengths in double arithmetic", "statement": "With every operation rounded as IEEE doubles are: getNRadlen and getNIntlen(p0,p1) of the ROOT geometry are the sums of thickness over radiation (interaction) length of the volumes on the path for which this is not zero, up to one rounding more than there are such volumes; and a path that goes further through the same volumes, and perhaps through others behind them, never has fewer, to the last bit.", "quantifier": "all paths that can be followed with any number of volumes of lengths that are not negative, after any history of queries that did not spoil the stored data (C72), every rounding with the properties of IEEE rounding to nearest", "why_tests_cant": "Errors add up over any number of volumes, and monotony to the last bit has to hold for all lengths.", "anchors": ["src/geartgeo/TGeoGearDistanceProperties.cc: getNRadlen, getNIntlen, beamOn"]}
{"id": "C149", "title": "Versatile disk layouts in double arithmetic", "statement": "With every operation rounded as IEEE doubles are: after any successful calls of addRow there are as many rows as asked for, with the numbers of pads and the row and pad heights asked for exactly; the centre of a pad in row i lies at the middle radius of its row in exact arithmetic up to 2(i+2) rounding errors, its pitch and width are those asked for divided by the radius up to 3(i+3), its angle up to 3(i+4); the plane extent starts at the inner radius and ends at the sum of all heights up to two rounding errors for every call.", "quantifier": "all inner radii that are not negative, all sequences of successful calls with up to 65535 rows and 65536 pads in a row, all copies and histories of queries, every rounding with the properties of IEEE rounding to nearest for which 1000 (rows + 2) roundings are not more than 1", "why_tests_cant": "Errors add up from row to row over any number of rows and calls.", "anchors": ["src/gearimpl/VersatileDiskRowLayout.cc: addRow, Row::Row, getPadCenter, getPadPitch, getPadWidth, getPlaneExtent"]}
{"id": "C150", "title": "Searching versatile disk layouts in double arithmetic", "statement": "With every operation rounded as IEEE doubles are: the nearest pad of a point inside a pad is that pad, and isInsidePad is true for it, also for an angle a full turn away, unless it is nearer to the border than the rounding errors; a point for which isInsidePad is true is inside the pad up to rounding errors; the nearest pad of a pad centre is the pad; the search ends.", "quantifier": "all layouts of C149 whose first pads start less than a turn from 0 and whose pads are not narrower than 1e-8 of the radius, all points with angles between 0 and a full turn (nearest pad) and from six below the pad (inside test)", "why_tests_cant": "The distances to all other rows are computed with cancellation, which must not give zero or NaN for any of them.", "anchors": ["src/gearimpl/VersatileDiskRowLayout.cc: getNearestPad, isInsidePad, Row::getNearestPad, Row::getDistanceToRow, Row::distanceToPhiMin, Row::distanceToPhiMax"]}
{"id": "C151", "title": "FixedPadSize: no pad is nearer than the one returned by getNearestPad", "statement": "For every point, no point of the ring segment that the pads cover is nearer to it than the cell of the pad returned by getNearestPad; so no pad has a smaller getDistanceToPad.", "quantifier": "every constructed layout in which every row has a pad, every point not at the origin", "why_tests_cant": "A minimum over the infinitely many points of the segment for every point of the plane.", "anchors": ["src/gearimpl/FixedPadSizeDiskLayout.cc: getNearestPad", "src/gearimpl/FixedDiskLayoutBase.cc: getDistanceToPad"]}
{"id": "C152", "title": "RectangularPadRowLayout: no pad is nearer than the one returned by getNearestPad", "statement": "For every point for which getNearestPad ends, inside or outside of the plane, the pad it returns exists and no pad of the layout has a smaller getDistanceToPad from the point.", "quantifier": "every sequence of addRow and repeatRows calls (successful or not), every point", "why_tests_cant": "A minimum over all pads of every layout for every point of the plane.", "anchors": ["src/gearimpl/RectangularPadRowLayout.cc: getNearestPad, getDistanceToPad"]}
{"id": "C153", "title": "RectangularPadRowLayout: getDistanceToPad in double arithmetic is the distance to the pad up to rounding", "statement": "With every operation rounded to double, getDistanceToPad never fails for a pad that the other getters know, is never negative, and differs from the Euclidean distance between the point and the nearest point of the pad (the rectangle given by getPadCenter, getPadWidth and getPadHeight) by at most 8 rounding units of the coordinates and sizes involved. For a point inside of the pad, the result is exactly 0.", "quantifier": "every sequence of addRow and repeatRows calls, every pad, every point, every rounding with relative error at most 1/1000 (in particular binary64)", "why_tests_cant": "A bound on rounding errors for every layout and every point.", "anchors": ["src/gearimpl/RectangularPadRowLayout.cc: getDistanceToPad", "include/gearimpl/RectangularPadRowLayout.h"]}
{"id": "C154", "title": "Disk layouts: getDistanceToPad in double arithmetic is the distance to the pad up to rounding", "statement": "With every operation rounded to double, getDistanceToPad(r, phi, pad) of a disk layout is a number and, up to rounding, the Euclidean distance between the point and the nearest point of the pad (the keystone around getPadCenter with the height of the row and the pitch of the pad).", "quantifier": "every pad centre, row height and pitch, every point within a turn of the pad, every rounding with relative error at most 1/1000 (in particular binary64)", "why_tests_cant": "A bound on rounding errors for every pad and every point; the square root of a difference that cancels can become NaN.", "anchors": ["src/gearimpl/FixedDiskLayoutBase.cc: getDistanceToPad"]}
{"id": "C155", "title": "Surface coordinates in double arithmetic: conversions and round trips up to rounding", "statement": "With every operation rounded to double and a rotation matrix stored in doubles, getLocalPoint and getGlobalPoint of a CartesianCoordinateSystem differ from the exact rotation and translation by at most 7 rounding units of the distances involved, and converting to local coordinates and back (or the other way round) returns to the point within 50 rounding units.", "quantifier": "all rotations (entries rounded), translations and points; every rounding with relative error at most 1/1000 (in particular binary64)", "why_tests_cant": "A bound on rounding errors for every rotation and every point.", "anchors": ["src/gearsurf/CartesianCoordinateSystem.cc: getLocalPoint, getGlobalPoint"]}
{"id": "C156", "title": "Surface boundaries in double arithmetic are decided correctly off the border", "statement": "With every operation rounded to double, isInBoundary (rectangle, trapezoid) and isGlobalInBoundary (rectangle) are true for every point that is inside of the shape by more than an explicit number of rounding units, and false for every point that is outside of it by more than that.", "quantifier": "all dimensions, angles, surfaces and points; every rounding with relative error at most 1/3000 (in particular binary64)", "why_tests_cant": "A bound on rounding errors for every shape and every point.", "anchors": ["src/gearsurf/BoundaryRectangle.cc: isInBoundary", "src/gearsurf/BoundaryTrapezoid.cc: isInBoundary", "src/gearsurf/MeasurementSurface.cc: isGlobalInBoundary"]}
{"id": "C157", "title": "Planar vertex detector with float borders: points in ladders", "statement": "The borders of the ladders are passed on as float. isPointInLadder and isPointInSensitive report only points that are in the reported volume up to the tolerance of the query plus one float rounding unit of the border, and they report every point of a volume that is away from its side faces and ends by one rounding unit of these borders.", "quantifier": "all layers, sizes, points and every conversion to float that is monotone with relative error at most u (in particular binary32); completeness: radii of at most 1/(30000 u), and the angles of C40", "why_tests_cant": "A statement about the rounding of every border for every point, and the points that fail are those within a rounding unit of a border of a ladder at certain angles.", "anchors": ["src/gearimpl/ZPlanarParametersImpl.cc: isPointInLadder, getMaxRadius, distanceToPlane, correctToBorderPoint"]}
{"id": "C158", "title": "Planar vertex detector with float borders: the nearest ladder", "statement": "With borders stored in float, distanceToNearestLadder and distanceToNearestSensitive return a vector that leads to a volume up to the rounding of its borders and that is not longer than the way to any volume near in angle plus that rounding.", "quantifier": "all layers, sizes and points as in C41; every conversion to float that is monotone with relative error at most u (in particular binary32)", "why_tests_cant": "A bound on rounding errors for every layout and every point.", "anchors": ["src/gearimpl/ZPlanarParametersImpl.cc: distanceToNearestLadder, distanceToPlane, correctToBorderPoint"]}
{"id": "C159", "title": "Planar vertex detector with float borders: the first crossing of a line", "statement": "With borders stored in float, intersectionLadder and intersectionSensitive return the origin or a point of the line that is in a volume up to the rounding of its borders, and if the line goes through a face away from its edges by the rounding of the borders, the result is not further away than that face.", "quantifier": "all layers, sizes, points and directions as in C42; every conversion to float that is monotone with relative error at most u < 1 (in particular binary32)", "why_tests_cant": "The property quantifies over every line and every layout; the lines that fail are those within a rounding unit of an edge.", "anchors": ["src/gearimpl/ZPlanarParametersImpl.cc: intersectionLadder, planeLineIntersection, correctToBorderPoint"]}
{"id": "C160", "title": "Printing TrackerPlanes shows all layers and stays within its buffer", "statement": "Printing a TrackerPlanes layout writes one row for every layer, followed by one row for each of its scatterers and each of its sensors, with their values in the columns of the heading, and never writes behind the buffer a row is formatted in.", "quantifier": "all numbers of layers, scatterers and sensors, all values and all info texts", "why_tests_cant": "The buffer overflows only for texts and numbers of certain lengths, and the columns must agree for every combination of values.", "anchors": ["include/gear/gearimpl/TrackerPlanesLayerLayoutImpl.h: PrintHeader, PrintLayers, PrintFooter", "src/gearimpl/Util.cc: operator<< of TrackerPlanesParameters"]}
{"id": "C161", "title": "printParameters shows everything that is in a file", "statement": "For every file that can be read, the program printParameters ends with status zero and shows all of its geometry: the name, the field, every section with its named parameters and tables, the sections with named parameters, and the materials. For a file that cannot be read it reports the error and ends with status one, and shows nothing else.", "quantifier": "all files, all geometries in them, all contents of the disk", "why_tests_cant": "Whether something is missing in the output depends on which sections are in the file, on the number of layers and on the sizes of values.", "anchors": ["src/test/printParameters.cc: main, gear_unexpected", "src/gearimpl/Util.cc: operator<< of all classes", "src/gearxml/GearXML.cc: createGearMgr"]}
{"id": "C162", "title": "Pads of the modules of a TPC with the rounding of doubles", "statement": "Take a TPC, Cartesian or polar, whose modules have rectangular pads and lie anywhere at any angle on either side. The distance of a point from a pad of a module, the centre of a pad in the frame of the TPC and the decision whether a point is on a pad are those of the pad at its place on the end plate, up to an explicit multiple of the rounding. For a point on a pad, not near to its border, the module answers with this pad, and the TPC answers with this pad and this module.", "quantifier": "all rounding functions with a given relative error, sine, cosine, root and arcus tangent with this error, all modules with rectangular pads, all placements, both kinds of coordinates, all points, all lists of modules", "why_tests_cant": "The roundings of the rotation, of the shift, of the sums over rows and of the distance accumulate; whether their sum can exceed the bound depends on all values.", "anchors": ["src/gearimpl/TPCModuleImpl.cc: getPadCenter, getNearestPad, isInsidePad, getDistanceToPad, globalToLocal, localToGlobal", "src/gearimpl/TPCParametersImpl.cc: getNearestPad", "src/gearimpl/RectangularPadRowLayout.cc: getDistanceToPad, getPadCenter, isInsidePad, getNearestPad"]}
{"id": "C163", "title": "Pads of the disk modules of a TPC with the rounding of doubles", "statement": "Take a TPC, Cartesian or polar, with modules whose pads are the keystones of a ring segment, placed anywhere at any angle on either side. For a point on a pad, not near to its border, the module answers getNearestPad with this pad, the distance to it is 0, isInsidePad is true for it and false where the point is not on the pad, and the TPC answers with this pad and this module, up to an explicit multiple of the rounding. For a point that is not on the pad the distance to the pad is the distance in the plane, up to an explicit multiple of the rounding.", "quantifier": "all rounding functions with a given relative error, sine, cosine, root and arcus tangent with this error, all ring segments of at most one turn, all placements, both kinds of coordinates, all points, all lists of modules", "why_tests_cant": "The local angle is calculated with an arcus tangent, normalised, turned and rounded at every step; whether it ends in the range that the layout uses depends on the signs of the pad angles, on the placement and on the last bits.", "anchors": ["src/gearimpl/TPCModuleImpl.cc: getNearestPad, isInsidePad, getDistanceToPad, getPadCenter, globalToLocal", "src/gearimpl/FixedPadAngleDiskLayout.cc: getNearestPad, isInsidePad, getPadCenter", "src/gearimpl/FixedDiskLayoutBase.cc: getDistanceToPad", "src/gearimpl/TPCParametersImpl.cc: getNearestPad"]}
{"id": "C164", "title": "Pads of a fixed size in the modules of a TPC, with the rounding of doubles", "statement": "Take a Cartesian TPC with modules whose pads have a fixed size in a ring segment from the angle 0 on, placed anywhere at any angle on either side. For a point on a pad, not near to its border, the module answers getNearestPad with this pad, the distance to it is 0, and the TPC answers with this pad and this module unless another module has a pad at the distance 0; isInsidePad compares the distance from the middle of the pad with half of its height and width; and getPadCenter is the place of the middle of the pad. All of this up to an explicit multiple of the rounding.", "quantifier": "all rounding functions with a given relative error, sine, cosine, root and arcus tangent with this error, all pad sizes, gaps and ring segments of at most one turn whose rows have pads, all placements, all points, all lists of modules", "why_tests_cant": "The local angle is calculated with an arcus tangent, normalised, turned and rounded at every step, and numbers of rows and pads come from rounded quotients; tests see a few combinations.", "anchors": ["src/gearimpl/TPCModuleImpl.cc: getNearestPad, isInsidePad, getDistanceToPad, getPadCenter, globalToLocal", "src/gearimpl/FixedPadSizeDiskLayout.cc: FixedPadSizeDiskLayout, getNearestPad, isInsidePad, getPadCenter, getPadPitch", "src/gearimpl/FixedDiskLayoutBase.cc: getDistanceToPad", "src/gearimpl/TPCParametersImpl.cc: getNearestPad"]}
{"id": "C165", "title": "Areas of the rectangular modules of a TPC, with the rounding of doubles", "statement": "Take a TPC with any number of modules with rectangular layouts, placed anywhere at any angle on either side, with any border that is not negative. getDistanceToModule is the smallest distance between the point and the placed area of the module (layout and border); isInsideModule of a module is true for the points of this area and for no others, isInsideModule of the TPC for the points in the area of some module; getNearestModule of the TPC gives a module such that no other one is nearer; isInsidePad without a pad is true for points on a pad, and only for those, of a module and of the TPC. All of this up to an explicit multiple of the rounding.", "quantifier": "all rounding functions with a given relative error, all layouts, borders, placements, points and lists of modules; for isInsidePad layouts with equal rows", "why_tests_cant": "The local coordinates, the extent and the distances are rounded at every step, and the branches depend on them; tests see a few points.", "anchors": ["src/gearimpl/TPCModuleImpl.cc: getDistanceToModule, isInsideModule, isInsidePad, convertLocalPlaneToGlobalPlaneExtend, globalToLocal", "src/gearimpl/TPCParametersImpl.cc: getNearestModule, isInsideModule, isInsidePad", "src/gearimpl/RectangularPadRowLayout.cc: getNearestPad, isInsidePad, getPlaneExtent"]}
{"id": "C166", "title": "Areas of the disk modules of a TPC, with the rounding of doubles", "statement": "Take a module of a TPC with a layout with a fixed pad angle, placed anywhere at any angle on either side, with a border that is not negative. isInsideModule is true for the points of the placed ring segment (layout and border) and for no others, at any angles of the segment and for angles of the point with any number of turns; for a TPC with any number of such modules it is true for the points in the area of some module and no others; isInsidePad without a pad is true for points on a pad, and only for those; and it agrees with isInsidePad for the nearest pad. All of this up to an explicit multiple of the rounding.", "quantifier": "all rounding functions with a given relative error, all layouts, borders that leave a gap, placements, points and lists of modules", "why_tests_cant": "The loops that remove full turns round in every pass, and so do the local coordinates and the extent; tests see a few points.", "anchors": ["src/gearimpl/TPCModuleImpl.cc: isInsideModule, isInsidePad, convertLocalPlaneToGlobalPlaneExtend, globalToLocal", "src/gearimpl/TPCParametersImpl.cc: isInsideModule", "src/gearimpl/FixedPadAngleDiskLayout.cc: getNearestPad, isInsidePad, getPlaneExtent"]}
{"id": "C167", "title": "Distances from the disk modules of a TPC, with the rounding of doubles", "statement": "Take a module of a TPC with a layout with a fixed pad angle, placed anywhere at any angle on either side, with a border that is not negative. getDistanceToModule is 0 for points in the placed ring segment (layout and border), and otherwise the smallest distance between the point and the points of this ring segment, up to an explicit multiple of the rounding. getNearestModule of a TPC with any number of such modules gives a module of the TPC, and no other module is nearer, up to these roundings.", "quantifier": "all rounding functions with a given relative error, all layouts, borders that leave a gap, placements and points that are not at the angle where the area begins", "why_tests_cant": "The local coordinates, the extent, the loops over full turns, the edges and the square roots are rounded at every step, and the branches depend on them; tests see a few points.", "anchors": ["src/gearimpl/TPCModuleImpl.cc: getDistanceToModule, convertLocalPlaneToGlobalPlaneExtend, globalToLocal", "src/gearimpl/TPCParametersImpl.cc: getNearestModule"]}
{"id": "C168", "title": "Areas of TPC modules with any disk layout and of TPCs with modules of several kinds, with the rounding of doubles", "statement": "Take a module of a TPC with any layout in polar coordinates, for instance with pads of a fixed size, placed anywhere at any angle on either side, with a border that is not negative and leaves a gap. isInsideModule and getDistanceToModule answer for the placed ring segment that the layout covers and the border around it, up to an explicit multiple of the rounding: points in it are inside and at the distance 0, other points are at their smallest distance from it. In a TPC with any number of modules, rectangular and polar, getNearestModule gives a module of the TPC and no other module is nearer, up to these roundings.", "quantifier": "all rounding functions with a given relative error, all polar layouts of at most one turn, borders that leave a gap, placements, numbers and kinds of modules, and points not near to an edge", "why_tests_cant": "The local coordinates, the extent and the loops over full turns are rounded at every step; layouts, placements and points are infinitely many.", "anchors": ["src/gearimpl/TPCModuleImpl.cc: isInsideModule, getDistanceToModule, convertLocalPlaneToGlobalPlaneExtend, globalToLocal", "src/gearimpl/TPCParametersImpl.cc: getNearestModule, isInsideModule", "src/gearimpl/FixedPadSizeDiskLayout.cc: getPlaneExtent"]}
{"id": "C169", "title": "Pads of TPC modules with versatile layouts, with the rounding of doubles", "statement": "Take a module of a Cartesian TPC with a versatile disk layout of any rows, placed anywhere at any angle. For a point that lies on a pad of the placed module, farther from the border of the pad than an explicit multiple of the rounding, getNearestPad gives this pad, isInsidePad holds and getDistanceToPad is exactly 0; isInsidePad holds for no point that is farther outside of the pad. getPadCenter is the place of the middle of the pad. In a TPC with any number of modules getNearestPad gives this pad and the id of its module, unless another module also answers with a pad at the distance 0. isInsideModule answers for the placed ring segment of the layout's plane extent with the border around it, up to rounding; this segment goes from the inner radius to the outer end of the last row.", "quantifier": "all rounding functions with a given relative error, all versatile layouts whose rows start less than a turn away from the angle 0, all placements and points, all pads, all TPCs", "why_tests_cant": "Rows are stacked by rounded sums, offsets and pitches are divided by rounded radii, and the local coordinates are rounded at every step; layouts, placements and points are infinitely many.", "anchors": ["src/gearimpl/TPCModuleImpl.cc: getNearestPad, isInsidePad, getDistanceToPad, getPadCenter, globalToLocal", "src/gearimpl/VersatileDiskRowLayout.cc: getNearestPad, isInsidePad, getPadCenter, addRow", "src/gearimpl/FixedDiskLayoutBase.cc: getDistanceToPad", "src/gearimpl/TPCParametersImpl.cc: getNearestPad", "src/gearimpl/TPCModuleImpl.cc: isInsideModule"]}
{"id": "C170", "title": "Distances from disk pads of TPC modules, and the nearest pad of a mixed TPC, with the rounding of doubles", "statement": "Take a module of a Cartesian TPC with a disk layout with a fixed pad size or a versatile disk layout, placed anywhere at any angle. For a point outside of a pad, farther away than an explicit multiple of the square root of the rounding error, getDistanceToPad is the smallest distance between the point and the points of the placed pad, up to an explicit error bound. In a TPC whose modules have rectangular pads, fixed pad angles, fixed pad sizes or versatile layouts in any mixture, getNearestPad gives the pad that the point lies on and the id of its module, when the pads that the other modules answer with are farther away than their error bounds.", "quantifier": "all rounding functions with a given relative error, all disk layouts, all placements, points and pads at angles between 0 and a full turn, all TPCs with any number of modules of any of the four kinds", "why_tests_cant": "The distance is computed from rounded borders in rounded local coordinates through several cases; layouts, placements, points and mixtures of modules are infinitely many.", "anchors": ["src/gearimpl/TPCModuleImpl.cc: getDistanceToPad, getNearestPad, globalToLocal", "src/gearimpl/FixedDiskLayoutBase.cc: getDistanceToPad", "src/gearimpl/FixedPadSizeDiskLayout.cc: getPadCenter, getPadPitch", "src/gearimpl/VersatileDiskRowLayout.cc: getPadCenter, getRowHeight, getPadPitch", "src/gearimpl/TPCParametersImpl.cc: getNearestPad"]}
