{"id": "C01", "title": "Suggested names are always free", "statement": "Asking a database or layout for the next free name built from a base name always returns, and the answer is a name that no existing object of that collection has. If the base name itself is free it is returned unchanged; otherwise the answer is the base name followed by the smallest positive integer that makes it free.", "quantifier": "every finite set of names already in use and every base name", "why_tests_cant": "The set of used names is unbounded and a search loop could fail to terminate or return a used name only for unusual mixtures of names that already end in digits.", "anchors": ["src/basic/ECollection.h: NextKey", "src/collection/ENetCollection.cpp: NextNetName", "src/design/EDatabase.cpp: GetNextDefName"]}
{"id": "C02", "title": "Name-keyed collections behave like a dictionary", "statement": "A name-keyed collection answers every lookup with the object stored by the last successful insertion of that name since it was last cleared. Inserting a name already present without force fails and changes nothing; inserting with force replaces; the reported size is the number of distinct names present.", "quantifier": "every history of insertions (forced or not), assignments and clears, and every name looked up afterwards", "why_tests_cant": "Histories are unbounded; a test shows only a few interleavings.", "anchors": ["src/basic/ECollection.h: EUnorderedMapCollection::Insert, At, Count, Clear, Size", "src/collection/EModelCollection.cpp: AddModel, FindModel"]}
{"id": "C03", "title": "Net ids identify nets", "statement": "In a layout's net collection, after any history of creating, importing, looking up and clearing nets, no two nets share an id or a name, and looking a net up by id returns exactly the net that carries this id (and nothing for an id no net carries), although the id index is built lazily and cached.", "quantifier": "every history of CreateNet, AddNet, FindNetByNetId and Clear starting from an empty collection", "why_tests_cant": "The cached index can be stale only after particular interleavings of queries and edits.", "anchors": ["src/collection/ENetCollection.cpp: CreateNet, AddNet, FindNetByNetId, Clear", "src/basic/EUidGenerator.h"]}
{"id": "C04", "title": "A copied net collection keeps ids unique", "statement": "After a net collection is copied, continuing to create nets in the copy still gives every net an id of its own.", "quantifier": "every net collection and every continuation in its copy", "why_tests_cant": "Only a copy followed by further creation shows a collision; tests exercise the original object.", "anchors": ["src/collection/ENetCollection.cpp: operator=", "src/collection/ENetCollection.cpp: CreateNet"]}
{"id": "C05", "title": "Layer ids are stack positions", "statement": "In a layout built by appending layers the id of every layer equals its position in the stack, so looking up by id and by position agree. This is kept by inserting the default dielectric layers, which keeps all former layers in their order, inserts one dielectric layer exactly between two vertically adjacent conducting layers, and leaves no two conducting layers adjacent.", "quantifier": "every history of layer appends and every resulting stack on which default dielectric layers are inserted", "why_tests_cant": "Stacks are unbounded and the invariant is inductive over edits.", "anchors": ["src/collection/ELayerCollection.cpp: AppendLayer, AddDefaultDielectricLayers, MakeLayerIdOrdered, FindLayerByLayerId"]}
{"id": "C06", "title": "Objects stay on their layer when dielectric layers are inserted", "statement": "Inserting default dielectric layers reports a mapping from old to new layer ids such that the layer with the new id is the very layer that had the old id; the layout applies it, so every primitive is still drawn on the same layer afterwards.", "quantifier": "every layer stack with ids equal to positions, and every layer reference", "why_tests_cant": "The mapping is a bijection on an unbounded stack; off-by-one mistakes show up only for particular stack patterns.", "anchors": ["src/collection/ELayerCollection.cpp: AddDefaultDielectricLayers", "src/design/ELayoutView.cpp: AddDefaultDielectricLayers, Map", "src/collection/EPrimitiveCollection.cpp: Map", "src/collection/EPadstackInstCollection.cpp: Map"]}
{"id": "C07", "title": "Layer maps are reversible", "statement": "A layer map is at all times a one-to-one correspondence: forward lookup of a gives b exactly when backward lookup of b gives a. It always keeps 'no layer' and 'component layer' mapped to themselves, and a mapping once established is never changed by later attempts to map the same layer on either side.", "quantifier": "every history of SetMapping, MappingLeft and MappingRight calls", "why_tests_cant": "Bijectivity is an invariant over arbitrary histories.", "anchors": ["src/design/ELayerMap.cpp: SetMapping, GetMappingForward, GetMappingBackward, MappingLeft, MappingRight"]}
{"id": "C08", "title": "Remapping a layer map composes the two mappings", "statement": "Rewriting the from-side (to-side) of a layer map through another layer map that maps every layer in use injectively gives precisely the relational composition of the two mappings: no entry is lost and none is invented.", "quantifier": "every pair of layer maps", "why_tests_cant": "Collisions are silently dropped by the underlying container, so loss shows only for particular pairs of maps.", "anchors": ["src/design/ELayerMap.cpp: MappingLeft, MappingRight"]}
{"id": "C09", "title": "File version numbers survive encoding", "statement": "Encoding a library version as an integer and decoding it gives the same version for every major and minor number below one hundred, and versions compare the same way before and after the encoding.", "quantifier": "every major and minor version number from 0 to 99", "why_tests_cant": "Exhaustive testing is possible but not done; the statement also fixes the exact domain outside which it fails.", "anchors": ["src/basic/ECadVersion.h: toInt, fromInt"]}
{"id": "C10", "title": "Interpolated table lookups stay within the samples", "statement": "A one dimensional lookup table returns the sampled value at each sample point, the end value outside the sampled range, and otherwise a value between the two neighbouring samples (hence between the least and greatest sample); looking up in a table with non-decreasing samples is non-decreasing. The first value given for a sample point is the one kept.", "quantifier": "every table of samples in any insertion order and every query point (exact arithmetic)", "why_tests_cant": "Queries range over a continuum and tables over all sample sets.", "anchors": ["src/basic/ELookupTable.h: ELookupTable1D::AddSample, Lookup"]}
{"id": "C11", "title": "Setting a material property takes effect", "statement": "After setting a property of a material, reading that property returns the value just set.", "quantifier": "every material and every sequence of property settings", "why_tests_cant": "A test sets a property once; only setting an already set property shows the failure.", "anchors": ["src/design/EMaterialDef.cpp: SetProperty, GetProperty"]}
{"id": "C12", "title": "Material property accessors agree", "statement": "The simple, anisotropic and tensor views of a material property agree: the anisotropic value of an axis is the diagonal entry of the tensor for that axis, a simple value gives an isotropic (diagonal) tensor, and out-of-range axes are refused.", "quantifier": "every property value with 1, 3 or 9 components and every row and column", "why_tests_cant": "The views overlap in many combinations; each is right on its own in tests.", "anchors": ["src/design/EMaterialProp.cpp: EMaterialPropValue::GetAnisotropicProperty, GetTensorProperty, GetSimpleProperty"]}
{"id": "C13", "title": "Reading a transform does not change it", "statement": "The transform matrix reported by a transform object depends only on the edits made to it (component settings and appended transforms), not on whether and when the matrix was read in between, and copies report the same matrix as their original.", "quantifier": "every history of component settings, appends, reads and copies", "why_tests_cant": "The cached matrix makes reads observable only in particular interleavings.", "anchors": ["src/basic/ETransform.h: ETransform2D::GetTransform, Append, Scale, Rotation, Mirror, Offset, operator="]}
{"id": "C14", "title": "Coordinates survive unit conversion", "statement": "Converting a database coordinate to user units and back gives the same coordinate; converting a user length to a coordinate is exact up to truncation towards zero by less than one database unit, and conversion is monotone.", "quantifier": "every coordinate, every positive unit scale (exact arithmetic)", "why_tests_cant": "Coordinates and scales are unbounded; rounding errors appear only at particular values.", "anchors": ["src/basic/ECadUnits.h: ECoordUnits::toCoord, toUnit, Scale2Coord"]}
{"id": "C15", "title": "The database registry is a dictionary of live databases", "statement": "The data manager opens exactly the databases that were created or loaded and not removed since; creating or loading under a name in use is refused and leaves the registered database untouched; removing reports whether the database existed.", "quantifier": "every history of create, open, load, remove and shutdown calls", "why_tests_cant": "Histories are unbounded.", "anchors": ["src/EDataMgr.cpp: CreateDatabase, OpenDatabase, LoadDatabase, RemoveDatabase, ShutDown"]}
{"id": "C16", "title": "Extraction never returns a model of other settings", "statement": "The model returned by extracting a thermal or layer cut model from a layout is a model generated with the settings passed in this call (either just now, or cached from an earlier call with settings that would generate the same model).", "quantifier": "every history of extraction calls with arbitrary settings, including calls whose generation fails", "why_tests_cant": "Cache reuse depends on the previous history and on the equality of large settings records.", "anchors": ["src/design/ELayoutView.cpp: ExtractLayerCutModel, ExtractThermalModel", "src/basic/ECadSettings.h: operator==", "src/collection/EModelCollection.cpp: AddModel"]}
{"id": "C17", "title": "Iterators visit every element once", "statement": "Iterating over a collection with the collection iterators returns every element exactly once and then ends, in particular also when some sub-collections are empty.", "quantifier": "every collection content, including empty sub-collections in any position", "why_tests_cant": "The position of empty sub-collections is arbitrary; tests use fully populated designs.", "anchors": ["src/basic/ECollection.h: EUnorderedMapCollectionIterator, EUnorderedMapComplexCollectionIterator, EVectorCollectionIterator", "src/collection/EConnObjCollection.cpp: EConnObjIterator", "src/collection/EHierarchyObjCollection.cpp: EHierarchyObjIterator"]}
{"id": "C18", "title": "Flattening a hierarchy draws every instance path once", "statement": "After flattening an acyclic design, every top cell contains, for each path of instances from it down to a cell, exactly one transformed copy of each primitive that cell contained itself, and no instances remain; the result does not depend on the order in which the parallel flattening tasks are run, as long as a cell's task runs after the tasks of the cells it instantiates.", "quantifier": "every acyclic cell hierarchy and every admissible schedule of the flattening tasks", "why_tests_cant": "Schedules and hierarchies are unbounded, and tasks may run repeatedly for shared cells.", "anchors": ["src/utility/EFlattenUtility.cpp: Flatten, ScheduleFlattenTasks, FlattenOneCell, GetTopCells", "src/design/ELayoutView.cpp: Flatten, Merge", "src/utility/ELayoutMergeUtility.cpp: Merge"]}
{"id": "C19", "title": "Merging layouts keeps connectivity", "statement": "After merging one layout into another, two merged-in connection objects are on the same net exactly when they were on the same net before, no merged-in object is on a net of the receiving layout, objects without net have no net, and objects of the receiving layout keep their nets.", "quantifier": "every pair of layouts with arbitrary nets, names and ids", "why_tests_cant": "Name clashes between the layouts can be arbitrary, and ids are remapped.", "anchors": ["src/utility/ELayoutMergeUtility.cpp: Merge", "src/collection/ENetCollection.cpp: AddNet, NextNetName"]}
{"id": "C20", "title": "Connectivity extraction groups objects into nets", "statement": "After rebuilding connectivity, two objects that take part in the extraction are on the same net exactly when the extracted connectivity graph connects them, and different connected groups get nets with different names and ids.", "quantifier": "every layout and every partition of its objects into connected groups", "why_tests_cant": "Group and label combinations, in particular repeated labels, are unbounded.", "anchors": ["src/utility/ELayoutConnectivity.cpp: ConnectivityExtraction"]}
{"id": "C21", "title": "Merging polygons replaces exactly the merged primitives", "statement": "After polygons of a layout have been merged, the layout contains exactly the primitives that were not merged away plus the merged polygons, irrespective of the order in which the set of merged-away primitives is traversed.", "quantifier": "every list of primitives, every set of merged-away indices, every number of resulting polygons and every traversal order of the set", "why_tests_cant": "The traversal order of an unordered set is unspecified and depends on hashing and library version.", "anchors": ["src/utility/ELayoutPolygonMerger.cpp: FillPolygonsFromLayout, FillPolygonsBackToLayout", "src/collection/EPrimitiveCollection.cpp: PopBackPrimitive, SetPrimitive"]}
{"id": "C22", "title": "Changing a layer's thickness keeps the stackup contiguous", "statement": "After changing the thickness of a stackup layer every stackup layer begins exactly where the layer above it ends, the topmost elevation and the thickness of every other layer are unchanged, and the total stack height changes by exactly the change in thickness. Unknown layers are refused and nothing changes.", "quantifier": "every stackup and every new thickness (exact arithmetic)", "why_tests_cant": "Stackups are unbounded.", "anchors": ["src/utility/ELayoutModifier.cpp: ModifyStackupLayerThickness"]}
{"id": "C23", "title": "Components sit on their layer", "statement": "The vertical extent computed for a component and for its solder balls or bumps is attached to its placement layer: unflipped components lie directly above the layer top with the solder filling the gap, flipped components directly below the layer bottom; the extents of component, solder and layer do not overlap and leave no gap.", "quantifier": "every layer elevation and thickness, solder height, component height and orientation", "why_tests_cant": "Heights range over a continuum and the flipped cases have different formulas.", "anchors": ["src/utility/ELayoutRetriever.cpp: GetComponentHeightThickness, GetComponentBallBumpThickness, GetLayerHeightThickness"]}
{"id": "C24", "title": "Bond wire refinement keeps the wire", "statement": "Refining a bond wire into at least a required number of segments ends for every wire with two or more points, yields at least the required number of points, keeps the two end points and every original point in order, and only adds mid points of neighbouring points.", "quantifier": "every polyline and every required number of segments", "why_tests_cant": "Polylines and counts are unbounded; non-termination appears only for degenerate wires.", "anchors": ["src/utility/ELayoutRetriever.cpp: GetBondwireSegmentsWithMinSeg"]}
{"id": "C25", "title": "Every point of the layout falls in a tile of the grid", "statement": "Mapping a point inside the mapped region to a tile index always gives a tile inside the grid, and the tile contains the point.", "quantifier": "every region, tile size and point in the closed region", "why_tests_cant": "Only points on the far boundary fail.", "anchors": ["src/utility/EMetalFractionMapping.h: GetIndex", "src/utility/EMetalFractionMapping.cpp: GetMetalFraction, GenerateMetalFractionMapping"]}
{"id": "C26", "title": "Layer cutting covers each polygon exactly", "statement": "When a layer cut model has been built, the cut layers of a polygon are exactly those lying inside the polygon's vertical range, they cover the range without gap or overlap, and every valid polygon occurs in at least one layer.", "quantifier": "every list of polygons with valid vertical ranges", "why_tests_cant": "The set of heights is unbounded and ranges may overlap in any way.", "anchors": ["src/model/geometry/ELayerCutModel.cpp: BuildLayerPolygonLUT, GetLayerIndexByHeight, GetLayerHeightThickness", "src/model/geometry/utils/ELayerCutModelBuilder.cpp: AddPolygon"]}
{"id": "C27", "title": "Slicing thick layers ends and preserves the stack", "statement": "Slicing layers that are too thick compared with their neighbours always ends, keeps the stack contiguous with the same top and bottom, keeps every former boundary, and leaves only layers of positive thickness.", "quantifier": "every contiguous list of layer ranges and every transition ratio above one", "why_tests_cant": "Non-termination and degenerate slices appear only for particular thickness sequences.", "anchors": ["src/model/geometry/ELayerCutModel.cpp: SliceOverheightLayers, BuildLayerPolygonLUT"]}
{"id": "C28", "title": "Thermal network resistances combine in parallel", "statement": "The thermal conductance between two nodes of a network is the sum of the conductances of all resistors placed between them, independent of the order in which and the direction from which they were placed; each unordered pair of nodes is stored once.", "quantifier": "every sequence of SetR calls with positive resistances above the minimum (exact arithmetic)", "why_tests_cant": "Sequences are unbounded, and both directions and repetitions interact.", "anchors": ["src/solver/thermal/network/ThermalNetwork.h: SetR"]}
{"id": "C29", "title": "The thermal system matrix conserves energy", "statement": "The conductance matrix assembled from a thermal network is symmetric, each row sums to the heat transfer coefficient of its node, and therefore for every temperature vector that solves the system the heat leaving through the boundary equals the total heat put in.", "quantifier": "every thermal network and every temperature vector (exact arithmetic)", "why_tests_cant": "Networks are unbounded; a test checks single numbers.", "anchors": ["src/solver/thermal/network/ThermalNetwork.h: makeMNA, makeRhs, makeFullRhs", "src/solver/thermal/network/ThermalNetworkSolver.h: ThermalNetworkSolver::Solve"]}
{"id": "C30", "title": "Steady temperatures obey the maximum principle", "statement": "In a network with positive resistances where every node is connected to a boundary node with positive heat transfer, the temperatures solving the system are unique; if no heat is extracted anywhere they are nowhere below the ambient reference temperature, and without heat sources they all equal it.", "quantifier": "every such network (exact arithmetic)", "why_tests_cant": "It is a statement about all networks and all solutions.", "anchors": ["src/solver/thermal/network/ThermalNetwork.h: makeMNA, makeRhs", "src/solver/thermal/network/ThermalNetworkSolver.h"]}
{"id": "C31", "title": "Sources and boundaries enter the right hand side at their nodes", "statement": "The reduced excitation vector multiplied by the source selection matrix gives at every node exactly its heat flow plus its boundary heat transfer times the reference temperature, and zero elsewhere.", "quantifier": "every thermal network with any mix of source and boundary nodes", "why_tests_cant": "Two differently indexed loops have to agree for every network.", "anchors": ["src/solver/thermal/network/ThermalNetwork.h: makeRhs, makeFullRhs, makeMNA, Source"]}
{"id": "C32", "title": "Pad parameters are only read for layers of the padstack", "statement": "Reading or writing the pad parameters of a padstack definition for any layer id either refuses or accesses the pad of that layer, and reading back what was written returns it.", "quantifier": "every padstack definition and every layer id including the reserved ids", "why_tests_cant": "Reserved negative ids other than the checked one are not exercised.", "anchors": ["src/design/EPadstackDefData.cpp: SetPadParameters, GetPadParameters, SetLayers"]}
{"id": "C33", "title": "Grid cells are numbered uniquely", "statement": "Grid thermal model cell numbers and cell coordinates correspond one to one: all numbers below the total are used, each exactly once, and converting either way and back is the identity. Stepping to a neighbour and back returns to the same cell, and every pair of adjacent cells is connected exactly once.", "quantifier": "every grid size and every cell", "why_tests_cant": "Grid sizes are unbounded.", "anchors": ["src/model/thermal/EGridThermalModel.h: GetFlattenIndex, GetGridIndex, TotalGrids", "src/solver/thermal/utils/EGridThermalNetworkBuilder.cpp: GetNeighbor, Build"]}
{"id": "C34", "title": "Prism elements are numbered uniquely", "statement": "Global and local indices of prism elements correspond one to one across layers, also when some layers are empty, and line elements are numbered after all prism elements.", "quantifier": "every list of layer sizes and every element", "why_tests_cant": "Layer size patterns, in particular empty layers, are unbounded.", "anchors": ["src/model/thermal/EPrismThermalModel.h: GlobalIndex, PrismLocalIndex, LineLocalIndex, isPrima", "src/model/thermal/EPrismThermalModel.cpp: BuildPrismModel"]}
{"id": "C35", "title": "Reducing a thermal model conserves power", "statement": "Halving the resolution of a power or density map keeps the total power unchanged for every map size (including odd sizes) and every reduced average, minimum or maximum lies between the least and greatest of the values it replaces.", "quantifier": "every map and every size", "why_tests_cant": "Odd sizes and signs of values combine arbitrarily.", "anchors": ["src/model/thermal/utils/EThermalModelReduction.cpp: detail::Reduce, EChipThermalModelReduction::Reduce"]}
{"id": "C36", "title": "Parallel assembly handles each element once", "statement": "The blocks into which the network assembly is split for parallel execution cover every element exactly once for every number of elements and threads.", "quantifier": "every number of elements and threads", "why_tests_cant": "Remainders depend on the number of hardware threads.", "anchors": ["src/solver/thermal/utils/EPrismThermalNetworkBuilder.cpp: Build", "src/solver/thermal/utils/EStackupPrismThermalNetworkBuilder.cpp: Build"]}
{"id": "C37", "title": "A height query finds the layer containing the height", "statement": "Searching the layer of a prism model nearest to a height returns the layer whose vertical extent contains the height, the top layer for heights at or above the top of the stack and the bottom layer for heights below it.", "quantifier": "every contiguous stack and every height", "why_tests_cant": "Only heights exactly on the top boundary fail.", "anchors": ["src/model/thermal/utils/EPrismThermalModelQuery.cpp: NearestLayer", "src/utility/ELayoutRetriever.cpp: SearchStackupLayer"]}
{"id": "C38", "title": "Probe results come back in the order of the request", "statement": "When temperatures are sampled at requested probes, given in any order and with repetitions, the value reported for each request is that of the requested node.", "quantifier": "every list of probe indices", "why_tests_cant": "Orders and repetitions are arbitrary.", "anchors": ["src/solver/thermal/EThermalNetworkSolver.cpp: GetProbsAndPermutation"]}
{"id": "C39", "title": "Encrypted thermal model files can be read back", "statement": "Text written encrypted to a chip thermal model file is decrypted to the same text, and a file written encrypted is recognised as encrypted when read.", "quantifier": "every line of text, every file", "why_tests_cant": "Lines are arbitrary, and wrap-around depends on their length.", "anchors": ["src/model/thermal/io/EChipThermalModelIO.cpp: encrypt, decrypt, header parsing and writing"]}
{"id": "C40", "title": "Chip stackups are contiguous", "statement": "The layer stackup derived from a chip thermal model lists layers from top to bottom without gap or overlap, and every layer with a resolvable position is part of it.", "quantifier": "every set of metal and via layers", "why_tests_cant": "Layer sets and their elevation ties are unbounded; cyclic via definitions hang.", "anchors": ["src/model/thermal/EChipThermalModel.cpp: BuildLayerStackup, GetLayerHeightThickness"]}
{"id": "C41", "title": "GDSII numbers decode to what was written", "statement": "Two- and four-byte integers and eight-byte reals in a GDSII file are read back as the number they encode: two's complement for integers, sign, excess-64 base-16 exponent and 56-bit fraction for reals.", "quantifier": "every byte pattern", "why_tests_cant": "There are 2^64 patterns.", "anchors": ["src/extension/gds/EGdsParser.cpp: operator()(istream)"]}
{"id": "C42", "title": "GDSII buffering is invisible", "statement": "Reading a GDSII file through the growing buffer delivers exactly the bytes of the file in order, split into records as their length fields say, whatever the buffer capacity and however records straddle the buffer boundary.", "quantifier": "every byte stream, every sequence of requested lengths and every initial capacity", "why_tests_cant": "Buffer boundaries interact with record lengths in unboundedly many ways.", "anchors": ["src/extension/gds/EGdsParser.cpp: Parse"]}
{"id": "C43", "title": "GDSII records are decoded completely", "statement": "Parsing a well-formed GDSII record stream calls the reader once per record, in order, with the decoded payload; a truncated stream is reported as a failure.", "quantifier": "every list of records", "why_tests_cant": "Record lists are unbounded, truncation can occur at every byte.", "anchors": ["src/extension/gds/EGdsParser.cpp: operator()(istream)"]}
{"id": "C44", "title": "GDSII elements end up in their cell", "statement": "Every element read from a GDSII file is stored in the cell in whose structure it is written.", "quantifier": "every sequence of structures and elements including repeated structure names", "why_tests_cant": "Repeated names are rare in test files.", "anchors": ["src/extension/gds/EGdsFileIO.cpp: EGdsReader", "src/extension/gds/EGdsObjects.h: EGdsDB::AddCell"]}
{"id": "C45", "title": "GDSII arrays place every instance", "statement": "Importing an array reference with given numbers of columns and rows creates one cell instance for each column and row at the position given by the array lattice.", "quantifier": "every number of columns and rows and every lattice", "why_tests_cant": "Array sizes are unbounded.", "anchors": ["src/extension/gds/ECadExtGdsHandler.cpp: ImportOneCellRefArray", "src/extension/gds/EGdsObjects.h: AddCellRefArray"]}
{"id": "C46", "title": "KiCad trees read back as written", "statement": "Parsing the text of a KiCad board gives the tree of names and atoms that was written, for every tree and every amount of white space between its parts; parsing ends for every file.", "quantifier": "every tree, white space layout and file content", "why_tests_cant": "Trees are unbounded; files may be truncated at every byte.", "anchors": ["src/extension/kicad/EKiCadParser.cpp: ReadTree, ReadString, ReadQuotedString, ReadNodeName"]}
{"id": "C47", "title": "Boundary conditions do not destroy heat sources", "statement": "The heat put into the nodes of a thermal network built from a model equals the power of the model plus the boundary heat flux, node by node.", "quantifier": "every grid or prism model with any power and boundary conditions", "why_tests_cant": "Combinations of power and flux on the same element are needed.", "anchors": ["src/solver/thermal/utils/EGridThermalNetworkBuilder.cpp: ApplyHeatFlowForLayer, ApplyUniformBoundaryConditionForLayer", "src/solver/thermal/utils/EPrismThermalNetworkBuilder.cpp: BuildPrismElement", "src/solver/thermal/network/ThermalNetwork.h: SetHF, AddHF"]}
{"id": "C48", "title": "A uniform boundary condition can be changed", "statement": "After setting a uniform boundary condition of a thermal model, reading it returns the condition just set when it is valid and nothing otherwise.", "quantifier": "every sequence of settings", "why_tests_cant": "Only a repeated setting shows the failure.", "anchors": ["src/model/thermal/EThermalModel.cpp: SetUniformBC, GetUniformBC"]}
{"id": "C49", "title": "Two-way maps stay consistent", "statement": "In a two-way map, looking up a left key gives a right key whose reverse lookup is the same left key.", "quantifier": "every sequence of insertions", "why_tests_cant": "Only non-injective sequences fail.", "anchors": ["src/basic/ELookupTable.h: EBidirectionMap"]}
{"id": "C50", "title": "Transient samples are ordered and spaced", "statement": "The times at which a transient simulation records samples are strictly increasing, lie inside the requested window, and two consecutive samples are farther apart than the requested interval.", "quantifier": "every sequence of solver time steps, window and interval", "why_tests_cant": "Adaptive step sequences are arbitrary.", "anchors": ["src/solver/thermal/network/ThermalNetworkSolver.h: Sampler"]}
{"id": "C51", "title": "Reducing boundary nodes conserves heat transfer", "statement": "Merging boundary nodes of similar temperature keeps the total heat transfer coefficient of the network, moves every boundary node of the temperature range to exactly one merged node, and leaves other nodes unchanged.", "quantifier": "every network and every temperature range and bin count", "why_tests_cant": "Binning is over a continuum; memory validity depends on vector growth.", "anchors": ["src/solver/thermal/network/BoundaryNodeReduction.h"]}
{"id": "C52", "title": "DMC outlines and holes use each point once", "statement": "Importing a DMC/DOM pair assigns consecutive runs of the point list to outlines and holes as the record counts say: each point is used at most once, holes belong to the outline before them, and outlines keep their order.", "quantifier": "every record list and point list", "why_tests_cant": "Record structures are unbounded; too short point files run past the end.", "anchors": ["src/extension/dmcdom/ECadExtDmcDomHandler.cpp: CreateDatabase"]}
{"id": "C53", "title": "Geometry queries return the innermost polygon", "statement": "Searching a cut layer for the polygon at a point returns a polygon of that layer containing the point whose area is least among those containing it, and nothing exactly when no polygon of the layer contains the point.", "quantifier": "every layer content and point", "why_tests_cant": "Nestings are unbounded.", "anchors": ["src/model/geometry/utils/ELayerCutModelQuery.cpp: SearchPolygon"]}
{"id": "C54", "title": "Power blocks lie inside their component", "statement": "The vertical range recorded for a power block lies inside the vertical range of the polygon it heats, for every relative position and thickness between zero and one.", "quantifier": "every polygon range, position and thickness ratio", "why_tests_cant": "The ratios range over a continuum.", "anchors": ["src/model/geometry/utils/ELayerCutModelBuilder.cpp: AddPowerBlock"]}
{"id": "C55", "title": "Tile power tables are respected", "statement": "Querying the power of a grid tile at a temperature returns a value between the smallest and greatest sample of that tile and exactly the sample at a sampled temperature; tiles outside the table are reported as failure; a block power model spreads its total power evenly so that the sum over its tiles is the total.", "quantifier": "every table, tile and temperature (exact arithmetic)", "why_tests_cant": "Temperatures range over a continuum.", "anchors": ["src/model/thermal/EGridThermalModel.cpp: EGridDataTable::AddSample, Query", "src/model/thermal/EThermalModel.cpp: EBlockPowerModel::Query"]}
{"id": "C56", "title": "Polynomial material properties evaluate the right polynomial", "statement": "A polynomial property with coefficients c0, c1, ... evaluated at index x gives c0 + c1 x + c2 x^2 + ...; an isotropic one gives this value for every axis and every tensor entry, one with three coefficient lists gives the polynomial of the requested axis, and one with nine lists the polynomial of the requested entry.", "quantifier": "all coefficient lists, arguments, axes and entries", "why_tests_cant": "Coefficients and arguments range over a continuum and lists over all lengths.", "anchors": ["src/design/EMaterialProp.cpp: EMaterialPropPolynomial::Calculate, GetSimpleProperty, GetAnisotropicProperty, GetTensorProperty"]}
{"id": "C57", "title": "Current shows what Next will return", "statement": "At every point of an iteration, asking an iterator for its current element gives the element the following step will return, and null exactly when the iteration is over.", "quantifier": "all collections, including collections that mix cell instances and components, and all positions", "why_tests_cant": "Tests look at the current element in one kind of collection only.", "anchors": ["src/basic/ECollection.h: EUnorderedMapCollectionIterator, EVectorCollectionIterator", "src/collection/EConnObjCollection.cpp: EConnObjIterator::Current", "src/collection/EHierarchyObjCollection.cpp: EHierarchyObjIterator::Current"]}
{"id": "C58", "title": "Bond wire refinement by length ends within the length", "statement": "Refining a bond wire to a maximum segment length ends; the result keeps the first and the last point, none of its segments is longer than the given length, and it passes through every original point in the original order.", "quantifier": "every polyline with heights, every coordinate scale and every maximum length", "why_tests_cant": "Mid points are rounded to the integer grid, so progress depends on the parity and sign of coordinates; short lengths lead to endless loops.", "anchors": ["src/utility/ELayoutRetriever.cpp: GetBondwireSegmentsWithMaxLen"]}
{"id": "C59", "title": "Bond wire solder joints fill the gap between surface and wire", "statement": "The vertical extent computed for the solder joint at the end of a bond wire reaches exactly from the surface of the component or layer it is mounted on to the computed height of the wire end, upwards for unflipped and downwards for flipped ends, and a wire without solder joints ends on the surface.", "quantifier": "every stackup, component, orientation and joint thickness", "why_tests_cant": "Heights range over a continuum and every orientation and mounting has its own formula.", "anchors": ["src/utility/ELayoutRetriever.cpp: GetBondwireHeight, GetBondwireStartSolderJointParameters, GetBondwireEndSolderJointParameters"]}
{"id": "C60", "title": "The transient model conserves heat and agrees with the static one", "statement": "In the transient equations assembled from a thermal network, capacity times rate of temperature change of every node equals the heat it receives: its source, the heat over its resistances from its neighbours, and the exchange with the ambient; a temperature field is stationary exactly when it solves the static system.", "quantifier": "every network, every temperature field, every ambient temperature and excitation", "why_tests_cant": "The transient system is assembled by separate code paths (inverse capacity, negated conductance, projection of sources) that tests only compare on one model.", "anchors": ["src/solver/thermal/network/ThermalNetworkSolver.h: Intermidiate, Solver::operator()", "src/solver/thermal/network/ThermalNetwork.h: makeInvCandNegG, makeBondsRhs, makeSourceProjMatrix"]}
{"id": "C61", "title": "Elements of a grid network have the values of their geometry and material", "statement": "In the network built from a grid thermal model, two cells adjacent in any direction are connected by the series resistance of half of each cell (half length over conductivity and cross section); cells not adjacent are connected only by bond wires, with conductance conductivity times cross section over length; and every cell has the heat capacity of the metal and dielectric it contains.", "quantifier": "every grid model, every cell and every pair of cells (exact arithmetic)", "why_tests_cant": "The three directions, wires and capacities have separate formulas; a wrong factor gives plausible temperatures that no test compares with a closed form.", "anchors": ["src/solver/thermal/utils/EGridThermalNetworkBuilder.cpp: Build, GetRes, GetCompositeMatC, GetCap", "src/extraction/thermal/EThermalModelExtraction.cpp: GenerateGridThermalModel"]}
{"id": "C62", "title": "A cooled grid model has exactly one steady temperature field", "statement": "From a grid thermal model with positive dimensions, blocks and wires inside the grid, answerable power tables, and a uniform positive heat transfer coefficient on one face, the builder makes a network of which every node is connected to the ambient; its steady equations have exactly one solution.", "quantifier": "every such model, every initial temperature vector of the right size, every ambient temperature", "why_tests_cant": "A single disconnected node or dropped boundary condition makes the system singular; tests solve a few models only.", "anchors": ["src/solver/thermal/utils/EGridThermalNetworkBuilder.cpp: Build", "src/solver/thermal/network/ThermalNetwork.h", "src/solver/thermal/network/ThermalNetworkSolver.h"]}
{"id": "C63", "title": "A prism network connects exactly the neighbouring elements", "statement": "From every prism thermal model extracted from a mesh, with bond wires ending at prisms, the builder makes a network with one node per element; two prism elements are connected exactly if they belong to neighbouring triangles of one layer or to the same triangle in two layers next to each other.", "quantifier": "every mesh with mutual neighbours, every assignment of materials to triangles and layers (including empty layers), every set of wires, every temperature vector of the right size", "why_tests_cant": "Numbers pass through three renumberings (triangle, element of a layer, global); a wrong offset connects wrong elements without any failure.", "anchors": ["src/extraction/thermal/EThermalModelExtraction.cpp: GeneratePrismThermalModel", "src/model/thermal/EPrismThermalModel.cpp: BuildPrismModel, AddBondWiresFromLayerCutModel", "src/solver/thermal/utils/EPrismThermalNetworkBuilder.cpp: Build"]}
{"id": "C64", "title": "A cooled prism model has exactly one steady temperature field", "statement": "From a prism thermal model extracted from a mesh, with bond wires ending at prisms, positive heat transfer coefficients and a uniform one on the top or the bottom, the builder makes a network of which every node is connected to the ambient; its steady equations have exactly one solution.", "quantifier": "every such model, every initial temperature vector of the right size, every ambient temperature", "why_tests_cant": "One element left without connection makes the system singular; tests solve a few models only.", "anchors": ["src/extraction/thermal/EThermalModelExtraction.cpp: GeneratePrismThermalModel", "src/model/thermal/EPrismThermalModel.cpp", "src/solver/thermal/utils/EPrismThermalNetworkBuilder.cpp: Build"]}
{"id": "C65", "title": "Resistances between prisms are those of the two parts in series", "statement": "In the network of a prism thermal model the resistance between two elements of adjacent layers, or of neighbouring triangles, is the sum of the resistances of the parts of both elements between centre and common face, and does not depend on the numbering of the elements.", "quantifier": "every extracted model and every pair of neighbouring elements (exact arithmetic)", "why_tests_cant": "The second part is computed from a difference of distances; the error is a plausible number.", "anchors": ["src/solver/thermal/utils/EPrismThermalNetworkBuilder.cpp: BuildPrismElement"]}
{"id": "C66", "title": "Monitor points are assigned to the nearest element", "statement": "The element assigned to a monitor point is one of the layer found for its height whose centre is nearest to the point, one element per point and in the order of the points, whatever the layers contain.", "quantifier": "every prism or stackup prism model and every list of points and heights", "why_tests_cant": "Points between elements, ties and empty layers are not in the test models.", "anchors": ["src/model/thermal/EPrismThermalModel.cpp: SearchElementIndices", "src/model/thermal/EStackupPrismThermalModel.cpp: SearchElementIndices", "src/model/thermal/utils/EPrismThermalModelQuery.cpp"]}
{"id": "C67", "title": "The static solver returns the solution of the last assembled network", "statement": "A static simulation returns the temperatures, in the unit asked for, that solve the network assembled for the temperatures of the iteration before; the first iteration starts from the environment temperature, and it goes on exactly as long as two iterations differ by more than the residual and the maximal number of iterations is not reached.", "quantifier": "every model, every number of iterations and residual", "why_tests_cant": "Convergence and the iteration limit interact; blocks of power change the number of unknowns.", "anchors": ["src/solver/thermal/EThermalNetworkSolver.cpp:41-99"]}
{"id": "C68", "title": "A GDSII import has a layer for every layer of its shapes", "statement": "Without a layer map file the layers of an import are exactly the layers of the shapes and texts of the file, each once, and every shape is on the layer made for its own.", "quantifier": "every library and every order in which the set of layers is walked through", "why_tests_cant": "The order of an unordered set is not under the control of a test, and test files rarely consist of references.", "anchors": ["src/extension/gds/EGdsFileIO.cpp: ReadBeginEnd", "src/extension/gds/ECadExtGdsHandler.cpp: CreateDatabase"]}
{"id": "C69", "title": "A layer map file decides on which layers shapes are", "statement": "With a layer map file every row becomes a layer with its name, kind and thickness, stacked downwards from elevation 0 without gaps, and a shape is put on exactly the layers of the rows with its layer number and data type.", "quantifier": "every layer map and every shape", "why_tests_cant": "Maps with several rows for a layer number and maps with different data types multiply.", "anchors": ["src/extension/gds/ECadExtGdsHandler.cpp: CreateDatabase, ImportOnePolygon"]}
{"id": "C70", "title": "GDSII references are placed as the file says", "statement": "A cell reference becomes one instance of the named cell at the position, magnified, rotated by the angle in degrees and mirrored as the file says.", "quantifier": "every reference", "why_tests_cant": "Angles, magnifications and mirroring combine, and references to unknown cells are errors of the file.", "anchors": ["src/extension/gds/ECadExtGdsHandler.cpp: ImportOneCellReference", "src/basic/ETransform.h: ETransformData2D"]}
{"id": "C71", "title": "The reduced transient solver is a projection of the full one", "statement": "The transient solver with model order reduction moves inside of the space of its basis so that the error of the heat balance is orthogonal to that space; with the uniform field in the space heat is conserved, with a complete basis it is the unreduced solver; outputs are the temperatures of the probes.", "quantifier": "every network, every basis, every state and excitation", "why_tests_cant": "The reduced state has no physical meaning to compare with, and the basis depends on the library.", "anchors": ["src/solver/thermal/network/ThermalNetworkSolver.h: ThermalNetworkReducedTransientSolver", "src/solver/thermal/network/ThermalNetwork.h: makeMNA"]}
{"id": "C72", "title": "A KiCad import has the layers and nets of the board", "statement": "A KiCad import has the stackup of the board, layer by layer in its order, with kinds and thicknesses and without gaps, and a net for every net of the board. Of repeated attributes of a layer the last counts, for the kind the last known one.", "quantifier": "every board in order, every order in which the maps of the handler are walked through", "why_tests_cant": "The order of an unordered map is not under the control of a test.", "anchors": ["src/extension/kicad/ECadExtKiCadHandler.cpp: ExtractLayer, ExtractStackup, ExtractNet, CreateEcadLayers, CreateEcadNets", "src/extension/kicad/EKiCadObjects.cpp"]}
{"id": "C73", "title": "DMC shapes end up on the net and layer of their record", "statement": "Importing a DMC/DOM pair puts every outline on the net and the layer its record names, shapes share a layer or net exactly if their ids agree, and every via joins the layers of its two signal layer numbers.", "quantifier": "every record list and point list", "why_tests_cant": "Ids and names can be combined in any way, and the maps are filled on the way.", "anchors": ["src/extension/dmcdom/ECadExtDmcDomHandler.cpp: CreateDatabase"]}
{"id": "C74", "title": "Chip thermal model headers survive writing and reading", "statement": "Writing the header of a chip thermal model to a file and reading the file gives the header back, with numbers to six digits: size, origin, tiles, temperatures, resolution, scale and all layers.", "quantifier": "every header", "why_tests_cant": "Names, numbers and layer lists are unbounded; column widths and keywords matter only for some of them.", "anchors": ["src/model/thermal/io/EChipThermalModelIO.cpp: ParseCTMv1HeaderFile, WriteCTMv1HeaderFile", "src/model/thermal/EChipThermalModel.h: ECTMv1Header"]}
{"id": "C75", "title": "Chip and grid thermal models describe the same stack", "statement": "A grid thermal model made from a chip thermal model has the layers of the chip's stackup in order, is as thick as the chip, and holds the chip's power exactly once; a grid model written as a chip model and read back has the same layers and the same total power in every cell.", "quantifier": "every chip thermal model and every grid thermal model", "why_tests_cant": "Layer stacks are unbounded, and names, metal flags and neighbours interact across two conversions.", "anchors": ["src/model/thermal/io/EThermalModelIO.cpp: makeGridThermalModelFromCTMv1Model, makeChipThermalModelV1FromGridThermalModel", "src/model/thermal/EGridThermalModel.cpp: AppendLayer, TotalThickness"]}
{"id": "C76", "title": "Stackup layers exchange heat through the area they have in common", "statement": "In the network of a stackup prism model two elements of neighbouring layers are connected exactly if their triangles overlap, with the conductance of the two half layers in series over the common area; elements of one layer are connected exactly if they are neighbours in its mesh; nothing else is connected.", "quantifier": "every stack of meshes, every geometry, every material and every temperature", "why_tests_cant": "The contacts come from a search in a spatial index per layer, over meshes that do not match each other.", "anchors": ["src/model/thermal/utils/EStackupPrismThermalModelBuilder.cpp: BuildPrismModel, BuildPrismInstanceTopBotNeighbors", "src/solver/thermal/utils/EStackupPrismThermalNetworkBuilder.cpp: BuildPrismElement"]}
{"id": "C77", "title": "Stackup boundary conditions act on the exposed area", "statement": "In the network of a stackup prism model every element gets its power, and from the boundary conditions of the top and the bottom their value times the area that the layer above or below leaves exposed; boundary conditions of blocks act on the exposed elements inside.", "quantifier": "every stack of meshes, every geometry and all boundary conditions", "why_tests_cant": "Partial overlaps, outer layers, two sides and two kinds of conditions combine.", "anchors": ["src/solver/thermal/utils/EStackupPrismThermalNetworkBuilder.cpp: BuildPrismElement, ApplyBlockBCs"]}
{"id": "C78", "title": "Cooled stackup prism models have one steady temperature field", "statement": "From every stackup prism model made from meshes, with bond wires that end at prisms and a positive transfer coefficient on the top or on the bottom, a network is built whose steady temperatures exist and are unique, however the layers lie on each other.", "quantifier": "every stack of meshes, every geometry, all wires", "why_tests_cant": "It depends on paths through layers that overlap only in part.", "anchors": ["src/solver/thermal/utils/EStackupPrismThermalNetworkBuilder.cpp: BuildPrismElement", "src/model/thermal/utils/EStackupPrismThermalModelBuilder.cpp: AddBondWiresFromLayerCutModel, BuildPrismModel"]}
{"id": "C79", "title": "Stackup prism models do not depend on the number of threads", "statement": "The contacts of a stackup prism model are the same for every number of threads, and its network is the same for every number of threads and every interleaving of their work.", "quantifier": "every model, every number of threads, every interleaving", "why_tests_cant": "Interleavings cannot be enumerated or forced by a test.", "anchors": ["src/model/thermal/utils/EStackupPrismThermalModelBuilder.cpp: BuildPrismModel", "src/solver/thermal/utils/EPrismThermalNetworkBuilder.cpp: Build", "src/solver/thermal/utils/EStackupPrismThermalNetworkBuilder.cpp: BuildPrismElement"]}
{"id": "C80", "title": "Imported GDSII objects keep their geometry", "statement": "Every polygon, path and text of a GDSII file is put on each layer made for its layer number with its points, width and kind of ends, or its text, position, rotation and scale; nothing else is put there.", "quantifier": "every object and every assignment of layers", "why_tests_cant": "Attributes combine freely; texts have no area that a test of shapes would notice.", "anchors": ["src/extension/gds/ECadExtGdsHandler.cpp: ImportOnePolygon, ImportOnePath, ImportOneText", "src/collection/EPrimitiveCollection.cpp: CreateText"]}
{"id": "C81", "title": "Prisms and wires store heat according to their material and volume", "statement": "In the networks of prism and stackup prism models the heat capacity of every element is specific heat times density, of its material at its temperature, times its volume, and every segment of a wire dissipates the square of its current times its resistance.", "quantifier": "every model, every material, every temperature", "why_tests_cant": "Capacities matter only in transient runs, and prisms, stackup prisms and wires are set in three places.", "anchors": ["src/solver/thermal/utils/EPrismThermalNetworkBuilder.cpp: BuildPrismElement, BuildLineElement", "src/solver/thermal/utils/EStackupPrismThermalNetworkBuilder.cpp: BuildPrismElement"]}
{"id": "C82", "title": "A transformed shape covers the image of what it covered", "statement": "After a shape (rectangle, path, circle, polygon, polygon with holes or instance of a template) is transformed, it covers exactly the images of the points it covered before; holes stay holes.", "quantifier": "every shape, every scaling, rotation, mirroring and shift", "why_tests_cant": "Tests turn shapes by quarter turns and do not scale circles; the general statement is about all matrices.", "anchors": ["src/basic/EShape.cpp: Transform, GetContour, GetPolygonWithHoles of all classes"]}
{"id": "C83", "title": "The bounding box of a shape is the least box around its outline", "statement": "The bounding box reported for a valid shape contains every point of its outline and lies in every box that does.", "quantifier": "every valid shape, templates nested to any depth, every transform", "why_tests_cant": "Boxes that are too large only cost time in most uses and are not noticed by tests.", "anchors": ["src/basic/EShape.cpp: GetBBox of all classes"]}
{"id": "C84", "title": "A padstack instance has on each layer the pad that belongs there", "statement": "On each layer of its range a padstack instance has the shape of the pad to which its layer map sends the layer, or of the via if there is no such pad, turned and shifted as the pad is in the padstack and then placed by the transform of the instance; outside of the range it has no shape.", "quantifier": "every padstack, layer map, layer and transform", "why_tests_cant": "Pads of tests have no rotation of their own, so that the order of the two transforms does not matter.", "anchors": ["src/design/EPadstackInst.cpp: GetLayerShape", "src/design/EPadstackDefData.cpp: GetPadParameters, GetViaParameters"]}
{"id": "C85", "title": "Layers and materials of an XFL file are imported as they are", "statement": "The imported stack has the layers of the file in order with their names, kinds and scaled thicknesses, the first at elevation 0 and each next one touching the previous from below, each with the materials of the file or the default ones; metal layer number k of the file means the k-th layer that is not dielectric, and layer number k the k-th layer. Every material name of the file means a material with the values of its first definition, and no material that was in the database is changed.", "quantifier": "every list of layers and materials, every scale, every database", "why_tests_cant": "The numbering of metal layers and of all layers runs in parallel; a test with one kind of stack cannot tell them apart.", "anchors": ["src/extension/xfl/ECadExtXflHandler.cpp: ImportLayers, ImportMaterialDefs"]}
{"id": "C86", "title": "Shapes of XFL routes keep their net, layer and voids", "statement": "For the objects of a route the import creates, in order, on the layer their number means and with the net of the route: each path, each ring and each shape that is not a void, with all voids cut out that follow it on its layer before the next shape on that layer; objects on unknown layers and routes of unknown nets are left out.", "quantifier": "every sequence of objects of any length, every net", "why_tests_cant": "The grouping of voids depends on the order of all objects of a route; files of tests keep voids next to their shape.", "anchors": ["src/extension/xfl/ECadExtXflHandler.cpp: ImportConnObjs, makeEShapeFromInstObject, isHole"]}
{"id": "C87", "title": "Imported XFL shapes have the size given in the file", "statement": "The shape made from a rectangle, square, diamond, circle, oblong, polygon or composite of an XFL file has the box given in the file, scaled to the layout; a composite becomes its points and the points of its arcs, each arc from the end of the previous element.", "quantifier": "every shape, every scale", "why_tests_cant": "Each kind of shape has its own code and tests load files with few of them at scale 1.", "anchors": ["src/extension/xfl/EXflObjects.h: EShapeGetter"]}
{"id": "C88", "title": "Every via of an XFL route becomes one padstack instance with its own name", "statement": "Over a whole import the padstack instances are, in the order of the file, exactly those of the vias whose layers and definition exist, with the net of the route, their layers and their place; all names are different, and the search for a name ends.", "quantifier": "every list of routes of any length", "why_tests_cant": "Names must be unique over all routes, also when definitions have names that look like those of instances.", "anchors": ["src/extension/xfl/ECadExtXflHandler.cpp: ImportConnObjs, GetNextPadstackInstName"]}
{"id": "C89", "title": "Padstack definitions of an XFL file have their pads on the right layers", "statement": "Every via definition of the file whose padstack, shape and material exist becomes a padstack definition with its material, its shape and all pads of its padstack, and an instance of it has on each metal layer the pad the file gives for that layer.", "quantifier": "every list of vias and padstacks, every stack of layers", "why_tests_cant": "On stacks without dielectric layers pad numbers and layer ids agree, so that the direction of the layer map does not matter.", "anchors": ["src/extension/xfl/ECadExtXflHandler.cpp: ImportPadstackDefs", "src/design/EPadstackInst.cpp: GetLayerShape", "src/design/ELayerMap.cpp: SetMapping"]}
{"id": "C90", "title": "The board outline of an XFL file becomes the boundary of the layout", "statement": "If the file has an outline, given as a polygon, a composite or a template shape with a place, the boundary of the layout is this outline, scaled; otherwise no boundary is set.", "quantifier": "every outline", "why_tests_cant": "Outlines given by a template are rare in files.", "anchors": ["src/extension/xfl/ECadExtXflHandler.cpp: ImportBoardGeom"]}
{"id": "C91", "title": "A database is a dictionary of definitions for each kind", "statement": "After any history of creating, adding, copying, assigning and clearing on several databases, a database has a cell, layer map, material, padstack or component definition with some name exactly if the history says so; creating one fails exactly if there is one of the same kind with the name and then changes nothing; a new definition belongs to the database and is found from then on; suggested names are free.", "quantifier": "every history of calls on any number of databases, every kind and name", "why_tests_cant": "Definitions of different kinds share names and databases are copied and assigned, also to themselves; tests create a few definitions in one database.", "anchors": ["src/design/EDatabase.cpp: Create*, Find*, AddLayerMap, operator=, Clear", "src/collection/EDefinitionCollection.cpp", "src/collection/ECollectionCollection.cpp", "src/basic/ECollection.h: EUnorderedMapCollection"]}
{"id": "C92", "title": "Materials are found by their ids", "statement": "In every database the materials have different ids, and FindMaterialDefById returns for an id the material of this database that has it.", "quantifier": "every history of calls on any number of databases, every id", "why_tests_cant": "Ids are handed out from the number of materials and looked up in a second table that must follow copying and clearing.", "anchors": ["src/design/EDatabase.cpp: CreateMaterialDef, FindMaterialDefById", "src/collection/EMaterialDefCollection.cpp"]}
{"id": "C93", "title": "A copied database is independent of the original", "statement": "Every pointer held by a copy of a database leads to an object of the copy: the copy of the object the original pointer led to.", "quantifier": "every database, with any number of cells, components, instances, bond wires and definitions", "why_tests_cant": "Wrong pointers of a copy are only noticed when the original is changed or destroyed.", "anchors": ["src/design/EDatabase.cpp: operator=", "src/design/ECell.cpp: operator=", "src/design/ELayoutView.cpp: operator=", "src/design/EComponentDef.cpp: operator=", "src/basic/ECollection.h: operator="]}
{"id": "C94", "title": "Pins, outlines and bond wires follow their component", "statement": "The pins and the outline of a placed component are those of its definition, mirrored if it is flipped and then moved by every transform given to it since it was placed. A bond wire end mounted at a pin is at that pin, so it moves with the component; any other end is where it was put, moved with the wire. Every pin of a definition can be found by its name.", "quantifier": "every sequence of calls making and changing definitions, components and bond wires", "why_tests_cant": "It fails only when a transform is read between two movements, which single placements do not show.", "anchors": ["src/design/EComponent.cpp: GetBoundary, GetPinLocation", "src/design/EPrimitive.cpp: EBondwire::GetStartPt, GetEndPt, SetStartLayer, SetEndLayer, SetStartComponent, SetEndComponent, Transform", "src/collection/EComponentDefPinCollection.cpp: CreatePin, FindPinByName"]}
{"id": "C95", "title": "The power of a grid thermal model is the loss power of the components", "statement": "When a grid thermal model is made from a layout, each layer with components that have loss power gets a power table with one grid for each sample temperature. In the grid of a temperature every component is spread evenly over the tiles its outline box touches, and the tiles of the layer add up to the loss powers of its components at that temperature.", "quantifier": "every grid with positive strides, every layer map and list of components, every loss power table", "why_tests_cant": "A test reads the total power of one design with one constant loss power and a margin around the parts, where the unit of the temperature and the last tile do not matter.", "anchors": ["src/extraction/thermal/EThermalModelExtraction.cpp: GenerateGridThermalModel", "src/design/EComponent.cpp: GetLossPower", "src/utility/EMetalFractionMapping.h: GetIndex"]}
{"id": "C96", "title": "A layer cut model has a polygon for every outline and hole of the layout", "statement": "The geometry model extracted from a layout contains, with the heights, material and net of its object, one polygon for the outline and one for each hole of: the board on each stackup layer, the body and solder layer of each component, each solder joint, each shape, and each padstack instance on each layer of its range. Outlines run counterclockwise, holes clockwise, power blocks belong exactly to the components with loss power and the heated joints, every bond wire is kept, and the tables of layers can be built from the result.", "quantifier": "every layout: any stackup, components, bond wires, shapes, padstack instances and imprint boxes", "why_tests_cant": "A test extracts one design, where all layers have heights, pads exist on all layers and no wire has a current; it cannot cover what each kind of object does to the state left for the next one.", "anchors": ["src/extraction/geometry/EGeometryModelExtraction.cpp: GenerateLayerCutModel", "src/model/geometry/utils/ELayerCutModelBuilder.cpp: AddPolygon, AddShape, AddPowerBlock, AddComponent, AddImprintBox"]}
{"id": "C97", "title": "A transient analysis samples one trajectory that starts at the temperature of the environment", "statement": "A transient analysis integrates the network step by step from the temperature of the environment; each step is taken in the network built from the state at the last multiple of the simulation step, and ends where the next one begins. The result is the list of probe temperatures at the observations that lie in the sampling window and more than the sampling interval after the last sample, with their least and greatest value, and the analysis succeeds if a step was taken.", "quantifier": "all networks, integrators, step widths, durations, windows, intervals, probe lists and numbers of steps", "why_tests_cant": "A test runs one setup for a few steps and looks at a file of samples; lost time between the pieces of a run, or a sampler that reads its own state from the last piece, does not show.", "anchors": ["src/solver/thermal/EThermalNetworkSolver.cpp: EThermalNetworkTransientSolver", "src/solver/thermal/network/ThermalNetworkSolver.h: ThermalNetworkTransientSolver, ThermalNetworkReducedTransientSolver"]}
{"id": "C98", "title": "Merging the polygons of a layout keeps the metal of every layer and net", "statement": "After the polygons of a layout were merged, every net covers on every layer exactly the points it covered before, counting geometries and padstack instances; texts, bond wires, invalid shapes and everything on other layers or of nets that were not selected is still there, unchanged; and dielectric layers are left alone if the settings say so.", "quantifier": "all layouts, shapes, padstacks, settings, mergers of the library that keep the covered points, and orders of the unordered containers", "why_tests_cant": "A test merges one layout and looks at the picture; it cannot range over shapes, nets, layers and the order of a hash set.", "anchors": ["src/utility/ELayoutPolygonMerger.cpp: ELayoutPolygonMerger, Merge, FillPolygonsFromLayout, FillOneShape, FillPolygonsBackToLayout", "src/design/ELayoutView.cpp: MergeLayerPolygons"]}
{"id": "C99", "title": "The polyline of a bond wire runs from its start to its end and leaves both surfaces outwards", "statement": "The points a bond wire gets in the layer cut model begin at its start, at the height of its surface plus solder joint, and end at its end likewise; there are at least ten; all lie in the rectangle of the two ends and within the loop height of the wire; and next to both ends the wire is on the outer side of the surface.", "quantifier": "all stackups, wires (types, ends on layers and components, orientations, joints, loop heights) and roundings of the geometry library that keep order and integers", "why_tests_cant": "A test checks one wire; it cannot range over types, orientations, heights and coordinates of either sign.", "anchors": ["src/utility/ELayoutRetriever.cpp: GetBondwireHeight, GetBondwireSegments, GetSimpleBondwireSegments, GetJedec4BondwireSegments, GetBondwireSegmentsWithMinSeg", "src/extraction/geometry/EGeometryModelExtraction.cpp: GenerateLayerCutModel"]}
{"id": "C100", "title": "A thermal simulation answers every monitor with the temperature of its nearest element", "statement": "A static simulation of a layout returns one temperature per monitor point, that of an element in the layer of the monitor none of which is nearer, together with the lowest and highest temperature of all elements; the temperatures are the steady state within the iteration settings, and the model is the one of the layout.", "quantifier": "all models (classes, layers, prisms, network constructions), monitor points, settings, linear solvers and histories of the model cache", "why_tests_cant": "A test compares a few monitor temperatures of one board; it cannot range over model classes, monitor positions and cache histories.", "anchors": ["src/design/ELayoutView.cpp: RunThermalSimulation, ExtractThermalModel", "src/simulation/thermal/EThermalSimulation.cpp: RunStaticSimulation, RunTransientSimulation", "src/solver/thermal/EThermalNetworkSolver.cpp: Solve", "src/model/thermal/EThermalModel.h: SearchElementIndices"]}
{"id": "C101", "title": "The circuit written for a thermal network has the network's temperatures as its voltages", "statement": "For every thermal network the SPICE netlist written for it is a circuit whose operating points are exactly the steady states of the network: nodes of given temperature have it, at all others the heat put in flows out to the neighbours and the environment. No two elements have the same name.", "quantifier": "all networks whose neighbours are nodes, all reference temperatures, all node voltages", "why_tests_cant": "A test looks at the file written for one network; whether the circuit has an operating point and which can only be said by solving it, and for all networks only by proof.", "anchors": ["src/solver/thermal/network/utils/ThermalNetlistWriter.h: ThermalNetlistWriter::WriteSpiceNetlist"]}
{"id": "C102", "title": "The VTK file of a prism model shows its prisms, wires and temperatures", "statement": "For every prism or stackup prism model, a reader of the VTK file written for it finds one wedge for each prism with its corners at the triangle of the element and at the elevation of its layer and below it by the thickness, one line for each wire segment between its end points, both in the order of the element numbers, and the temperature of each element whenever there are as many temperatures as elements. In prism models with one mesh no two points are at the same vertex of the same level.", "quantifier": "all models with layers upon each other, elements whose triangles exist, wire segments and temperature vectors", "why_tests_cant": "A test looks at one picture; counts, indices and positions must fit for every mesh, every set of layers and every element.", "anchors": ["src/model/thermal/EPrismThermalModel.cpp: BuildPrismModel, GetPoint, AddPoint, AddLineElement", "src/model/thermal/utils/EStackupPrismThermalModelBuilder.cpp: BuildPrismModel", "src/model/thermal/io/EPrismThermalModelIO.cpp: GenerateVTKFile"]}
{"id": "C103", "title": "The chip thermal model generated from a layout describes its layers and its metal", "statement": "For every layout, region extension, resolution and selection of nets, the chip thermal model generated from the layout has the stackup layers in order, the conducting ones as metal layers with their thickness, and in each tile of each layer the part of that tile of the region covered by the selected shapes of the layer, outlines less holes, between 0 and 1.", "quantifier": "all layouts, regions, resolutions, net selections and layer stacks", "why_tests_cant": "Tests compare one small layout whose size is a multiple of the resolution; rounding of the stride and unit mistakes show up only for other sizes and units.", "anchors": ["src/utility/ELayout2CtmUtility.cpp: GenerateCTMv1File", "src/utility/EMetalFractionMapping.cpp: ELayerMetalFractionMapper::GenerateMetalFractionMapping, Mapping, ELayoutMetalFractionMapper::GenerateMetalFractionMapping"]}
{"id": "C104", "title": "The grid thermal model of a layout has its layers, bond wires and boundary conditions on the cells they cover", "statement": "For every layout and settings, the extracted grid thermal model has the stackup layers in order with their thickness in metres and in each tile the part covered with selected metal; each bond wire connects the cells of its two ends on the first layer with the ratio of its cross section and length; and in the thermal network the heat transfer of a cell on the top or bottom is given by the last valid boundary condition that is uniform on that face or whose block meets the tile of the cell, times the area of the tile.", "quantifier": "all layouts, layer stacks, bond wires, components, uniform and block boundary conditions, units", "why_tests_cant": "Tests extract one layout with uniform conditions; a block at the edge of the region or a wire that ends outside it needs other settings, and the wrong cells of a network are not seen in a few temperatures.", "anchors": ["src/extraction/thermal/EThermalModelExtraction.cpp: GenerateGridThermalModel", "src/model/thermal/EGridThermalModel.cpp: AppendLayer, AddPowerModel", "src/solver/thermal/utils/EGridThermalNetworkBuilder.cpp: Build, ApplyBlockBoundaryConditionForLayer"]}
{"id": "C105", "title": "Routes of an XFL file are read as they are written", "statement": "For every route with objects of the XFL format (paths, vias, bond wires, polygons, rectangles, squares, diamonds, circles, rings, composites and placed shapes, solid or void) and every text of it (keywords in any case, blanks and comments between tokens, numbers with or without sign, point and exponent), the grammar reads the route with exactly these objects in this order.", "quantifier": "all routes, all lists of objects, all texts with any white space, comments and ways to write numbers", "why_tests_cant": "Tests read a file or two; a keyword that is a prefix of another, an alternative missing from a rule, or an optional part that swallows the next object only show with certain objects in a certain order, and then the section is skipped without an error.", "anchors": ["src/extension/xfl/EXflParser.h: EXflGrammar (route, inst*, composite, arc, point, textNC, textDQ)", "src/extension/xfl/EXflParser.h: SkipperGrammar"]}
{"id": "C106", "title": "Sections of an XFL file are read as they are written", "statement": "For every section of an XFL file (version, unit, design type, scale, materials, layers, template shapes, outline of the board, padstacks, vias, parts, nets, routes, and the sections that are passed over) and every text of it, one turn of the grammar takes exactly this text and calls the handlers with exactly the entries of the section in their order.", "quantifier": "all sections, all lists of entries, all texts with any white space, comments and ways to write numbers", "why_tests_cant": "Tests read a file or two; whether an entry is told from the end tag of its section, whether an optional number swallows the beginning of the next entry, and whether a section keyword is shadowed by a prefix depends on names and numbers no test enumerates.", "anchors": ["src/extension/xfl/EXflParser.h: EXflGrammar (others, materialSection, layerSection, shapeSection, boardGeomSection, padstackSection, viaSection, partSection, netlistSection, routeSection, componentSection, netAttrSection, materialFreqSection)", "src/extension/xfl/EXflParser.h: EXflGrammar (material, layer, shape, pad, padstack, via, node, net, pin, part)"]}
{"id": "C107", "title": "An XFL file is read whole or rejected", "statement": "For every XFL file made of sections of the format in any order, with blanks and comments, the reader calls the handlers with all entries of all sections in their order and returns true; for a text that is not such a file it returns false.", "quantifier": "all lists of sections and all their texts; all texts that are no files", "why_tests_cant": "Tests read well-formed files; that malformed files are accepted, that one unreadable route loses the rest of its section without an error, or that a trailing comment makes a good file fail is not seen by reading good samples.", "anchors": ["src/extension/xfl/EXflParser.h: EXflReader::operator()", "src/extension/xfl/EXflParser.h: EXflGrammar (expression, unknownSection, startTag, endTag, textEOL)", "src/extension/xfl/EXflParser.h: SkipperGrammar"]}
{"id": "C108", "title": "The objects of a KiCad board are collected with their footprint, layer and net", "statement": "For every KiCad board tree whose objects are well formed, the extractor collects every segment, via, zone, pad and drawing exactly once, in the order of the file, under the footprint (or the board) it is written in, with the points, width, layer and net the text says; every footprint becomes a component of its own name; pad outlines are the outlines of their shapes.", "quantifier": "all boards, all lists of objects and footprints, all attribute lists of each object in any order", "why_tests_cant": "Tests load one sample board and look at counts; that all footprints fall into one component, that the layer of drawings is looked for in the wrong node, that blind vias are taken for through vias or that a one-point outline is emptied is seen only by a statement over all trees.", "anchors": ["src/extension/kicad/ECadExtKiCadHandler.cpp: ExtractNode and the Extract* functions of segments, vias, zones, pads and drawings", "src/extension/kicad/EKiCadObjects.cpp: Database::AddComponent", "src/extension/kicad/EKiCadObjects.h: Component, Pad, Via, Stroke"]}
{"id": "C109", "title": "Power and density files of a chip thermal model are read as they are written, and cut files are rejected", "statement": "For every grid of powers and every list of grids of layer densities of one size, the binary file the writer makes is read back by the parser to the same values (as float) in the same cells, each tile record carries the number and the corners of its tile, and a file that is cut short is rejected.", "quantifier": "all grids of all sizes, all values, all encodings of a float into four bytes, all numbers of layers, all prefixes of files, all layouts of cells in memory", "why_tests_cant": "Tests compare one sample package and never cut a file; that a cut file is accepted with the last number repeated, and that the round trip depends on the memory layout of the grid, is seen only by a statement over all prefixes and layouts.", "anchors": ["src/model/thermal/io/EChipThermalModelIO.cpp: ParseCTMv1PowerFile, ParseCTMv1DensityFile, WriteCTMv1PowerFile, WriteCTMv1DensityFile"]}
{"id": "C110", "title": "A chip thermal model packed and made again is the same", "statement": "For every chip thermal model with a header, powers for its temperatures and densities for its layers, writing the files of the package succeeds or leaves nothing behind, and making a model from the files gives the same header, the same powers for every temperature and the same densities for every layer.", "quantifier": "all models, all sets of temperatures and layers, all contents of the directory before", "why_tests_cant": "Tests pack one model with whole temperatures; that two temperatures equal to six digits share the powers of the first, that powers of another size are cut silently and that a failed write leaves the header behind is seen only by a statement over all models.", "anchors": ["src/model/thermal/io/EChipThermalModelIO.cpp: makeChipThermalModelFromCTMv1File, GenerateCTMv1FileFromChipThermalModelV1 (the parts that name, write and read the files)"]}
{"id": "C111", "title": "DMC and DOM files are read line by line, and lines that are not records are rejected", "statement": "For every text of a DMC file whose lines that are not empty say records (eleven words, numbers with or without sign and point, blanks of any length between) the parser gives exactly these records in their order, with the corners scaled to coordinates; for every DOM file the points; any other line makes the file rejected, with a message that names the line, and nothing is read that was not set.", "quantifier": "all lists of lines, all words and numbers, all lengths of blanks, all scales", "why_tests_cant": "Tests read one sample pair of files; that a blank line or a carriage return adds the origin to the points, that a name of two words throws, or that coordinates are cut instead of rounded is seen only by a statement over all texts.", "anchors": ["src/extension/dmcdom/ECadExtDmcDomHandler.cpp: ParseDomLine, ParseDmcLine, ParseDomFile, ParseDmcFile, CreateDatabase"]}
{"id": "C112", "title": "A layer map file gives its rows or is rejected", "statement": "Reading a layer map file gives exactly the rows of its lines, in order, with name, kind, layer number, data type and thickness, skips comments and empty lines, and every file with another line is rejected and leaves nothing behind; a layer number is looked up to the first row with it.", "quantifier": "every file, as bytes, and every state of the map and of the databases", "why_tests_cant": "A file can break in any line and any item; a few test files do not show what is taken for a number or when an exception ends the import.", "anchors": ["src/extension/gds/EGdsLayerMap.cpp: EGdsLayerMap::AddLayer, GetLayer, Clear, EGdsLayerMapParser::operator(), ParseOneLine", "src/extension/gds/ECadExtGdsHandler.cpp: CreateDatabase"]}
{"id": "C113", "title": "DMC and DOM files written from merged polygons give the polygons again", "statement": "Importing the DOM and DMC files written from the merged polygons of a layout, with the same units, gives exactly these polygons with their holes, each on the net and layer it had; a writing that fails is reported.", "quantifier": "for all layouts, units, net and layer names, polygons with holes, and any importing state of never-set numbers", "why_tests_cant": "The text of numbers, names with blanks, nets that do not exist and units interact; a round trip on sample layouts has friendly names, a net for each polygon and one unit.", "anchors": ["src/utility/ELayoutPolygonMerger.cpp:262-322", "src/extension/dmcdom/ECadExtDmcDomHandler.cpp:16-62", "src/extension/dmcdom/ECadExtDmcDomHandler.cpp:67-236"]}
{"id": "C114", "title": "The power of a prism thermal model is the loss power of its power blocks", "statement": "For every layer cut model, mesh and temperatures, the heat put into the prisms of an extracted thermal model is the loss power of the power blocks: each block is spread over the triangles of its polygon in the layer that begins at its upper height, in proportion to area, and nothing else heats a prism.", "quantifier": "all layer cut models with any polygons, materials and power blocks; all answers of the geometry library; all meshes and numbers of layers; all temperatures", "why_tests_cant": "The share of a triangle is decided by its material, the search for the smallest polygon and the layer of the block; tests look at the temperatures of one board and cannot say whether watts were lost between blocks and elements.", "anchors": ["src/extraction/thermal/EThermalModelExtraction.cpp:217-254", "src/extraction/thermal/EThermalModelExtraction.cpp:380-424", "src/model/geometry/utils/ELayerCutModelQuery.cpp:24-40", "src/solver/thermal/utils/EPrismThermalNetworkBuilder.cpp:62-68"]}
{"id": "C115", "title": "Geometry of prism networks: positive resistances and paths over common sides", "statement": "For every proper triangle mesh (counterclockwise triangles, neighbours run through their common side in opposite directions) with positive scales, thicknesses and conductivities: the way from the centre of a prism to a side is the least distance to the line of the side, side and way make a third of the area; resistances between neighbours, beside and above each other, are positive; areas, volumes and resistances follow the unit of length; and the resistance between neighbours of a layer is that of the two ways to the common side in series, whichever is numbered first.", "quantifier": "all meshes, coordinates, scales, thicknesses, materials, temperatures; all networks built", "why_tests_cant": "Tests run a few layouts and look at the hottest temperature; a resistance that is negative, in the wrong unit or dependent on the numbering only shifts results slightly.", "anchors": ["src/solver/thermal/utils/EPrismThermalNetworkBuilder.cpp:70-101", "src/solver/thermal/utils/EPrismThermalNetworkBuilder.cpp:244-316", "src/model/thermal/EPrismThermalModel.cpp:193-205"]}
{"id": "C116", "title": "Meshes of stackup prism models: which layers share one, and what they are made of", "statement": "In a stackup prism model every layer is meshed from its polygons, or from its polygons and those of the upper layer if imprints are asked for; layers with the same polygons share a mesh; meshes are numbered from the top without gaps.", "quantifier": "all cut models with any slicing, all layers, with and without imprints", "why_tests_cant": "Tests compare temperatures of single designs; a mesh made of the wrong polygons, or shared by the wrong layers, or made twice shows nowhere but in accuracy and run time.", "anchors": ["src/extraction/thermal/EThermalModelExtraction.cpp:335-394", "src/model/geometry/ELayerCutModel.cpp:81-106", "src/model/geometry/ELayerCutModel.cpp:149-155"]}
{"id": "C117", "title": "Text files of metal fractions say the grid, the boxes of its tiles and the fractions", "statement": "The file of mapping results and the two profile files, read line by line and word by word, say: number and names of the layers, elevation and thickness, the boxes of die and extension, the number of tiles and their size, and for every tile exactly once its number (ids column by column from one), its box and one fraction for each layer in the order of the header, each number up to half a unit of its last printed digit (nine or six digits after the point) or six significant digits, exactly if six digits suffice; neighbouring tiles give the same text for their common edge; nothing is written when the call reports failure.", "quantifier": "all mapping results (any grid, any boxes, strides and units, any layers and fractions), all grid thermal models, every rounding to a nearest last digit, every outcome of opening the files", "why_tests_cant": "The writers depend on the formatting of numbers of every magnitude: widths, significant digits and exponents only go wrong for certain sizes of dies, tiles and resolutions, and on names with blanks or none; no finite set of layouts covers these.", "anchors": ["src/utility/EMetalFractionMapping.cpp:182-310", "src/utility/EMetalFractionMapping.h:42-57", "src/model/thermal/io/EGridThermalModelIO.cpp:16-74", "src/model/thermal/EGridThermalModel.cpp:253-259"]}
{"id": "C118", "title": "The boundary of a layout is the least box around its geometry", "statement": "The boundary reported for a layout that was given none is the least rectangle around everything in it: its geometry and, to any depth, what the layouts instantiated in it contain, at every moment.", "quantifier": "every set of layouts that instantiate each other, all shapes and transforms, every order of readings and additions", "why_tests_cant": "Tests read the boundary once, of flat layouts; whether it is still right later, or with nested, turned, empty or circular instances, is not tried.", "anchors": ["src/design/ELayoutView.cpp: GetBoundary, SetBoundary", "src/utility/ELayoutRetriever.cpp: CalculateLayoutBoundaryShape"]}
{"id": "C119", "title": "The picture of a layout shows its boundary and the selected objects", "statement": "The polygons drawn for a layout are its boundary, the outlines and holes of the components on selected layers, and the shapes and bond wires of selected nets on selected layers; with nothing selected, all of them.", "quantifier": "every layout, every selection of nets and layers", "why_tests_cant": "Pictures are looked at, not compared; tests draw everything.", "anchors": ["src/utility/ELayoutViewRenderer.cpp: RendererPNG"]}
{"id": "C120", "title": "A database that is saved and loaded again is the same database", "statement": "Writing a database with Save and reading the file with Load gives back a database with the same objects of the same classes, each with the same members, pointing to each other in the same way (objects shared before are shared afterwards), and with nothing else in it; the definitions of the loaded database know it as their database; a failed Save leaves the old file readable.", "quantifier": "all object graphs (any number of objects of all 48 archived classes, any sharing and any cycles), all member values, all files, any number of registered databases", "why_tests_cant": "A test saves one small layout and compares a few numbers. It cannot show that no member of any of the 48 classes is forgotten, that sharing and cycles of arbitrary graphs survive, or that a rarely used model class makes the whole archive fail.", "anchors": ["src/design/EDatabase.cpp:22-36", "src/design/EDatabase.cpp:76-131", "src/EDataMgr.cpp:88-94", "src/design/ELayoutView.cpp:40-48", "src/basic/ETransform.h:55-61", "src/model/thermal/EGridThermalModel.h:62-122", "src/collection/EDefinitionCollection.cpp:105-109"]}
{"id": "C121", "title": "Lengths, areas and volumes of prism thermal models are those of the layout in metres", "statement": "Whatever the user unit and the database unit, the side lengths, distances of centres, areas, heights and volumes with which a prism thermal network is built, and the lengths, cross sections and volumes of its bond wires, are those of the layout measured in metres; monitors and block boxes are placed within one coordinate of where they were given; the heat flow of a block boundary condition is distributed by area.", "quantifier": "all unit systems with positive unit and precision, all meshes, all layer thicknesses, all bond wires with any number of points, all monitors and blocks", "why_tests_cant": "Tests use micrometres and nanometres, for which the truncation of one user unit to coordinates is exact. The factor between computed and real lengths depends on the quotient of the units, and its square and cube enter areas and volumes.", "anchors": ["src/extraction/thermal/EThermalModelExtraction.cpp:287-288", "src/extraction/thermal/EThermalModelExtraction.cpp:449-450", "src/basic/ECadUnits.h:180-246", "src/model/thermal/EPrismThermalModel.h:235-243", "src/model/thermal/EPrismThermalModel.cpp:155-163", "src/model/thermal/EPrismThermalModel.cpp:207-219", "src/solver/thermal/utils/EPrismThermalNetworkBuilder.cpp:258-347"]}
{"id": "C122", "title": "The result files of a thermal simulation say the temperatures of the model", "statement": "After a static run with a working directory, static.txt is one line that says the temperature of every probe in their order; every iteration leaves its conductances, sources, capacities and outputs in a directory of its own; each layer of a grid model has a picture whose colours follow the temperatures of the layer; after a transient run trans.txt, read by tools/trans_plot.py, gives a column of the times and one of the temperatures of every probe; no file takes the place of another and a run gives what it gives without files.", "quantifier": "all settings, all networks and solvers, all numbers of iterations, all probes and samples, all grids and temperatures", "why_tests_cant": "Tests look at the temperatures returned and not at the files. A layer of one temperature, a probe that is not a node, sample times that agree in six digits, a missing working directory and matrices of many iterations need their own runs, and what the files say has to be compared with the networks of all iterations.", "anchors": ["src/solver/thermal/EThermalNetworkSolver.cpp:40-88", "src/solver/thermal/EThermalNetworkSolver.cpp:188-199", "src/solver/thermal/EThermalNetworkSolver.cpp:227-261", "src/solver/thermal/EThermalNetworkSolver.cpp:297-301", "src/solver/thermal/EThermalNetworkSolver.cpp:344-348", "src/solver/thermal/network/ThermalNetworkSolver.h:35-57", "tools/trans_plot.py:4-14"]}
{"id": "C123", "title": "In the steady state a layout gives off the loss power of its components", "statement": "For a layout whose components, wires and block conditions lie within the grid, with cooling conditions only and one face cooled: the grid thermal model is extracted, its network is built whatever the temperatures before, it has exactly one steady state, and the heat all cells give off to the surroundings in it is the loss power of the components that have an outline and are placed on a layer of the stackup: for loss powers that depend on the temperature it lies between the sums of any lower and upper bounds of them, for constant ones it is their sum. The same holds for the temperatures the static solver returns after any number of rounds, and no cell is colder than the surroundings if no loss power is negative.", "quantifier": "for all layouts, stackups, grids, components with any loss tables, wires, cooling conditions, environment temperatures, limits, numbers of rounds and linear solvers that solve the systems given to them", "why_tests_cant": "A test compares the temperatures of one design with recorded ones; that no power is lost or counted twice between layout, grid, network and solver is a statement over all designs.", "anchors": ["src/extraction/thermal/EThermalModelExtraction.cpp:34-160", "src/solver/thermal/utils/EGridThermalNetworkBuilder.cpp:36-180", "src/solver/thermal/EThermalNetworkSolver.cpp:27-75", "src/solver/thermal/network/ThermalNetworkSolver.h:33-120"]}
{"id": "C124", "title": "In the steady state a prism model gives off the loss power of its power blocks and the joule heat of its bond wires", "statement": "Take a prism model extracted from a layer cut model whose power blocks are each whole in a layer, cooled on one face, without boundary heat flux, with any bond wires between prisms. For all temperatures assumed before, the network is built and has exactly one steady state; in it the heat given off by the prisms through the boundary conditions lies between the sums of the lower and of the upper bounds of the loss powers of the blocks plus the squares of the currents times the resistances of the wire segments, and it is equal to the sum if powers and resistivities do not depend on the temperature. No element is colder than the surroundings if no block cools. The same holds at the temperatures the static solver returns, after any number of rounds.", "quantifier": "all layer cut models, meshes, bond wires, materials, boundary conditions and temperatures as above", "why_tests_cant": "Any test fixes a mesh and a layout; the balance over all meshes, wires and temperature dependent tables needs induction over elements and a maximum principle for the network.", "anchors": ["src/extraction/thermal/EThermalModelExtraction.cpp:210-286", "src/model/thermal/EPrismThermalModel.cpp:73-185", "src/solver/thermal/utils/EPrismThermalNetworkBuilder.cpp:21-325", "src/solver/thermal/EThermalNetworkSolver.cpp:27-75"]}
{"id": "C125", "title": "In the steady state a stackup prism model gives off the loss power of its power blocks and the joule heat of its bond wires through its exposed faces", "statement": "Take a stackup prism model, with a mesh for each layer, made from a layer cut model whose power blocks are each whole in a layer, cooled on one side, without boundary heat flux, with any bond wires between prisms. For all temperatures assumed before, the network is built and has exactly one steady state; in it the heat given off by the prisms through the parts of their faces which no prism of the next layer covers lies between the sums of the lower and of the upper bounds of the loss powers of the blocks plus the squares of the currents times the resistances of the wire segments, and it is equal to the sum if powers and resistivities do not depend on the temperature. No element is colder than the surroundings if no block cools. The same holds at the temperatures the static solver returns, after any number of rounds.", "quantifier": "all layer cut models, meshes of the layers, overlaps of their triangles, bond wires, materials, boundary conditions and temperatures as above", "why_tests_cant": "Any test fixes meshes and a layout; the balance over all meshes, contacts, wires and temperature dependent tables needs induction over elements and a maximum principle for the network.", "anchors": ["src/extraction/thermal/EThermalModelExtraction.cpp:331-470", "src/model/thermal/utils/EStackupPrismThermalModelBuilder.cpp:20-97", "src/solver/thermal/utils/EStackupPrismThermalNetworkBuilder.cpp:28-221", "src/solver/thermal/utils/EPrismThermalNetworkBuilder.cpp:21-51"]}
{"id": "C126", "title": "Steady temperatures answer to heat flows, cooling and conduction as in a network of resistors", "statement": "In every network all nodes of which are connected to one with positive heat transfer: rises of the temperatures over the surroundings combine linearly with the heat flows; where no less heat flows in anywhere, no node becomes colder; two nodes heat each other equally by the same power; no node is hotter than the hottest heated one (or the surroundings); larger transfer coefficients make no node hotter if no node is cooled by a heat flow; and smaller resistances with larger transfer coefficients do not raise the mean temperature weighted with the heat flows, so that a single heated node becomes no hotter; and if no node is cooled by a heat flow, the temperature of one node bounds all others from below: they rise at least as with a source at that node alone that gives it the same temperature.", "quantifier": "all networks, heat flows, resistances, transfer coefficients and temperatures as above, over any ordered field", "why_tests_cant": "Tests compare single networks with stored temperatures; these relations hold between the solutions of any two systems the assembly produces, and need the symmetry and the sign structure of all assembled matrices.", "anchors": ["src/solver/thermal/network/ThermalNetwork.h:196-220", "src/solver/thermal/network/ThermalNetwork.h:285-310", "src/solver/thermal/network/ThermalNetworkSolver.h:25-93"]}
{"id": "C127", "title": "Temperatures that follow the derivative of the transient solver tend to the steady state", "statement": "In every network all nodes of which have a positive heat capacity and are connected to one with positive heat transfer: any two courses of temperature that follow the derivative the transient solver hands to the integrator under the same excitation come closer exponentially, with a rate that depends on the network only; under full excitation every node tends to its steady temperature, from whatever temperatures it starts; a course that starts nowhere colder, with nowhere less heat at any time, is never colder; from the temperature of the surroundings, under an excitation between none and full and with no node cooled by a heat flow, no node ever is colder than the surroundings or hotter than in the steady state, and under full excitation no temperature ever falls.", "quantifier": "all such networks, excitations, starting temperatures and times, over the real numbers", "why_tests_cant": "Tests integrate single networks up to one time; that all courses approach the solution of the static system and never overshoot it is a statement about all times and all starting temperatures.", "anchors": ["src/solver/thermal/network/ThermalNetworkSolver.h:178-205", "src/solver/thermal/network/ThermalNetworkSolver.h:207-229", "src/solver/thermal/network/ThermalNetwork.h:196-220"]}
{"id": "C128", "title": "What is created in user units is what was asked for, to within one database unit", "statement": "Of rectangles, boxes, circles, paths and polygons created in user units through the data manager every coordinate, radius and width is whole, less than one database unit off, not farther from zero and exact on the grid; ordered corners give valid rectangles, boxes inside of or beside others stay so; a polygon of coordinates is that of the points they make. A rectangle moved by whole database units becomes the moved rectangle exactly if each coordinate is on the grid or stays on its side of zero, so not in general; sizes are off by less than one unit on one side of zero, but shrink by up to two across it, and every width below two units can vanish. The location reported of a pin of a placed component is off by less than two database units plus what scale and rotation make of one per coordinate.", "quantifier": "all positive units, shapes, moves, transforms and pins, in exact arithmetic", "why_tests_cant": "Tests create shapes at grid points on one side of zero; truncation is towards zero, so errors show only off the grid and across the axes.", "anchors": ["src/EDataMgr.cpp:228-234", "src/EDataMgr.cpp:248-279", "src/EDataMgr.cpp:282-314", "src/EDataMgr.cpp:330-345", "src/EDataMgr.cpp:354-358", "src/basic/ECadUnits.h:206-214", "src/basic/ECadUnits.h:238-259"]}
{"id": "C129", "title": "The iteration of the static thermal solver converges unless powers grow too fast with temperature", "statement": "For a model whose resistances and transfer coefficients are fixed and whose powers depend on the temperatures, with an exact linear solver: let q be the largest rise of a temperature if the slopes of the powers (watts per degree) were the heat flows of the network. One round of the static solver brings temperatures d apart to at most q*d apart. If q < 1, there is exactly one vector of temperatures that solves the network built for itself; the temperatures returned after n rounds are no farther than q^n times the initial distance from it, no farther than q/(1-q) times the residual limit if the iteration ended by the limit (times the number of nodes if the mean residual is used), and the iteration ends within k+1 rounds once q^k times the change of the first round is within the limit. A sound, cooled grid model without block powers and a cooled prism or stackup prism model whose conductivities do not depend on the temperature are such models, with the slopes of their power tables and of the joule heat of their bond wires. Powers that do not depend on the temperature give the solution in the first round and end after at most two. If the slopes would heat every node by a degree or more and the first round raises every temperature by more than the limit, the rounds never end by the limit and the temperatures grow at least linearly with the number of rounds.", "quantifier": "all networks, power functions, linear solvers, limits, kinds of residual and numbers of rounds", "why_tests_cant": "a test runs the iteration for a few models and cannot show for which slopes of the powers it converges, how far the returned temperatures are from the self-consistent ones, or that it runs away beyond a threshold", "anchors": ["src/solver/thermal/EThermalNetworkSolver.cpp:27-39", "src/solver/thermal/EThermalNetworkSolver.cpp:41-75", "src/solver/thermal/network/ThermalNetworkSolver.h:34-99", "src/solver/thermal/utils/EGridThermalNetworkBuilder.cpp:15-133", "src/solver/thermal/utils/EPrismThermalNetworkBuilder.cpp:21-145", "src/solver/thermal/utils/EStackupPrismThermalNetworkBuilder.cpp:20-171"]}
{"id": "C130", "title": "A grid thermal model holds what fits it, and a power table says truly what it holds", "statement": "After any calls on a new grid thermal model: a layer is refused exactly if its thickness is negative or the size of its metal fraction is not that of the model, and the model is then unchanged; an accepted layer is found at the index given back, whose name never changes and whose thickness, kind, metal fraction and powers change only by calls on it; neighbouring layers know each other's names unless names are set by hand; every cell of the metal fraction of every layer can be read; the region starts at the reference point and is as wide and high as the cells together; no layer is thicker than the model. A power table filled with any samples keeps the first sample of the right size for each key, in increasing order of keys; its range holds exactly the values from the least to the greatest kept, and every value it answers at any temperature; it says that interpolation is needed exactly if two kept samples differ in a cell, and otherwise all temperatures give the same answer. Found false: a layer made without a metal fraction can never be given one with cells; a scale of zero is accepted; a negative thickness is accepted on a layer of the model; the range of a table without samples is turned around.", "quantifier": "all sizes, histories of calls, layers, samples, temperatures and cells, in exact arithmetic", "why_tests_cant": "Tests build a model by the extraction only, which makes all layers the same way; refused layers, later changes over references and tables with repeated or misfit samples do not occur there.", "anchors": ["src/model/thermal/EGridThermalModel.cpp:62-98", "src/model/thermal/EGridThermalModel.cpp:126-239", "src/model/thermal/EGridThermalModel.cpp:245-370", "src/model/thermal/EGridThermalModel.h:112-123"]}
{"id": "C131", "title": "A database made of an XFL file holds what the text of the file says", "statement": "For every XFL file of sections of the format, written in any way: if the file gives units and a scale, its usable vias have different names and its outline is no template shape, the import makes a database; the layers are those of the file in their order with thickness and elevation in nanometres of the file's units divided by its scale, with the properties of the materials the file lists; there are exactly the nets of the file, each with its own number; every path, every polygon with the voids after it and every via of a route of a net is in the database at its scaled place on the layer its number means, for that net; nothing else is in the database; and the order of the sections does not matter.", "quantifier": "For all files of sections as the format has them, all ways of writing them (blanks, comments, letter case), all arc and circle routines of the library, all rotations.", "why_tests_cant": "The property composes the reader and all steps of the import over unboundedly many files; tests read a few files, and do not see what an unset unit or a word other than inch does.", "anchors": ["src/extension/xfl/ECadExtXflHandler.cpp:18-74", "src/extension/xfl/EXflParser.h:479-591", "src/extension/xfl/EXflObjects.h:370-440", "src/extension/xfl/ECadExtXflHandler.cpp:76-425"]}
{"id": "C132", "title": "A GDSII file imported and flattened shows every element once for each chain of references that leads to it", "statement": "The database that is made of the bytes of a GDSII file and of a layer map file has a cell for each structure and the units of the file. After flattening, in any order and together with any other cells, a cell has no instances left and shows the outline of every boundary, box and path of the file once for every chain of references that leads from its structure to the structure of the element, placed (mirrored, magnified, turned, shifted) as the chain says, on the layers that stand for the layer number of the element, and nothing else but texts.", "quantifier": "For all libraries written as GDSII bytes, all layer map files, all buffer capacities, all orders of the unordered set of layers, all lists of flattening tasks.", "why_tests_cant": "Tests import a few files; the property ranges over all files, all depths of references and all orders of flattening, and joins five parts of the program (record parser, reader, layer map parser, import, flattening).", "anchors": ["src/extension/gds/ECadExtGdsHandler.cpp:19-215", "src/extension/gds/EGdsParser.cpp:11-110", "src/extension/gds/EGdsLayerMap.cpp:43-80", "src/utility/ELayoutMergeUtility.cpp:8-118", "src/design/ELayoutView.cpp:376-385", "src/basic/EShape.cpp:154-157"]}
{"id": "C133", "title": "A database made of a KiCad file holds what the text of the board says", "statement": "For every text of a KiCad board in order, with any white space, and every order of the maps of the handler: CreateDatabase ends, registers the database under its name and makes one cell in millimetres whose layout has the layers of the board with kind, thickness and materials of the stackup, stacked without gaps and numbered from 0, a net for each name of a net, and the segments, vias, zones, drawings and footprints of the board; an import that fails leaves no database behind.", "quantifier": "all boards and all texts of them, all iteration orders of the unordered maps, all registries of databases, all contents of a moved-from string", "why_tests_cant": "Tests import one file with one layout of white space and one hash order and check that the pointer is not null; what the layout lacks, and what a failed import leaves behind, is not looked at.", "anchors": ["src/extension/kicad/ECadExtKiCadHandler.cpp:28-62", "src/extension/kicad/ECadExtKiCadHandler.cpp:335-387", "src/EDataMgr.cpp:38-44", "src/EDataMgr.cpp:121-130", "src/collection/ELayerCollection.cpp:41-55"]}
{"id": "C134", "title": "Steady temperatures of a layout answer to powers, cooling, metal and bond wires as those of a heat conductor do", "statement": "For layouts of the same tiles and layers, carried over extraction, network and solver: the steady temperatures exist and the static solver returns them; with constant powers they do not depend on the temperatures before; with more power in any component no cell is colder; the rises caused by two sets of components add, and r times the powers cause r times the rises; one component heats another as far per watt as the other heats the one; with more cooling no cell is warmer; more metal does not raise the power weighted mean temperature of the components. Thicker bond wires should not raise it either, which is false: thinner wires never raise it.", "quantifier": "all layouts with positive units, tiles and layer thicknesses, objects within the region and cooling boundary conditions; all numbers of tiles, layers, components and wires; all loss powers; all temperatures before; any number of rounds of the static solver", "why_tests_cant": "Tests compare single temperatures with stored ones; the laws relate the results of two or three layouts for all of them.", "anchors": ["src/extraction/thermal/EThermalModelExtraction.cpp:34-160", "src/solver/thermal/utils/EGridThermalNetworkBuilder.cpp:15-193", "src/solver/thermal/network/ThermalNetwork.h:139-150", "src/solver/thermal/EThermalNetworkSolver.cpp:41-99"]}
{"id": "C135", "title": "A database made of a DMC and a DOM file holds what the texts say", "statement": "If the lines of the two texts say points and records, the records being outlines with their holes, then importing them under a name that is free registers a database of the name and leaves the others alone; its layout has a conducting layer for each layer id in order of appearance and a dielectric layer with a name of its own between each two; each outline that is no via is there, in order, with its points, on its layer and its net; each via is there, on its net, between the layers of its two signal layers, and is drawn with its outline on exactly the layers from the one to the other, also the dielectric ones; the layer map used by the vias sends the conducting layers to their numbers; and the boundary is the smallest box around the outlines. Otherwise no database is made.", "quantifier": "all texts of DMC and DOM files; all numbers of records, points, holes, layers, nets and vias; all registries of databases", "why_tests_cant": "Tests import a few files and look at counts; the statement relates each object of the database to the text, for all texts, through parsing, import and the insertion of dielectric layers.", "anchors": ["src/extension/dmcdom/ECadExtDmcDomHandler.cpp:15-187", "src/extension/dmcdom/ECadExtDmcDomHandler.cpp:189-236", "src/design/ELayoutView.cpp:175-181", "src/design/ELayerMap.cpp:28-66"]}
{"id": "C136", "title": "The temperatures of a layout over time follow the laws of heat", "statement": "For every layout of positive units, tiles and layers with everything inside the region and cooling conditions only, of which one face is cooled, a grid model is extracted and a network is built for the temperature of the surroundings. For every continuous excitation there is exactly one course of the temperatures of the cells from the temperature of the surroundings that follows the derivative the transient solver integrates. Under full excitation and with powers that do not depend on the temperature, the temperatures tend to the steady ones. If no component cools: under an excitation between none and full no cell is ever colder than the surroundings nor hotter than in the steady state, under full excitation no cell ever gets colder, and with no less excitation no cell is ever colder. With stronger components no cell is ever colder, with no less cooling no cell is ever warmer, the rises by two sets of components add, and the heat stored in the cells grows by the power of the components times the excitation less the heat the layout gives off, the capacity of a cell being its volume times the density of metal times the specific heats by the share of metal.", "quantifier": "all layouts, components, excitations, times and courses of temperatures", "why_tests_cant": "a test integrates a few layouts over a few time steps with a numerical error and compares numbers; laws that hold between all pairs of layouts and at all times cannot be tested", "anchors": ["src/solver/thermal/EThermalNetworkSolver.cpp:100-141", "src/solver/thermal/network/ThermalNetworkSolver.h:183-229", "src/solver/thermal/utils/EGridThermalNetworkBuilder.cpp:15-115", "src/solver/thermal/network/ThermalNetwork.h:222-303"]}
{"id": "C137", "title": "The transient solvers scale the heat of each node by the excitation of its own scenario", "statement": "At every time and all temperatures the rate of each node in the full transient solver is the balance of heat by its capacity, in which the heat of each node is scaled by the excitation of the scenario of the node; for networks of prism models this is the scenario of the power of the prism or of the bond wire. The reduced solver gives each node its heat, scaled by the excitation of its scenario, and that of its surroundings.", "quantifier": "all networks, scenarios, excitations, times and temperatures; all grid, prism and stackup prism models, and all layouts", "why_tests_cant": "the rounding of the scenarios shows only for scenarios above 2^24, and the undefined conversion of the scenario of nodes that were given none may give any value, on one machine the intended one; no test covers all models and excitations", "anchors": ["src/solver/thermal/network/ThermalNetworkSolver.h:183-229", "src/solver/thermal/network/ThermalNetworkSolver.h:395-415", "src/solver/thermal/network/ThermalNetwork.h:22", "src/solver/thermal/network/ThermalNetwork.h:89-92", "src/solver/thermal/EThermalNetworkSolver.h:30", "src/solver/thermal/utils/EPrismThermalNetworkBuilder.cpp:60-172", "src/basic/ECadSettings.h:467"]}
{"id": "C138", "title": "Steady temperatures of a prism model answer to block powers, wire currents, cooling and materials as those of a heat conductor do", "statement": "For prism models extracted from the same cut of a layout and the same mesh and bond wires: steady temperatures exist and the static solver returns them; with powers, resistivities and conductivities that do not depend on the temperature there is one vector of them; with no less power in any block and no less current in any wire no prism and no segment is colder; if powers of blocks and squares of currents are combinations of those in two other cases the rises over the surroundings are the same combinations; one block heats another on average as much per watt as the other heats the one; a bound at least the temperature of the surroundings that holds in all blocks and wires holds everywhere; with transfer coefficients that are not smaller no element is hotter; with conductivities and transfer coefficients that are not smaller the mean rise weighted with the powers is not larger.", "quantifier": "all layer cut models with whole blocks, views, meshes, geometries, boundary conditions without flux, wires, powers, currents, conductivities, temperatures before, and positive least resistances", "why_tests_cant": "the laws relate runs of all pairs of inputs; a test compares a few runs, on one mesh, with rounding that hides an error in one resistance", "anchors": ["src/extraction/thermal/EThermalModelExtraction.cpp:210-286", "src/model/thermal/EPrismThermalModel.cpp:73-185", "src/solver/thermal/utils/EPrismThermalNetworkBuilder.cpp:21-325", "src/solver/thermal/network/ThermalNetwork.h:139-150", "src/solver/thermal/EThermalNetworkSolver.cpp:27-75"]}
{"id": "C139", "title": "Steady temperatures of a stackup prism model answer to block powers, wire currents, cooling and materials as those of a heat conductor do", "statement": "For stackup prism models made from the same cut of a layout, the same meshes, one for each layer, and the same bond wires: steady temperatures exist and the static solver returns them; with powers, resistivities and conductivities that do not depend on the temperature there is one vector of them; with no less power in any block and no less current in any wire no prism and no segment is colder; if powers of blocks and squares of currents are combinations of those in two other cases the rises over the surroundings are the same combinations; one block heats another on average as much per watt as the other heats the one; a bound at least the temperature of the surroundings that holds in all blocks and wires holds everywhere; with transfer coefficients that are not smaller no element is hotter; with conductivities and transfer coefficients that are not smaller the mean rise weighted with the powers is not larger.", "quantifier": "all layer cut models with whole blocks, views, lists of meshes, triangle geometries, boundary conditions without flux, wires, powers, currents, conductivities, temperatures before, thread counts, and positive least resistances", "why_tests_cant": "the laws relate runs of all pairs of inputs; a test compares a few runs, on one stack of meshes, with rounding that hides an error in one contact", "anchors": ["src/extraction/thermal/EThermalModelExtraction.cpp:337-414", "src/model/thermal/utils/EStackupPrismThermalModelBuilder.cpp:20-141", "src/solver/thermal/utils/EStackupPrismThermalNetworkBuilder.cpp:20-221", "src/solver/thermal/utils/EPrismThermalNetworkBuilder.cpp:21-51", "src/solver/thermal/EThermalNetworkSolver.cpp:27-75"]}
{"id": "C140", "title": "Temperatures of a prism model over time exist, are unique, tend to the steady ones and follow the laws of heat", "statement": "For a prism model extracted from a layer cut model with bond wires: exactly one course of temperatures follows, under every continuous excitation of the elements, the derivative the transient solver integrates, from the temperature of the surroundings; with powers, resistivities and conductivities that do not depend on the temperature it tends to the steady temperatures under full excitation; if no block cools, no element is ever colder than the surroundings nor, at excitations of at most one, hotter than in the steady state, and under full excitation none ever gets colder; with no less power, current and excitation no element is ever colder; with transfer coefficients that are not smaller none is ever hotter; combinations of powers and of squares of currents give the same combinations of rises at all times; and the heat stored in prisms and segments grows by the power of blocks and wires times the excitation less what the model gives off.", "quantifier": "all layer cut models with whole blocks, views, meshes, boundary conditions without flux, wires, powers, currents, materials with positive heat capacities, excitations by element and time, and all times", "why_tests_cant": "courses are functions on the reals; a test integrates a few of them with a step size and compares with a tolerance", "anchors": ["src/extraction/thermal/EThermalModelExtraction.cpp:210-286", "src/solver/thermal/utils/EPrismThermalNetworkBuilder.cpp:21-325", "src/solver/thermal/EThermalNetworkSolver.cpp:100-141", "src/solver/thermal/network/ThermalNetworkSolver.h:183-229"]}
{"id": "C141", "title": "Temperatures of a stackup prism model over time exist, are unique, tend to the steady ones and follow the laws of heat", "statement": "For a stackup prism model made from meshes, one for each layer, with contacts between layers and bond wires: exactly one course of temperatures follows, under every continuous excitation of the elements, the derivative the transient solver integrates, from the temperature of the surroundings; with powers, resistivities and conductivities that do not depend on the temperature it tends to the steady temperatures under full excitation; if no block cools, no element is ever colder than the surroundings nor, at excitations of at most one, hotter than in the steady state, and under full excitation none ever gets colder; with no less power, current and excitation no element is ever colder; with transfer coefficients that are not smaller none is ever hotter; combinations of powers and of squares of currents give the same combinations of rises at all times; and the heat stored in prisms and segments grows by the power of blocks and wires times the excitation less what the model gives off.", "quantifier": "all layer cut models with whole blocks, views, lists of meshes, triangle geometries, boundary conditions without flux, wires, powers, currents, materials with positive heat capacities, excitations by element and time, and all times", "why_tests_cant": "courses are functions on the reals; a test integrates a few of them with a step size and compares with a tolerance", "anchors": ["src/extraction/thermal/EThermalModelExtraction.cpp:337-414", "src/model/thermal/utils/EStackupPrismThermalModelBuilder.cpp:20-141", "src/solver/thermal/utils/EStackupPrismThermalNetworkBuilder.cpp:20-221", "src/solver/thermal/EThermalNetworkSolver.cpp:100-141", "src/solver/thermal/network/ThermalNetworkSolver.h:183-229"]}
{"id": "C142", "title": "The networks of prism models use the properties that were given to the materials", "statement": "After any calls that make materials, give them properties and call them fluid or rigid: exactly the materials last called fluid are left out of a model, and for every prism and segment of wire the network uses the conductivity along the axes, specific heat, density and resistivity that were given to its material, at its temperature; this also holds in copies of the database.", "quantifier": "all histories of calls on materials, all properties (values, vectors, tensors, tables, polynomials), temperatures, prism models and their copies", "why_tests_cant": "a test has a few materials with single values; it cannot range over all histories of calls and kinds of properties, and reading an uninitialised value or a null pointer may go unnoticed", "anchors": ["src/solver/thermal/utils/EPrismThermalNetworkBuilder.cpp:349-389", "src/design/EMaterialProp.cpp:54-245", "src/design/EMaterialDef.cpp:21-83", "src/EDataMgr.cpp:155-186", "src/collection/EMaterialDefCollection.cpp:32-98", "src/extraction/thermal/EThermalModelExtraction.cpp:217-242", "src/model/thermal/EPrismThermalModel.cpp:58-61"]}
{"id": "C143", "title": "In the steady state the prism models of a layout give off the loss power of its components and the joule heat of its joints and bond wires", "statement": "For every complete layout, the model extracted from it (layers cut, polygons searched, prisms and bond wires made, network built and solved) has exactly one steady state for given temperatures before; the heat given off to the surroundings lies between the sums of the least and greatest loss powers of the components, of the joule heat of the solder joints and of the segments of the bond wires, nothing is counted twice or left out, and every prism has the material of the least polygon of the layout around its centre.", "quantifier": "all complete layouts (layers, components, primitives, padstacks, imprints), meshes, materials, loss power tables, cooling on the faces, prism and stackup prism models, runs of the static solver", "why_tests_cant": "the steps from layout to temperatures are tested at most one by one on few layouts; power lost or doubled in between shifts temperatures in a way no reference value shows", "anchors": ["src/extraction/geometry/EGeometryModelExtraction.cpp:15-144", "src/model/geometry/utils/ELayerCutModelBuilder.cpp:16-75", "src/model/geometry/ELayerCutModel.h:38-107", "src/extraction/thermal/EThermalModelExtraction.cpp:183-254", "src/extraction/thermal/EThermalModelExtraction.cpp:343-424", "src/model/thermal/EPrismThermalModel.cpp:152-188", "src/solver/thermal/utils/EPrismThermalNetworkBuilder.cpp:54-185", "src/basic/ELookupTable.h:93-107"]}
{"id": "C144", "title": "Greater loss powers and currents in a layout make no element of its prism models colder, and the rises of temperature superpose", "statement": "For every complete layout: other loss powers of the same components and other currents of the same bond wires change neither the layers of the extracted model nor its polygons, heights, materials, nets, and places of the power blocks and wires; if no loss power and no current is smaller, then no element of the prism model or stackup prism model is colder, in the steady state and, under no smaller excitations, at any time; if loss powers and squares of currents are combinations of those in two other cases, then the rises over the surroundings are the same combinations.", "quantifier": "all complete layouts, all pairs and triples of settings of loss power tables and currents, meshes, materials with fixed conductivity and resistivity, cooling, prism and stackup prism models, times and excitations", "why_tests_cant": "tests run one layout with one set of powers; a comparison of runs cannot separate a wrong response from a change of the mesh or layers, and covers few settings", "anchors": ["src/extraction/geometry/EGeometryModelExtraction.cpp:15-144", "src/model/geometry/utils/ELayerCutModelBuilder.cpp:16-88", "src/model/geometry/ELayerCutModel.cpp:20-118", "src/extraction/thermal/EThermalModelExtraction.cpp:183-254", "src/extraction/thermal/EThermalModelExtraction.cpp:343-424", "src/model/thermal/EPrismThermalModel.cpp:152-188", "src/solver/thermal/utils/EPrismThermalNetworkBuilder.cpp:54-185", "src/basic/ELookupTable.h:93-107"]}
{"id": "C145", "title": "From the names of materials in a layout to its prism models: elements, networks and heat follow what was given to the names", "statement": "For every history of calls that make materials, give them properties and call them fluid or solid, and every layout whose objects name materials of it: each element of the prism model or stackup prism model has the material named by the least of the polygons of the layout around its centre that reach through its layer, a name that was not last called a fluid; the network uses the conductivities, specific heat, density and resistivity first given to that name; and if loss powers and resistivities do not depend on the temperature, the steady state and the whole run of the static solver give off exactly the power of the components plus the joule heat of the solder joints and bond wires at the resistivities given to their names.", "quantifier": "all histories of material calls, all layouts of the claim, meshes, cooling conditions, prism and stackup prism models, and linear solvers that solve the given systems", "why_tests_cant": "tests check extraction, material lookup and solver apart and on one design; a wrong id between the three would show only as a slightly different temperature", "anchors": ["src/extraction/geometry/EGeometryModelExtraction.cpp:15-144", "src/model/geometry/utils/ELayerCutModelBuilder.cpp:55-75", "src/extraction/thermal/EThermalModelExtraction.cpp:183-254", "src/extraction/thermal/EThermalModelExtraction.cpp:343-424", "src/solver/thermal/utils/EPrismThermalNetworkBuilder.cpp:349-389", "src/design/EMaterialDef.cpp:60-83", "src/design/EDatabase.cpp:190-196"]}
{"id": "C146", "title": "The summary of a network build: its heat flows, joule heat, boundary nodes and nodes against the network", "statement": "For every grid, prism or stackup prism model and all temperatures for which the network is built: intake and outtake of the summary together are the heat flow of the network plus the heat flow that SetHF calls threw away; so without heat fluxes (and, for grids, with at most one table of power per layer) they are the heat flow of the network, and what the steady state gives to the surroundings. The joule heat is that of the wires at the temperatures given. The boundary nodes of a prism model are never fewer than the nodes cooled, and exactly these if no prism is cooled above and below and there are no block conditions. Elsewhere the summary is wrong: a flux on a prism with power, prisms of one layer cooled above and below (every node twice), negative powers (negative intake, no outtake), grid models with block powers (nodes left out), several threads (lost updates).", "quantifier": "all grid, prism and stackup prism models, temperatures, boundary conditions, numbers of threads and schedules of their reads and writes", "why_tests_cant": "tests compare temperatures; the summary is only printed, and a wrong sum or a lost update leaves the temperatures alone", "anchors": ["src/solver/thermal/utils/EThermalNetworkBuilder.h:6-20", "src/solver/thermal/utils/EGridThermalNetworkBuilder.cpp:15-193", "src/solver/thermal/utils/EPrismThermalNetworkBuilder.cpp:20-243", "src/solver/thermal/utils/EStackupPrismThermalNetworkBuilder.cpp:21-221", "src/solver/thermal/EThermalNetworkSolver.cpp:53-58"]}
{"id": "C147", "title": "Transient analyses that update the network: course, heating up, and runaway", "statement": "A transient analysis that depends on temperature rebuilds the network at the beginning of every step from the temperatures reached. For every builder that makes grounded networks with capacities, every step and every continuous excitation there is exactly one such course; temperatures stand still exactly if they are steady in the network built for themselves; if the network does not depend on temperatures, updating it makes no difference; the heat stored grows within each step by what flows in less what is given off; without negative heat flows nothing gets colder than the surroundings. If only the heat flows depend on temperatures, and grow with them, then from the temperature of the surroundings no node ever cools, and no node gets above any self-consistent steady temperatures; the course stays bounded exactly if there are such temperatures, and then tends to the lowest of them; otherwise it runs away, whatever the step. Prism, stackup prism and grid models are such builders.", "quantifier": "all prism, stackup prism and grid models that are cooled (with fixed material values for the comparison, limit and runaway parts), temperatures, excitations, lengths of the step, times", "why_tests_cant": "a finite run cannot tell slow heating up from running away, nor the lowest steady state from another; tests run one model for a fixed duration", "anchors": ["src/solver/thermal/EThermalNetworkSolver.cpp:100-145", "src/solver/thermal/network/ThermalNetworkSolver.h:191-229", "src/solver/thermal/utils/EPrismThermalNetworkBuilder.cpp:20-243", "src/solver/thermal/utils/EStackupPrismThermalNetworkBuilder.cpp:21-221", "src/solver/thermal/utils/EGridThermalNetworkBuilder.cpp:15-193"]}
{"id": "C148", "title": "A forced extraction describes the layout as it is", "statement": "A thermal model extracted with forceRebuild is the model of the layout as it is at that call, whatever was extracted before. This holds for grid models. For prism and stackup prism models the layer cut model is kept by the layout on its own and has no such flag: the model is made of the layout as it is and of a layer cut model made now, or in an earlier call with layer cut settings that are not told apart. So it holds if the layout has not changed since, or if a layer cut model with other settings was asked for in between; otherwise the forced model shows the polygons, materials and powers of the old layout. The same is true of the first model of the other prism kind.", "quantifier": "all layouts, all histories of extractions of both kinds and layer cut models, all settings, all generators", "why_tests_cant": "tests extract each layout once; the wrong model is a plausible one, and it takes a change of the layout between two extractions to see it", "anchors": ["src/design/ELayoutView.cpp:328-351", "src/extraction/thermal/EThermalModelExtraction.cpp:22-41", "src/extraction/thermal/EThermalModelExtraction.cpp:183-189", "src/extraction/thermal/EThermalModelExtraction.cpp:318-324", "src/model/geometry/ELayerCutModel.h:111", "src/collection/EModelCollection.cpp:39-49"]}
{"id": "C149", "title": "Pictures and meshes written by extractions", "statement": "An extraction of a prism model that is asked for files writes them, and leaves the files of other extractions. The picture of the polygons gets the first of the names LayerCut.png, LayerCut1.png, LayerCut2.png \u2026 that is free; the search ends; extractions into one directory leave the pictures of all of them, numbered in order; no file without the name of a mesh is ever replaced. Meshes are replaced by those of the next extraction into the directory, and where that has fewer meshes, the rest stays, so that the pictures are of two models. A call that is answered with a model made before writes nothing, whatever files and directory it asks for.", "quantifier": "all files present before, all series of extractions, all directories, numbers of meshes, settings", "why_tests_cant": "tests write into a fresh directory and do not look at the pictures; the mixed set of files needs two extractions with different numbers of meshes", "anchors": ["src/extraction/thermal/EThermalModelExtraction.cpp:161-181", "src/extraction/thermal/EThermalModelExtraction.cpp:191-206", "src/extraction/thermal/EThermalModelExtraction.cpp:310-313", "src/extraction/thermal/EThermalModelExtraction.cpp:326-335", "src/extraction/thermal/EThermalModelExtraction.cpp:361-379", "src/extraction/thermal/EThermalModelExtraction.cpp:473-476", "src/design/ELayoutView.cpp:340-351"]}
{"id": "C150", "title": "Transient analyses with fixed steps", "statement": "A transient analysis without adaptive steps takes steps of the sampling interval with an explicit method. It should come close to the course of the temperatures and end at the steady ones. The steps stay at temperatures exactly if these are steady. With steps of at most 4/3 of the time constant of every node (capacity over the sum of its conductances) hotter starts stay hotter, a start at the environment temperature rises to the steady temperatures without passing them, and the distance to the steady temperatures falls geometrically from all starts; with at most one time constant more power never gives lower temperatures. Every step keeps the books of energy. The steady temperatures are reached from all starts exactly if p^3 < 4p^2 - 8p + 16 for the product p of step and rate of every mode of the network; the same condition decides under any power whether different starts are forgotten. With steps of four time constants of some node or more, the temperatures leave all bounds from all starts that have a part of some profile. For ever shorter steps the temperatures at a time tend to those of the exact course, under all power that is continuous in time but for finitely many jumps. The samples reported are the temperatures after the steps.", "quantifier": "all sound networks, all steps, starts, reference temperatures, numbers of steps, excitations (where named), settings without temperature dependence; all networks built by prism and stackup models", "why_tests_cant": "tests run one model with one interval and look at nothing but success; divergence depends on interval, capacities and conductances of the smallest node", "anchors": ["src/solver/thermal/network/ThermalNetworkSolver.h:191-229", "src/solver/thermal/network/ThermalNetworkSolver.h:251-259", "src/solver/thermal/EThermalNetworkSolver.cpp:117-145"]}
{"id": "C151", "title": "Bond wires in thermal networks are chains of the right resistances", "statement": "In the network of a prism or stackup prism model every bond wire is a chain of its segments, between the prisms at its ends. The conductance between a segment and a prism is that of half of the segment, exactly for the first segment and the prisms at the start and for the last segment and those at the end; between two segments it is that of half of both, exactly for neighbouring segments of one wire. A wire of one temperature has the resistance length over mean conductivity over cross section, however it is divided into segments. The resistance between two segments of different temperature is that of the two halves, each at its own temperature.", "quantifier": "all meshes, layers, cells, materials, lists of wires with any numbers of segments whose ends are at prisms, all temperatures", "why_tests_cant": "a wire with many segments and a material that depends on temperature is in no test; the resistances of the network are not visible outside", "anchors": ["src/solver/thermal/utils/EPrismThermalNetworkBuilder.cpp:155-197", "src/model/thermal/EPrismThermalModel.cpp:73-86", "src/model/thermal/EPrismThermalModel.cpp:152-185"]}
{"id": "C152", "title": "The temperature of the environment shifts all results by the same amount, in either unit", "statement": "If the temperature of the environment in the settings of an analysis is raised by d, every result of a static analysis rises by d, the exact course of the temperatures and every sample of a transient analysis with fixed steps rise by d at every time, and nothing else changes. Giving the temperature in degrees Celsius or in kelvins gives the same results up to the unit. The temperature of the environment in the settings of an extraction has the same effect.", "quantifier": "all networks, prism, stackup prism and grid models with properties that do not depend on temperature, all temperatures, units, limits, numbers of rounds, powers over time, steps, windows and probes", "why_tests_cant": "every test uses 25 degrees Celsius; that all temperatures shift alike is a statement on pairs of runs", "anchors": ["src/basic/ECadUnits.h:113-131", "src/basic/ECadSettings.h:281-310", "src/solver/thermal/EThermalNetworkSolver.cpp:40-88", "src/solver/thermal/EThermalNetworkSolver.cpp:100-201", "src/solver/thermal/network/ThermalNetworkSolver.h:191-259"]}
{"id": "C153", "title": "Sessions of imports: databases made by different imports live side by side", "statement": "After any session of CreateDatabase, LoadDatabase, RemoveDatabase, ShutDown and the four CreateDatabaseFrom... imports, the database that opens under a name is the one made by a call that found the name free and that no removal of the name and no shutdown followed; it holds exactly what that import makes of its files in a session of its own; an import never touches databases of other names, is refused when its name is in use, and a failed import leaves the registry as it was.", "quantifier": "for all sequences of calls, names, file contents (readable or not), layer map files, and behaviours of the library the imports use; for all states of the registry", "why_tests_cant": "tests import one file into a fresh manager; the interference of imports with each other, with names in use and with earlier failures depends on the whole history", "anchors": ["src/EDataMgr.cpp:38-94", "src/extension/ECadExtension.cpp:9-31", "src/extension/gds/ECadExtGdsHandler.cpp:19-82", "src/extension/kicad/ECadExtKiCadHandler.cpp:29-55", "src/extension/xfl/ECadExtXflHandler.cpp:18-74", "src/extension/dmcdom/ECadExtDmcDomHandler.cpp:67-187"]}
{"id": "C154", "title": "The linear solvers on thermal networks", "statement": "The matrix that the steady thermal solution hands to a linear solver is symmetric. If every node of the network is connected to a cooled node, it is positive definite with a positive diagonal, which is what the Cholesky solvers and the conjugate gradients ask for. Then SparseLU (solver type 0), SimplicialCholesky (1), SimplicialLLT (2) and SimplicialLDLT (3) succeed, in whatever order the library eliminates, and return the same temperatures, which solve the steady equations. ConjugateGradient (10) never divides by zero, reaches the solution within as many rounds as there are nodes, and returns temperatures whose residual is below the threshold of the library, so that the heat given off differs from the heat put in by no more than that threshold allows. Every solver type is handled: no other number can occur without leaving the temperatures of the environment, which solve the equations only if nothing is heated.", "quantifier": "all networks whose nodes are all connected to a cooled one, all temperatures of the environment, all elimination orders and thresholds of the library, all solver types", "why_tests_cant": "Tests run a solver on a few networks; that no network of any size makes a pivot vanish or the iteration break down, in any elimination order, is a statement about all of them.", "anchors": ["src/solver/thermal/network/ThermalNetworkSolver.h:34-99", "src/basic/ECadSettings.h:431-456", "src/solver/thermal/EThermalNetworkSolver.cpp:60-75", "src/solver/thermal/network/ThermalNetwork.h:280-330"]}
{"id": "C155", "title": "Chip thermal model files made of a layout can be read again", "statement": "The files that the chip thermal model utility makes of a layout are read again by the reader of chip thermal models. The model read has the tiles and the resolution asked for, the stackup layers of the layout in their order with their thicknesses, the conducting layers as metal layers and the others as via layers, no power at any of the five temperatures, and for each layer and tile the part of the tile covered with metal.", "quantifier": "for all layouts with at least one layer, layers of different names and thicknesses that are not negative, all sets of nets, extensions and resolutions that give between one and 100000 tiles in each direction, all roundings of numbers to a neighbour, all contents of the directory before", "why_tests_cant": "A test makes files of one layout and looks at them; nothing in the repository reads such files again, and whether they can be read depends on the names of the layers.", "anchors": ["src/utility/ELayout2CtmUtility.cpp:27-92", "src/model/thermal/io/EThermalModelIO.cpp:84-185", "src/model/thermal/io/EChipThermalModelIO.cpp:15-109", "src/model/thermal/io/EChipThermalModelIO.cpp:382-451", "src/model/thermal/EChipThermalModel.h:27-41"]}
{"id": "C156", "title": "In the steady state a bond wire conducts heat as a rod", "statement": "In every steady state of the network of a prism or stackup prism model, a bond wire between two prisms behaves as a rod whose ends have the temperatures of the prisms. The temperature in the middle of each segment is that on the line between the ends, raised by the heat that the current makes in every segment as in a rod with held ends. The heat entering at the start is the difference of temperature times mean conductivity times cross section over length, less the share of the heat of each segment that flows back by the law of the lever; what leaves at the end is what entered and all the heat made. Without current the temperature falls evenly, and the heat is that of Fourier's law. All this does not depend on how the wire is divided into segments or on other wires.", "quantifier": "all meshes, layers, cells, materials, boundary conditions, lists of wires with any numbers of segments whose ends are at prisms, all wires among them that begin at one prism and end at one prism and whose segments have the same temperature when the network is built and are not below the least resistance, all steady states", "why_tests_cant": "a test compares some temperatures with stored values; that the temperatures inside a wire follow from those at its ends and the current alone, for every model and division into segments, is visible in no run", "anchors": ["src/solver/thermal/utils/EPrismThermalNetworkBuilder.cpp:155-197", "src/solver/thermal/network/ThermalNetworkSolver.h:57-93", "src/model/thermal/EPrismThermalModel.cpp:73-86", "src/model/thermal/EPrismThermalModel.cpp:152-185"]}
{"id": "C157", "title": "An evenly heated stack has the temperatures of a plane wall of its layers", "statement": "If every layer of a grid thermal model has one part of metal, or every layer of a prism or stackup prism thermal model without holes conducts heat evenly, and is heated evenly, by its powers or by a heat flux at the bottom, and the model is cooled at its top with one transfer coefficient, then the steady temperatures are those of a plane wall made of the layers: they depend on the layer alone, the upper face is warmer than the surroundings by the heat per area over the coefficient, and from there the temperature rises by the heat that crosses times thickness over conductivity.", "quantifier": "all grid models over any number of cells and layers with any thicknesses, parts of metal and heats per area, all prism models over any mesh that covers every layer, and all stackup prism models over any meshes whose layers cover each other, fitting or not, cooled at the top alone, without bond wires and block powers, whose layers are not below the least resistance; all steady states and cells", "why_tests_cant": "a test compares the temperatures of one model with stored values or with a tolerance; that every layer of every evenly heated stack is too cold by the drop in half of the first layer follows only from the solution of the whole network", "anchors": ["src/solver/thermal/utils/EGridThermalNetworkBuilder.cpp:15-115", "src/solver/thermal/utils/EGridThermalNetworkBuilder.cpp:135-193", "src/solver/thermal/utils/EGridThermalNetworkBuilder.cpp:201-224", "src/solver/thermal/utils/EPrismThermalNetworkBuilder.cpp:60-152", "src/solver/thermal/utils/EStackupPrismThermalNetworkBuilder.cpp:28-169", "src/solver/thermal/network/ThermalNetworkSolver.h:57-93"]}
{"id": "C158", "title": "The merger of polygons writes one file per layer with what it merged, and says if it failed", "statement": "The pictures and VTK files of the polygon merger are one per layer of the stackup, named after the layer; each shows the outlines and holes of the merged polygons of that layer and so covers just the points of the selected nets on it; other files are left alone, and the result says if a file could not be written.", "quantifier": "all layouts, settings, orders of the layers, file names and sets of files that can be written", "why_tests_cant": "tests look at the merged layout; which files are touched, and what happens when a file in the middle cannot be written, is not tried", "anchors": ["src/utility/ELayoutPolygonMerger.cpp:47-59", "src/utility/ELayoutPolygonMerger.cpp:200-229", "src/utility/ELayoutPolygonMerger.cpp:231-260"]}
{"id": "C159", "title": "The lowest and highest temperature of a network are those of its nodes with a temperature", "statement": "If at least one node of a thermal network has a temperature, the lowest and the highest temperature of the network are temperatures of nodes and all others lie between them; nodes without temperature are left out. The lowest is above the highest just if no node has a temperature. A temperature that has been set lies between them.", "quantifier": "all networks and all temperatures below the largest number", "why_tests_cant": "the mark for an unknown temperature is the largest number itself, and the search for the lowest starts with it; a few networks do not show that the mark never wins", "anchors": ["src/solver/thermal/network/ThermalNetwork.h:94-97", "src/solver/thermal/network/ThermalNetwork.h:170-188"]}
