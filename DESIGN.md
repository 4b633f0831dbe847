# Formal model of ecad

Source: `/repo` (C++), read as text only. Model and proofs: Lean 4.33.0 + Mathlib, `/verif/lean`.

## 1. Approach

* The code is modelled function by function as total functions over lists, naturals,
  integers, rationals / ordered fields and small structures. A mutating member function
  becomes a function returning the new state.
* Every definition of the model cites file and lines of `/repo`; deviations are stated there.
* Undefined behaviour, exceptions and endless loops are outcomes of the model, not assumed
  away: `Res` has `ok`, `ub` (undefined behaviour) and `exn` (exception thrown); loops that may run forever are
  modelled by step relations or by fuel with a theorem about every amount of fuel.
* Floating point is replaced by exact arithmetic (an arbitrary linearly ordered field or ℚ).
  So theorems about numbers say what the algorithm computes without rounding.
* External code (the absent `3rdparty/generic`, boost, Eigen, the standard library) enters as
  parameters with the behaviour used stated, or as a direct list/map model of the container.
* For each area there are: `Model` (the code), `Spec` (independent definitions used in the
  statements), lemma files, and `Props` (the theorems named in `MANIFEST.json` together with
  an `example` showing that the hypotheses are met).
* When the code does not have a property, the negation is proved with a concrete witness
  (`…_refuted`), and the part which does hold is proved (`…_partial`, or a theorem with the
  needed precondition spelled out).

## 2. Trusted base

* Lean kernel; axioms `propext`, `Classical.choice`, `Quot.sound` only
  (each property theorem is checked by `#print axioms`, see section 4).
* The faithfulness of the hand-written model to the cited lines.
* Models of containers: `std::unordered_map` is a finite map with an unspecified iteration
  order, `std::map` a sorted map, `std::vector` a list, `boost::bimap` a partial bijection container that
  refuses inserts clashing on either side, `std::mutex` gives atomic sections.
* Exact arithmetic for `double`/`float`; unbounded integers for `int`/`size_t` unless a
  comment says that wrap-around is modelled.
* Not modelled: geometry kernels (polygon booleans, triangulation, area), file system,
  boost serialization, python bindings, rendering, Eigen solvers (a solver is represented by the
  equation its result satisfies), ODE integration.

## 3. Plan per property

| id | modelled | proof |
|----|----------|-------|
| C01 | `NextKey` as a search loop over a finite key list | pigeonhole for termination, minimality by induction |
| C02 | `Insert/Count/At/Clear` on association lists | refinement to a partial function by induction over histories |
| C03 | net collection with uid counter and lazy id index | invariant by induction over histories |
| C04 | copy without the uid counter | witness for the collision; partial: copy with no further creation, or into a fresh counter beyond all ids |
| C05 | layer vector, append, dielectric insertion, renumbering | induction over the stack |
| C06 | returned id mapping and its application to primitives and padstack layer maps | from the C05 lemmas |
| C07 | bimap as a list with both-sided refusal | invariant over histories |
| C08 | `MappingLeft/Right` as fold over entries | composition of relations |
| C09 | `toInt/fromInt` | arithmetic |
| C10 | sorted sample list, `Lookup` | ordered field reasoning |
| C11 | `SetProperty` as emplace | witness; partial for first setting |
| C12 | accessors over a value list | case analysis; witness |
| C13 | sequence + cache state machine over an abstract transform monoid | invariant; witness |
| C14 | `toCoord/toUnit` over ℚ with truncation | arithmetic |
| C15 | registry state machine | refinement to partial function |
| C16 | settings equality and extraction cache | witness; partial for equality that implies same generation |
| C17 | iterators as state machines | induction; witness for the early stop |
| C18 | cells, instances, merge, flatten tasks, schedules | refinement to path expansion by induction along a schedule |
| C19 | merge of nets and conn objects | invariant of the id map |
| C20 | net creation per connected group | induction over groups |
| C21 | swap with last write-back | induction over the traversal; witness |
| C22 | elevation recomputation loop | induction |
| C23 | height formulas over an ordered field | case analysis |
| C24 | refinement loop | measure argument, sublist |
| C25 | index arithmetic on ℤ | division lemmas; witness on the far boundary |
| C26 | height table, index ranges | sorted list reasoning |
| C27 | slicing loop | contiguity invariant; witness for endless loop |
| C28 | `SetR` on a node/neighbour map | induction over calls |
| C29 | stamping of the matrix | finite sums |
| C30 | solution predicate of the stamped system | maximum principle on a finite graph |
| C31 | selection matrix and right hand sides | finite sums |
| C32 | pad vector access with UB outcome | case analysis; witness |
| C33 | index arithmetic, neighbour functions, build loop | div/mod lemmas, counting |
| C34 | prefix sums and linear search | induction over layer sizes |
| C35 | 2x2 reduction | finite sums over blocks |
| C36 | block partition loop | arithmetic |
| C37 | nearest layer search | induction over the stack; witness |
| C38 | sort/unique/binary search permutation | sorted list lemmas |
| C39 | byte shift, header writing and parsing | modular arithmetic; witness |
| C40 | position lookup with fuel, elevation sort, merging within the tolerance, thickness loop, lowest metal | sortedness and gaps between groups by induction over the merging; termination by a rank; general refutation for cyclic vias |
| C41 | byte decoding | arithmetic modulo powers of two |
| C42 | buffer state machine | refinement to the flat byte stream |
| C43 | record loop | induction over records; witness for truncation |
| C44 | reader state machine | induction over records; witness for duplicates |
| C45 | array import | witness; partial describes what is placed |
| C46 | recursive descent parser on character lists | print/parse round trip; witness for the endless loop |
| C47 | builders writing heat flow into nodes | witness; partial without flux |
| C48 | `SetUniformBC` as emplace | witness; partial first setting |
| C49 | two independent emplaces | witness; partial for injective insertions |
| C50 | sampler state machine | induction over steps |
| C51 | node grouping loop | finite sums; UB outcome for the dangling reference |
| C52 | record/point walk | induction; UB outcome for short point lists |
| C53 | search loop | induction |
| C54 | height formulas | ordered field reasoning |
| C55 | table query, block power query | ordered field reasoning, finite sums |
| C56 | polynomial evaluation and the three property accessors | induction over coefficients |
| C57 | `Current` of the iterators | case analysis; witness for components |
| C58 | length refinement loop with truncating mid points | two nested measures; endless family for length one |
| C59 | height formulas of wire ends and joints | case analysis |
| C60 | transient right hand side from the stamped matrices | finite sums, node by node |
| C61 | resistances, capacities and wires of the grid builder | values of the built network from the list of calls; refutations for x, mixed cells, wires |
| C62 | the grid builder as a list of network calls | paths to the cooled face, then C30 |
| C63 | extraction, instances, wires and builder of prism models | refinement of three numberings to (layer, triangle); links in the list of calls |
| C64 | as C63 | paths up or down to the cooled face, along wires; then C30 |
| C65 | resistance formulas of the prism builder | sum over the list of calls; equivalences for the side formula |
| C66 | nearest prism search per layer | minimum over a list; UB outcome for an empty layer |
| C67 | iteration loop of the static solver with fuel = its limit | induction over iterations; the linear solver enters by its equation |
| C68 | layers without a layer map, for every order of the set | lists without repetitions; reference elements as refutation |
| C69 | layers from a layer map, ids per layer number | membership in the id lists; data types as refutation |
| C70 | instances of references | irrationality of π for the angle taken as radians |
| C71 | projected matrices of the reduced solver, inputs, outputs | finite sums: residual orthogonal to the range of the basis |
| C72 | layers, stackup lines and nets of a KiCad tree; maps walked through in any order | permutations; induction over the sections; refutations for order and dielectrics |
| C73 | same model as C52; ids and maps of the import | invariant over the groups placed so far; refutations for shared names, unused signal layers and empty files |
| C74 | header file as bytes, written and read line by line; same model as C39 | lemmas per line; induction over items, rows and lines; refutations for origin, long names and empty vias |
| C75 | chip model to grid model and back, layers appended with neighbours, densities, power table; without reduction, exact comparisons | induction over appended layers, telescoping thickness, C40 for the stackup; general refutations for unmarked metals, neighbouring vias and outer vias |
| C76 | stackup prism model: one mesh per layer, contacts by overlap, network calls per element; triangle areas and overlaps are given numbers | refinement of the builder to `Stacked`; sum of the conductances of all calls for a pair |
| C77 | same model; last writer per node | exposed area as area less overlaps; refutations for two sides, power, last layer and blocks |
| C78 | same model | `Grounded` by induction over layers: an element not exposed is covered by one nearer to the cooled side; C30 |
| C79 | same model; calls of the threads as shuffles, contacts as one job per layer | as C36 |
| C80 | import of objects onto layers, `CreateText` | case analysis; refutation for texts |
| C81 | same models as C63 and C76 | every call that sets the capacity of a node sets it to the same value |
| C82 | shapes over an ordered field, transforms as affine maps; stroke outlines abstract | equality of polygons; for rectangles and discs equality of point sets; refutations for all turns that are not quarter turns and all scalings |
| C83 | same model | induction on nesting; extent of transformed corners in closed form; refutation for turned diamonds |
| C84 | `GetLayerShape` with the models of padstack data, layer maps and shapes | case analysis; refutation: composition in the wrong order |
| C85 | `ImportLayers`, `ImportMaterialDefs` (src/extension/xfl/ECadExtXflHandler.cpp) as folds | induction from the end of the list; closed forms of the loop variables |
| C86 | `ImportConnObjs` with the loop that collects voids | induction on the objects left; specification by `takeWhile`; refutation of the full claim |
| C87 | `EShapeGetter` (src/extension/xfl/EXflObjects.h) | boxes of shapes; induction over composites; refutations for all sizes |
| C88 | `GetNextPadstackInstName` and the via branch of `ImportConnObjs` | invariant on the names in use; pigeonhole for the end of the loop |
| C89 | `ImportPadstackDefs` with the models of padstack data and layer maps, and `GetLayerShape` | induction over pads and vias; refutation: layer map written in the other direction than it is read |
| C90 | `ImportBoardGeom` | case analysis; refutation: hidden variable |
| C91 | the collections of `EDatabase` as maps; calls on a list of databases | simulation of a history-based specification; refutation of self-assignment |
| C92 | the id table of `EMaterialDefCollection` | invariant: the table is a suffix of the materials; refutation for copies |
| C93 | copying of databases, cells, layouts, definitions; pointers as numbers | induction over the collections; all other pointers proved to stay with the original |
| C94 | definitions, components and bond wires in lists; transforms of C13 | invariant over all histories against a specification read off the history |
| C95 | the loops over components, temperatures and tiles; the index of C25; the lookup of C10 | invariant over the components; sums over finite sets |
| C96 | the builder and the extraction loop with its height and material caches; Geom.build of C26 | refinement: the model represents the list of polygons of the specification, by induction over each loop; cache invariant |
| C97 | the transient solver, its sampler and both loops over an arbitrary integrator | invariant of the loop over steps (samples so far = those of the trajectory so far); sampler refines a filter of the trajectory; joints of pieces do not change the filter |
| C98 | the whole merger over the shapes of C82 and padstack instances of C84; the library's merger as a function with a contract | each loop adds exactly the polygons of the specification (membership invariants); removal by C21 |
| C99 | the polyline functions of the retriever on top of C23/C24/C59 | the refinement of four points written out; predicates closed under mid points |
| C100 | the path from the layout view through dispatch, monitors and static solver, composed of the models of C16, C37, C38, C66, C67 | composition of those theorems |
| C101 | list of netlist cards; operating points by Kirchhoff's law | exact sum over cards at every node, choice of source currents |
| C102 | points and vertices of prisms, wires, and the lines of the file; a reader of legacy VTK files as specification | invariant of the point map (in place, injective, onto); reading what was written |
| C103 | selection of shapes, tiles of the mapping, grid model and chip model | sums over the selected shapes; rounding of the stride against the resolution |
| C104 | extraction of layers, wires, powers and conditions from a layout, composed with the network builder | last writer of each cell over all calls; tiles against cells; calls out of range |
| C105 | parsing expression grammar over characters against a specification by tokens | tokens read by parsers, composed over sequences, alternatives and repetitions; parity of numbers after ARC3; retokenization of swallowed text |
| C106 | parsing expression grammar over characters against a specification by tokens | tokens read by parsers, composed over sequences, alternatives and repetitions; entries fail on end tags; earlier sections fail on the keyword |
| C107 | parsing expression grammar over characters against a specification by tokens | induction over sections; every parser leaves a suffix and every turn of the grammar takes text |
| C108 | s-expression trees folded over a collecting state against filters of the attribute lists | each extractor equals its specification by filters; induction over objects and footprints; map of components by key |
| C109 | bytes with a stream position and failed state, cells with unset bytes, against lists of records | loop over records by induction with the state of the read buffer as invariant; layout by separating grids |
| C110 | directory as a map of names to bytes; header of C74, data of C109 | generated names are injective; lookups after puts; first emplaced key wins |
| C111 | string streams over bytes against an inductive relation of words | each >> consumes the first word; failed streams stay failed; induction over the lines |
| C112 | file as bytes, lines, items, rows and the map with its index | relations for lines and items, induction over the lines, `Items` shown to be total and functional |
| C113 | bytes written line by line; refinement to the grammar of C111 and the groups of C73 | induction over polygons, holes and points; number texts by digits |
| C114 | `PrismT.infoOf`, `search`, `cellPower` over `Geom.Cut`, `PrismT.extract`, `stackLayers`, `PModel.build` | sums exchanged over blocks, layers and triangles; the bijection between elements and numbers; C26, C47, C53 reused |
| C115 | `Thermal/PrismGeoModel` | plane geometry over the reals (identity of Lagrange), then the calls of the builder |
| C116 | `Thermal/StackMeshModel` (with `Geom/CutModel`) | induction over the layers; pointers of the cut model shown to refine the model without pointers and never to fall |
| C117 | `WriteResult2File`, `WriteThermalProfile`, `GenerateTxtProfile` as bytes with the formats `%12.9f`, `fixed` and six significant digits | reading relation for words and numbers, digits by induction, `Int.log` |
| C118 | boxes per layer and union, instances read recursively over a list of layouts with remembered boundaries | induction over the depth of calls with the invariant that remembered boundaries are right; least boxes by order |
| C119 | lists of polygons from shapes, with the filters as written | membership by induction over the objects |
| C120 | Verif/Archive: object graphs as heaps of classes with named members, the serialize functions as tables, Save and Load with object tracking, SetDatabase, LoadDatabase | induction on the room for nested calls, on item lists and on member lists, with the final numbering of the objects fixed in advance; closure of the set of objects met; pigeonhole for termination |
| C121 | Verif/Thermal/PrismScaleModel: the two factors, the geometry of prisms and wires, monitors and block boxes | floor of the quotient of units, homogeneity of lengths, areas and distances from lines; induction on the segments of a wire |
| C122 | Verif/Thermal/DumpModel: the files of both solvers and the reader of transient results | induction on the rounds, the positions of sparse matrices, the results in the order of the grid and the lines read; texts of numbers from C114 |
| C123 | extraction, network builder and static solver together | composition of the refinement theorems; energy balance and maximum principle of the network |
| C124 | PrismModel, PrismPowerModel, NetModel, StaticModel | bounds of each block and segment, summed over elements; energy balance and maximum principle of the network |
| C125 | StackPrismModel, PrismPowerModel, NetModel, StaticModel | bounds of each block and segment, summed over elements by layer and triangle; energy balance and maximum principle of the network |
| C126 | NetModel | weak forms of the assembled system, comparison by the energy of the negative part, energy estimates between two networks |
| C127 | NetModel | energy decay: the weighted distance has the derivative minus twice the energy, which is bounded below by compactness of the unit sphere; comparison by the squared negative part |
| C128 | UserModel | properties of truncation towards zero; exact condition for moves; error bounds through the affine map of the placed component |
| C129 | StaticModel, NetModel | comparison principle of the network matrix gives a contraction in the maximum norm; Banach fixed point over the reals; induction over rounds |
| C130 | GridObjModel, GridModel, GridTModel | invariants over histories of calls; chain of neighbours; folds for extremes |
| C131 | XFL file to database | composition of the reader with the import steps; induction over sections, templates, vias, routes; exact condition for undefined behaviour |
| C132 | bytes of both files to flattened layouts, composing the reader, map file, import, shape and hierarchy models | induction over the depth of references, refinement through C44, C112 and C18 |
| C133 | text of the file -> tree -> extracted objects -> database with registry, cell, layers with materials and ids, nets | composition of C46, C108 and C72; induction over the map of layers |
| C134 | extraction, builder and solver models of C104, C62, C67 | the resistors of a network are a fold of the calls, related for two models call by call; heat flows and cooling per cell from C123; laws of networks from C126 |
| C135 | text, import, naming, layer map, padstack and dielectric layer models of C111, C73, C05, C06 joined into CreateDatabase | the layers after the import are those of ids in order of appearance (invariant over the records), twice as far apart after the insertion (spread with gaps of one); instances carried through the composed layer map |
| C136 | Verif/Thermal/CourseProps, Verif/Thermal/LayoutCourseProps: the networks of layouts over the reals and the derivative of the transient solver | variation of constants for existence; Lyapunov functions for comparison; networks of layouts by C134 |
| C137 | Verif/Thermal/ScenModel: the scenarios as Float32 and the rates of the full and the inputs of the reduced solver | rounding to nearest even over the naturals; the scenario each builder leaves at a node by folding over its calls |
| C138 | Verif/Thermal/PrismModel, PrismPowerModel (as C124) | networks of two models compared call by call of the builder: same nodes, resistances ordered, heat by block; then the laws of C126 |
| C139 | Verif/Thermal/StackPrismModel (as C125) | prisms of two models agree since their layers and triangles are the same sorted list; networks compared call by call of the builder; then the laws of C126 |
| C140 | Verif/Thermal/PrismModel (as C123) | networks of two models compared element by element (C138, C81); then linear differential equations, their comparison and decay (C127, C136) |
| C141 | Verif/Thermal/StackPrismModel (as C125) | as C140, with C139 in place of C138 |
| C142 | Verif/Thermal/MatModel | invariant over histories of calls on top of C91 and C92; networks of two models with the same values at the materials in use compared call by call |
| C143 | Verif/Thermal/LayoutPrismModel | composition of C96, C10, C26, C114, C124 and C125: the power blocks of the layer cut model are those of the components and joints, each once, and their layers exist |
| C144 | Verif/Geom/CutExModel, Verif/Thermal/LayoutPrismModel | the layer cut models under all settings are one family (induction over the objects of the layout), then C138–C141 |
| C145 | Verif/Thermal/NamedModel, Verif/Thermal/MatModel, Verif/Geom/CutExModel, Verif/Thermal/LayoutPrismModel | names are resolved object by object (induction over the layout), then C96, C142 and C143 |
| C146 | Verif/Thermal/SummaryModel, Verif/Thermal/GridTModel, Verif/Thermal/PrismModel, Verif/Thermal/StackPrismModel | induction over the calls: each changes the total heat flow by what it names less what it throws away; explicit schedules for the threads |
| C147 | Verif/Thermal/PrismModel, Verif/Thermal/StackPrismModel, Verif/Thermal/GridTModel | existence and uniqueness step by step from C136; comparison by induction over the steps; limits of monotone courses; model instances from C63, C78, C61, C81 and C129 |
| C148 | Verif/Design/CacheModel, Verif/Design/ExtractModel | both caches as one state; invariant over histories; refinement to the cache of C16 |
| C149 | Verif/Thermal/SketchModel, Verif/Design/CacheModel | files as a map; search by least free number; induction over series of extractions |
| C150 | Verif/Thermal/MidModel | the step as a polynomial of a linear operator; modes by the spectral theorem; squeeze between solutions |
| C151 | Verif/Thermal/PrismModel, StackPrismModel | closed form of the list of lines; sums over the calls |
| C152 | Verif/Thermal/EnvModel over StaticModel, TransientModel, MidModel | rows of the matrix sum to the transfer coefficients; induction over steps, samples and rounds |
| C153 | Sessions of imports (`Design/SessionModel.lean`): the registry of C15 with the four imports of C131-C135 as further calls |
| C154 | solver types, elimination, conjugate gradients on thermal networks |
| C155 | layouts written as chip thermal model files and read again |
| C156 | temperatures along bond wires |
| C157 | temperatures of an evenly heated stack |
| C158 | files of the polygon merger |
| C159 | lowest and highest temperature |

## 4. Axioms

Found with `#print axioms` for every theorem named in `MANIFEST.json` (put `import Verif` and one such line per
theorem into a file and run `lake env lean` on it in `/verif/lean`). No theorem uses another axiom than `propext`,
`Classical.choice` and `Quot.sound`.

* no axioms: `Db.c91_self_assign_refuted`, `Iter.c57_current`, `Pad.c32_solder`, `c49_reverse_refuted`
* only `propext`: `Arc.c120_members`, `Arc.c120_transform`, `Arc.c120_transform_refuted`, `Conn.c20_no_layers`, `CutEx.c96_orientation`, `GridT.c33_empty`, `GridT.c55_twice_refuted`, `Hier.c18_cycle`, `Iter.c17_complex_partial`, `Iter.c17_complex_visits`, `Iter.c17_iterators`, `Iter.c57_hierarchy_partial`, `Layer.c05_empty_stack_ub`, `Mount.c94_same_name_refuted`, `Sim.c100_simulator`, `Util.c24_one_segment_short`
* only `propext, Quot.sound`: `Arc.c120_files`, `Bdy.c118_fresh`, `Bdy.c118_null_refuted`, `Bdy.c119_insts_refuted`, `Cache2.c148_cut_keeps`, `Cache2.c148_first_refuted`, `Cache2.c148_forced_refuted`, `Cache2.c148_grid`, `Cache2.c148_other`, `Cache2.c148_prism`, `Cache2.c148_refines`, `Cache2.c148_unchanged_partial`, `Coll.c02_copy`, `Coll.c02_models`, `Copy.c93_copy_partial`, `Copy.c93_dangling`, `Copy.c93_far_refuted`, `Copy.c93_renamed_refuted`, `Ctm.c109_empty_refuted`, `Ctm.c39_decrypt`, `Ctm.c39_encrypt`, `Ctm.c39_linefeed_refuted`, `Ctm.c40_cycle_refuted`, `Ctm.c40_last`, `Ctm.c40_metal`, `Ctm.c40_via`, `Ctm.c74_none_refuted`, `Ctm.c75_adjacent_refuted`, `Ctm.c75_many`, `Ctm.c75_one`, `Ctm.c75_table`, `Db.c91_create`, `Db.c91_dictionary_partial`, `Db.c92_copy_refuted`, `Dmc.c135_boundary_refuted`, `Dmc.c52_shapes`, `Dmc.c52_short_refuted`, `Env.c152_ignored`, `Env.c152_rebuilt`, `Env.c152_unit`, `Extract.c16_extract_partial`, `Extract.c16_failed_generation_refuted`, `Extract.c16_kinds`, `Extract.c16_nets_ignored_refuted`, `Extract.c16_stale_layout`, `Gds.c42_endless`, `Gds.c43_types`, `Gds.c45_array_partial`, `Gds.c68_reference_refuted`, `Gds.c70_mirror_refuted`, `Gds.c70_unknown_refuted`, `Gds.c80_references`, `Gds.c80_shapes_partial`, `Gds.c80_text_refuted`, `GridObj.c130_range_refuted`, `GridObj.c130_scale_refuted`, `GridObj.c130_thickness_refuted`, `GridT.c55_few_refuted`, `Iter.c17_empty_stops_refuted`, `Iter.c57_component_hidden_refuted`, `KiCad.c108_points_refuted`, `Mat.c142_copied_refuted`, `Mat.c142_copy_refuted`, `Netlist.c101_names`, `PMerge.c158_png_refuted`, `PMerge.c98_dielectric_refuted`, `Pad.c32_ids_partial`, `Pad.c32_layers`, `Pad.c32_names`, `Pad.c32_negative_refuted`, `Query.c37_empty`, `Query.c38_values`, `Query.c66_empty_layer_refuted`, `Reduce.c35_block_refuted`, `Reduce.c35_grid_partial`, `Registry.c15_returns`, `Shp.c82_holes`, `Shp.c82_polygons_partial`, `Shp.c84_layers`, `Shp.c84_place_act`, `Shp.c84_place_partial`, `Sim.c100_empty_refuted`, `Sim.c100_grid_refuted`, `Sim.c100_layout`, `Sim.c100_refused`, `Sim.c100_stale_refuted`, `Sim.c100_transient`, `Sim.c100_unsolved`, `Summary.c146_grid_heat`, `Thermal.Range.c159_range`, `Thermal.c28_new`, `Thermal.c28_ok`, `Util.c23_component`, `Util.c23_layer`, `Util.c24_min_seg`, `Util.c24_single_point`, `Util.c59_no_component`, `Util.c59_solder_joint`, `Vtk.c102_templates`, `Wall.even_flux`, `Xfl.c86_void_flag`, `Xfl.c86_voids_refuted`, `Xfl.c88_place`, `Xfl.c89_duplicate_refuted`, `Xfl.c89_pad_layer_partial`, `Xfl.c89_pad_layer_refuted`, `Xfl.c90_outline_partial`, `Xfl.c90_template_refuted`, `c11_set_ignored_refuted`, `c11_set_partial`, `c12_tensor_views_refuted`, `c12_views_partial`, `c13_reads_matter_refuted`, `c48_set_ignored_refuted`, `c48_set_partial`, `c49_reverse_partial`
* all three: the other 740 theorems of `MANIFEST.json`.

## 5. What is modelled

Lines of `/repo` cited by the definitions of the model, per file (collected from the comments; gaps of up to three
lines are closed). What is not listed is not modelled. Parts of cited functions that are left out are named in the
comment of the definition.

| file | lines in file | modelled | in |
|------|------|------|------|
| src/EDataMgr.cpp | 400 | 38-94, 121-130, 167-186, 228-234, 248-314, 323-345, 354-358, 380-383 | Archive/Model, Design/RegistryModel, Design/SessionModel, Design/UserModel, Gds/DesignModel, KiCad/ImportModel, Thermal/MatModel |
| src/basic/ECadAlias.h | 86 | 34, 72-73 | Dmc/FileModel, KiCad/ImportModel, Xfl/Model |
| src/basic/ECadDef.h | 248 | 64-76, 85-88, 148-154, 246 | Basic/PadModel, Hier/Model, Layer/MapModel, Thermal/GridTModel, Thermal/LayoutPrismModel, Thermal/MatModel, Util/WireModel |
| src/basic/ECadSettings.h | 555 | 51-71, 95-104, 108-121, 140-154, 173-188, 208-223, 228-310, 337-352, 372-374, 379-382, 390-400, 406-465, 469-527 | Design/ExtractModel, Thermal/DumpModel, Thermal/EnvModel, Thermal/GridExtModel, Thermal/GridTModel, Thermal/LinSolveModel, Thermal/SimModel, Thermal/TransientModel, Util/MergerModel |
| src/basic/ECadUnits.h | 262 | 113-131, 147-150, 162-165, 172-184, 196-219, 226-259 | Basic/SmallModel, Design/UserModel, Gds/ReaderModel, Thermal/EnvModel, Thermal/GridExtModel, Thermal/GridPowerModel, Thermal/PrismScaleModel, Xfl/ImportModel |
| src/basic/ECadVersion.h | 42 | 7-21, 28-36 | Archive/Model, Basic/SmallModel |
| src/basic/ECollection.h | 331 | 45-51, 61-88, 95, 113-233, 241-247, 291-329 | Archive/Model, Collection/Model, Design/CopyModel, Design/DatabaseModel, Design/IterModel, Naming/Model |
| src/basic/ELookupTable.h | 122 | 9-20, 37-40, 47-50, 65-73, 90-107 | Archive/Model, Basic/LookupModel, Basic/SmallModel, Thermal/LayoutPrismModel |
| src/basic/EShape.cpp | 377 | 18-79, 83-103, 116-119, 126-157, 164-167, 190-216, 222-225, 238-263, 270-273, 290-313, 320-323, 333-365, 370-374 | Archive/Model, Shape/Model |
| src/basic/EShape.h | 188 | 36-188 | Archive/Model, Shape/Model |
| src/basic/ETransform.h | 132 | 8-34, 55-61, 65, 70-130 | Archive/Model, Basic/SmallModel, Design/UserModel, Gds/DesignModel, Gds/ReaderModel, Shape/Model, Shape/PadInst, Xfl/Model |
| src/basic/EUidGenerator.h | 28 | 22-25 | Net/Model |
| src/basic/protocol/Clonable.h | 34 | 18-23 | Design/CopyModel |
| src/basic/protocol/Transformable.h | 27 | 13-21 | Design/MountModel, Gds/DesignModel |
| src/collection/ECellCollection.cpp | 86 | 10-16, 63-69 | Archive/Model, Design/CopyModel |
| src/collection/ECellInstCollection.cpp | 70 | 10-16, 46-53 | Archive/Model, Gds/DesignModel |
| src/collection/ECollectionCollection.cpp | 249 | 25-30, 48-137, 244-248 | Archive/Model, Design/CopyModel, Design/DatabaseModel |
| src/collection/EComponentCollection.cpp | 84 | 9-15, 39-60, 67-72 | Archive/Model, Design/CopyModel, Design/MountModel, Hier/Model |
| src/collection/EComponentDefCollection.cpp | 98 | 11-18, 65-71 | Archive/Model, Design/CopyModel |
| src/collection/EComponentDefPinCollection.cpp | 84 | 9-15, 39-62 | Archive/Model, Design/MountModel |
| src/collection/EConnObjCollection.cpp | 131 | 15-21, 70-74, 103-115 | Archive/Model, Design/IterModel |
| src/collection/EDefinitionCollection.cpp | 121 | 63-114 | Archive/Model, Design/CopyModel, Design/DatabaseModel |
| src/collection/EHierarchyObjCollection.cpp | 130 | 14-20, 69-73, 102-114 | Archive/Model, Design/IterModel |
| src/collection/ELayerCollection.cpp | 158 | 11-17, 41-90, 111-137, 144-156 | Archive/Model, Gds/DesignModel, Geom/CutExModel, KiCad/ImportModel, Layer/Model, Util/UtilModel |
| src/collection/ELayerMapCollection.cpp | 97 | 11-18, 42-57, 65-71 | Archive/Model, Design/CopyModel, Design/DatabaseModel |
| src/collection/EMaterialDefCollection.cpp | 109 | 11-19, 32-81, 94-98 | Archive/Model, Design/CopyModel, Design/DatabaseModel |
| src/collection/EMaterialDefCollection.h | 45 | 42 | Archive/Model |
| src/collection/EModelCollection.cpp | 61 | 9-15, 39-49 | Archive/Model, Collection/Model, Design/CacheModel, Design/ExtractModel |
| src/collection/ENetCollection.cpp | 119 | 9-16, 29-78, 91-96, 103-112 | Archive/Model, Naming/Model, Net/Model |
| src/collection/ENetCollection.h | 49 | 44-45 | Archive/Model |
| src/collection/EPadstackDefCollection.cpp | 87 | 10-17, 64-70 | Archive/Model, Design/CopyModel |
| src/collection/EPadstackInstCollection.cpp | 98 | 13-19, 62-85 | Archive/Model, Layer/Model |
| src/collection/EPrimitiveCollection.cpp | 109 | 11-17, 72-84, 91-97 | Archive/Model, Gds/DesignModel, Gds/ReaderModel, Layer/Model, Util/UtilModel |
| src/design/ECell.cpp | 139 | 11-19, 43-55, 84-89, 99-104, 133-137 | Archive/Model, Design/CopyModel, Hier/Model |
| src/design/ECell.h | 80 | 37-38 | Archive/Model |
| src/design/ECellInst.cpp | 85 | 11-19, 69-72 | Archive/Model, Hier/Model |
| src/design/ECellInst.h | 43 | 9, 37-40 | Archive/Model, Design/CopyModel, Design/IterModel |
| src/design/EComponent.cpp | 157 | 12-23, 82-90, 107-124, 136-146 | Archive/Model, Design/BoundaryModel, Design/MountModel, Design/UserModel, Thermal/GridPowerModel |
| src/design/EComponent.h | 68 | 7, 49-56 | Archive/Model, Design/CopyModel, Design/IterModel, Design/MountModel, Layer/Model |
| src/design/EComponentDef.cpp | 160 | 11-24, 45-57 | Archive/Model, Design/CopyModel |
| src/design/EComponentDef.h | 69 | 10, 55-60 | Archive/Model, Thermal/NamedModel |
| src/design/EComponentDefPin.cpp | 77 | 9-19 | Archive/Model |
| src/design/EComponentDefPin.h | 46 | 33-37 | Archive/Model, Design/CopyModel, Design/MountModel |
| src/design/EConnObj.cpp | 37 | 10-17 | Archive/Model |
| src/design/EConnObj.h | 36 | 22 | Archive/Model |
| src/design/EDatabase.cpp | 303 | 22-36, 46-54, 60-131, 150-161, 190-209, 216-228, 235-257, 264-276, 298-301 | Archive/Model, Design/CopyModel, Design/DatabaseModel, Gds/DesignModel, Thermal/MatModel |
| src/design/EDatabase.h | 90 | 75-76 | Archive/Model |
| src/design/EDefinition.cpp | 51 | 9-16, 26-43 | Archive/Model, Design/DatabaseModel |
| src/design/EDefinition.h | 54 | 29 | Archive/Model |
| src/design/EHierarchyObj.cpp | 53 | 11-19, 48-51 | Archive/Model, Design/MountModel |
| src/design/EHierarchyObj.h | 31 | 25-28 | Archive/Model, Design/CopyModel |
| src/design/ELayer.cpp | 185 | 10-18, 28-33, 66-76, 157-165 | Archive/Model, Layer/Model |
| src/design/ELayer.h | 88 | 25-26, 63-66, 81-82 | Archive/Model, Thermal/NamedModel |
| src/design/ELayerMap.cpp | 87 | 9-16, 23-31, 52-85 | Archive/Model, Layer/MapModel |
| src/design/ELayerMap.h | 50 | 9, 36 | Archive/Model, Layer/MapModel |
| src/design/ELayoutView.cpp | 421 | 40-48, 69-93, 175-181, 205-243, 290-300, 320-385 | Archive/Model, Design/BoundaryModel, Design/CacheModel, Design/CopyModel, Design/ExtractModel, Hier/Model, Layer/Model, Thermal/SimModel, Thermal/SketchModel, Util/MergerModel |
| src/design/ELayoutView.h | 149 | 10, 134-135 | Archive/Model |
| src/design/EMaterialDef.cpp | 95 | 8-17, 27-30, 41-51, 63-83 | Archive/Model, Basic/SmallModel, Design/CopyModel, Design/DatabaseModel, Thermal/MatModel |
| src/design/EMaterialDef.h | 50 | 33-36 | Archive/Model, Thermal/MatModel |
| src/design/EMaterialProp.cpp | 254 | 11-77, 93-142, 149-160, 168-195, 206-235 | Archive/Model, Basic/SmallModel, Thermal/MatModel |
| src/design/EMaterialProp.h | 120 | 58, 76-77, 85-86, 113 | Archive/Model, Thermal/MatModel |
| src/design/ENet.cpp | 49 | 8-15 | Archive/Model |
| src/design/ENet.h | 43 | 24 | Archive/Model |
| src/design/EObject.cpp | 69 | 8-16, 42-46 | Archive/Model, Design/DatabaseModel |
| src/design/EObject.h | 72 | 40-41 | Archive/Model |
| src/design/EPadstackDef.cpp | 69 | 9-16, 42-47 | Archive/Model, Design/CopyModel |
| src/design/EPadstackDef.h | 41 | 32 | Archive/Model |
| src/design/EPadstackDefData.cpp | 239 | 12-55, 109-155, 164-228, 232-239 | Archive/Model, Basic/PadModel |
| src/design/EPadstackDefData.h | 106 | 18-57, 96-99 | Archive/Model, Basic/PadModel, Thermal/NamedModel |
| src/design/EPadstackInst.cpp | 124 | 12-24, 88-121 | Archive/Model, Shape/PadInst |
| src/design/EPadstackInst.h | 56 | 9, 38-39, 47-53 | Archive/Model, Design/CopyModel, Design/IterModel |
| src/design/EPrimitive.cpp | 464 | 19-27, 120-127, 175-178, 189-207, 216-220, 248-264, 276-295, 303-314, 336-351, 358-363, 400-405, 419-427, 437-442 | Archive/Model, Design/MountModel, Gds/DesignModel, Gds/ReaderModel, Hier/Model, Util/UtilModel, Util/WireModel |
| src/design/EPrimitive.h | 171 | 8, 38-39, 65, 124-141, 162-163 | Archive/Model, Design/CopyModel, Design/IterModel, Design/MountModel, Thermal/NamedModel |
| src/extension/ECadExtension.cpp | 33 | 9-31 | Design/SessionModel |
| src/extension/dmcdom/ECadExtDmcDomHandler.cpp | 238 | 16-62, 67-236 | Dmc/DesignModel, Dmc/FileModel, Dmc/Model |
| src/extension/dmcdom/ECadExtDmcDomHandler.h | 45 | 11-23 | Dmc/FileModel, Dmc/Model |
| src/extension/gds/ECadExtGdsHandler.cpp | 225 | 19-215 | Design/SessionModel, Gds/DesignModel, Gds/MapFileModel, Gds/ReaderModel |
| src/extension/gds/EGdsFileIO.cpp | 275 | 28-57, 64-271 | Gds/ReaderModel |
| src/extension/gds/EGdsLayerMap.cpp | 86 | 15-32, 43-80 | Gds/MapFileModel |
| src/extension/gds/EGdsLayerMap.h | 52 | 11-33 | Gds/MapFileModel, Gds/ReaderModel |
| src/extension/gds/EGdsObjects.h | 244 | 31-185, 212-220 | Gds/ReaderModel |
| src/extension/gds/EGdsParser.cpp | 307 | 11-18, 41-292 | Gds/ParserModel |
| src/extension/gds/EGdsParser.h | 36 | 26-31 | Gds/ParserModel |
| src/extension/gds/EGdsRecords.h | 329 | 244-318 | Gds/ParserModel |
| src/extension/kicad/ECadExtKiCadHandler.cpp | 397 | 11-74, 82-112, 121-126, 136-387 | KiCad/BoardModel, KiCad/ImportModel, KiCad/ObjModel |
| src/extension/kicad/ECadExtKiCadHandler.h | 117 | 57-75, 91-112 | KiCad/ObjModel |
| src/extension/kicad/EKiCadObjects.cpp | 115 | 6-62, 74-91, 107-112 | KiCad/BoardModel, KiCad/ObjModel |
| src/extension/kicad/EKiCadObjects.h | 202 | 37-71, 82-146, 159-201 | KiCad/BoardModel, KiCad/ObjModel |
| src/extension/kicad/EKiCadParser.cpp | 116 | 21-114 | KiCad/ParserModel |
| src/extension/kicad/EKiCadParser.h | 31 | 8-12 | KiCad/ParserModel |
| src/extension/xfl/ECadExtXflHandler.cpp | 494 | 18-74, 86-390, 397, 406-490 | Design/SessionModel, Xfl/ImportModel, Xfl/Model |
| src/extension/xfl/ECadExtXflHandler.h | 61 | 54-57 | Xfl/Model |
| src/extension/xfl/EXflObjects.h | 455 | 16-59, 63-137, 145-346, 370-418 | Xfl/ImportModel, Xfl/Model, Xfl/ParserModel |
| src/extension/xfl/EXflParser.h | 597 | 67-103, 186-327, 331-407, 413-462, 479-591 | Xfl/ImportModel, Xfl/ParserModel |
| src/extraction/geometry/EGeometryModelExtraction.cpp | 145 | 15-145 | Design/CacheModel, Geom/CutExModel, Thermal/NamedModel, Util/WireModel |
| src/extraction/thermal/EThermalModelExtraction.cpp | 480 | 22-160, 183-479 | Design/CacheModel, Design/ExtractModel, Thermal/GridExtModel, Thermal/GridPowerModel, Thermal/LayoutPrismModel, Thermal/MatModel, Thermal/NamedModel, Thermal/PrismModel, Thermal/PrismPowerModel, Thermal/PrismScaleModel, Thermal/SketchModel, Thermal/StackMeshModel, Thermal/StackPrismModel |
| src/model/geometry/ELayerCutModel.cpp | 203 | 10-27, 45-112, 119-132, 139-155, 159-200 | Archive/Model, Geom/CutExModel, Geom/CutModel, Geom/Round, Thermal/StackMeshModel |
| src/model/geometry/ELayerCutModel.h | 136 | 18-84, 100-107, 111, 116-131 | Archive/Model, Design/CacheModel, Geom/CutExModel, Geom/CutModel, Thermal/LayoutPrismModel, Thermal/PrismPowerModel, Thermal/PrismScaleModel |
| src/model/geometry/utils/ELayerCutModelBuilder.cpp | 105 | 12, 16-75, 82-88 | Geom/CutExModel, Geom/CutModel, Thermal/NamedModel |
| src/model/geometry/utils/ELayerCutModelQuery.cpp | 44 | 24-40 | Geom/CutModel, Thermal/PrismPowerModel |
| src/model/thermal/EChipThermalModel.cpp | 172 | 53-169 | Ctm/StackModel |
| src/model/thermal/EChipThermalModel.h | 89 | 8-14, 21-41, 50-57 | Ctm/DataModel, Ctm/HeaderModel, Ctm/StackModel, Thermal/ReduceModel |
| src/model/thermal/EGridThermalModel.cpp | 378 | 27-119, 126-129, 140-175, 197-216, 223-239, 245-259, 266-274, 281-286, 300-327, 339-342, 349-353, 373-376 | Ctm/GridModel, Design/ExtractModel, Thermal/GridExtModel, Thermal/GridObjModel, Thermal/GridTModel, Thermal/ProfileModel, Thermal/StaticModel |
| src/model/thermal/EGridThermalModel.h | 153 | 14-140 | Archive/Model, Ctm/GridModel, Thermal/GridObjModel, Thermal/GridTModel, Thermal/ProfileModel, Thermal/SimModel |
| src/model/thermal/EPrismThermalModel.cpp | 221 | 15-31, 42, 48-56, 73-188, 193-219 | Archive/Model, Design/ExtractModel, Thermal/LayoutPrismModel, Thermal/PrismGeoModel, Thermal/PrismModel, Thermal/PrismScaleModel, Thermal/QueryModel, Thermal/VtkModel |
| src/model/thermal/EPrismThermalModel.h | 301 | 26-118, 139-162, 171, 200, 207, 214-243, 250-253, 260-286 | Archive/Model, Thermal/PrismGeoModel, Thermal/PrismModel, Thermal/PrismScaleModel, Thermal/SimModel, Thermal/StackPrismModel, Thermal/StaticModel, Thermal/VtkModel |
| src/model/thermal/EStackupPrismThermalModel.cpp | 39 | 11-16, 30-37 | Archive/Model, Thermal/QueryModel |
| src/model/thermal/EStackupPrismThermalModel.h | 31 | 26 | Thermal/SimModel |
| src/model/thermal/EThermalModel.cpp | 86 | 9-15, 50-55, 67-83 | Archive/Model, Basic/SmallModel, Thermal/GridTModel |
| src/model/thermal/EThermalModel.h | 109 | 28-34, 60-105 | Archive/Model, Ctm/DataModel, Thermal/GridTModel, Thermal/SimModel |
| src/model/thermal/io/EChipThermalModelIO.cpp | 533 | 15-109, 158-514 | Ctm/DataModel, Ctm/HeaderModel |
| src/model/thermal/io/EGridThermalModelIO.cpp | 95 | 16-74 | Thermal/ProfileModel |
| src/model/thermal/io/EPrismThermalModelIO.cpp | 73 | 6-68 | Thermal/VtkModel |
| src/model/thermal/io/EThermalModelIO.cpp | 187 | 17-185 | Ctm/GridModel, Ctm/LayoutPackModel |
| src/model/thermal/utils/EPrismThermalModelQuery.cpp | 89 | 39-50, 69-85 | Thermal/QueryModel |
| src/model/thermal/utils/EStackupPrismThermalModelBuilder.cpp | 143 | 20-58, 63-97, 134-141 | Thermal/StackPrismModel, Thermal/VtkModel |
| src/model/thermal/utils/EStackupPrismThermalModelQuery.cpp | 80 | 27-57, 66-77 | Thermal/QueryModel, Thermal/StackPrismModel |
| src/model/thermal/utils/EThermalModelReduction.cpp | 201 | 19-43, 54-89, 102-111, 119-128, 133-197 | Thermal/ReduceModel |
| src/model/thermal/utils/EThermalModelReduction.h | 52 | 8 | Thermal/ReduceModel |
| src/simulation/thermal/EThermalSimulation.cpp | 194 | 24-86, 97-110, 130-143, 164-177 | Thermal/SimModel |
| src/solver/thermal/EThermalNetworkSolver.cpp | 367 | 16-88, 100-201, 213-261, 285-301, 332-348 | Thermal/DumpModel, Thermal/EnvModel, Thermal/MidModel, Thermal/QueryModel, Thermal/ScenModel, Thermal/SimModel, Thermal/StaticModel, Thermal/TransientModel |
| src/solver/thermal/EThermalNetworkSolver.h | 126 | 30 | Thermal/ScenModel |
| src/solver/thermal/network/ThermalNetwork.h | 327 | 19-41, 49-52, 61-69, 81-150, 162-188, 196-238, 249-255, 271-276, 296-303, 308-323 | Thermal/LinSolveModel, Thermal/MorModel, Thermal/NetModel, Thermal/OpsModel, Thermal/QueryModel, Thermal/RangeModel, Thermal/TransientModel |
| src/solver/thermal/network/ThermalNetworkSolver.h | 451 | 34-99, 140-180, 191-229, 239-259, 264-445 | Thermal/BondsModel, Thermal/DumpModel, Thermal/EnvModel, Thermal/LinSolveModel, Thermal/MidModel, Thermal/MorModel, Thermal/NetModel, Thermal/QueryModel, Thermal/ScenModel, Thermal/StaticModel, Thermal/TransientModel |
| src/solver/thermal/network/utils/BoundaryNodeReduction.h | 42 | 11-12, 18-37 | Thermal/BondsModel |
| src/solver/thermal/network/utils/ThermalNetlistWriter.h | 93 | 28-84 | Thermal/NetlistModel |
| src/solver/thermal/utils/EGridThermalNetworkBuilder.cpp | 366 | 7, 15-224, 240-254, 263-298, 306-348 | Thermal/GridTModel, Thermal/SummaryModel |
| src/solver/thermal/utils/EGridThermalNetworkBuilder.h | 132 | 17, 65-99, 113-117 | Thermal/GridTModel |
| src/solver/thermal/utils/EPrismThermalNetworkBuilder.cpp | 394 | 20-51, 60-152, 159-196, 200-303, 311-389 | Thermal/LayoutPrismModel, Thermal/MatModel, Thermal/PrismGeoModel, Thermal/PrismModel, Thermal/PrismScaleModel, Thermal/StackPrismModel, Thermal/SummaryModel |
| src/solver/thermal/utils/EStackupPrismThermalNetworkBuilder.cpp | 225 | 21-221 | Thermal/MatModel, Thermal/PrismScaleModel, Thermal/StackPrismModel, Thermal/SummaryModel |
| src/solver/thermal/utils/EThermalNetworkBuilder.h | 23 | 6-13 | Thermal/SummaryModel |
| src/utility/EFlattenUtility.cpp | 82 | 11-25, 67-79 | Hier/Model |
| src/utility/ELayout2CtmUtility.cpp | 93 | 27-92 | Ctm/LayoutModel, Ctm/LayoutPackModel |
| src/utility/ELayoutConnectivity.cpp | 127 | 20-124 | Util/ConnModel |
| src/utility/ELayoutMergeUtility.cpp | 121 | 8-118 | Gds/DesignModel, Hier/Model |
| src/utility/ELayoutModifier.cpp | 32 | 6-29 | Util/UtilModel |
| src/utility/ELayoutPolygonMerger.cpp | 325 | 21-322 | Dmc/WriteModel, Util/MergerFilesModel, Util/MergerModel, Util/UtilModel |
| src/utility/ELayoutRetriever.cpp | 337 | 14-35, 42-334 | Design/BoundaryModel, Thermal/NamedModel, Thermal/QueryModel, Util/UtilModel, Util/WireModel |
| src/utility/ELayoutViewRenderer.cpp | 86 | 30-77 | Design/BoundaryModel |
| src/utility/EMetalFractionMapping.cpp | 313 | 30-87, 106-147, 182-310 | Ctm/LayoutModel, Geom/GridModel, Geom/Round, Thermal/ProfileModel |
| src/utility/EMetalFractionMapping.h | 92 | 42-65 | Geom/GridModel, Thermal/GridExtModel, Thermal/ProfileModel |

Not modelled at all:

src/EDataMgr.h (135), src/basic/ECadCommon.h (9), src/basic/ECadConfig.h (29), src/basic/ECadSerialization.h (44), src/basic/Protocol.h (3), src/basic/protocol/Printable.h (24), src/collection/ECellCollection.h (41), src/collection/ECellInstCollection.h (37), src/collection/ECollectionCollection.h (67), src/collection/EComponentCollection.h (40), src/collection/EComponentDefCollection.h (41), src/collection/EComponentDefPinCollection.h (35), src/collection/EConnObjCollection.h (57), src/collection/EDefinitionCollection.h (32), src/collection/EHierarchyObjCollection.h (56), src/collection/ELayerCollection.h (46), src/collection/ELayerMapCollection.h (41), src/collection/EModelCollection.h (36), src/collection/EPadstackDefCollection.h (40), src/collection/EPadstackInstCollection.h (41), src/collection/EPrimitiveCollection.h (46), src/extension/ECadExtension.h (14), src/extension/gds/ECadExtGdsHandler.h (45), src/extension/gds/EGdsFileIO.h (56), src/extraction/geometry/EGeometryModelExtraction.h (14), src/extraction/thermal/EThermalModelExtraction.h (16), src/interface/ICell.h (27), src/interface/ICellCollection.h (17), src/interface/ICellInst.h (25), src/interface/ICellInstCollection.h (21), src/interface/ICollection.h (16), src/interface/IComponent.h (45), src/interface/IComponentCollection.h (22), src/interface/IComponentDef.h (41), src/interface/IComponentDefCollection.h (16), src/interface/IComponentDefPin.h (27), src/interface/IComponentDefPinCollection.h (22), src/interface/IConnObj.h (13), src/interface/IConnObjCollection.h (20), src/interface/IDatabase.h (69), src/interface/IDefinition.h (16), src/interface/IDefinitionCollection.h (21), src/interface/IHierarchyObj.h (12), src/interface/IHierarchyObjCollection.h (20), src/interface/IIterator.h (48), src/interface/ILayer.h (51), src/interface/ILayerCollection.h (25), src/interface/ILayerMap.h (22), src/interface/ILayerMapCollection.h (16), src/interface/ILayoutView.h (142), src/interface/IMaterialDef.h (25), src/interface/IMaterialDefCollection.h (17), src/interface/IMaterialProp.h (62), src/interface/IModel.h (13), src/interface/IModelCollection.h (17), src/interface/INet.h (16), src/interface/INetCollection.h (21), src/interface/IPadstackDef.h (19), src/interface/IPadstackDefCollection.h (17), src/interface/IPadstackDefData.h (37), src/interface/IPadstackInst.h (30), src/interface/IPadstackInstCollection.h (28), src/interface/IPrimitive.h (108), src/interface/IPrimitiveCollection.h (29), src/interface/Interface.h (37), src/model/geometry/utils/ELayerCutModelBuilder.h (42), src/model/geometry/utils/ELayerCutModelQuery.h (26), src/model/thermal/io/EChipThermalModelIO.h (29), src/model/thermal/io/EGridThermalModelIO.h (13), src/model/thermal/io/EPrismThermalModelIO.h (9), src/model/thermal/io/EThermalModelIO.h (10), src/model/thermal/traits/EThermalModelTraits.h (34), src/model/thermal/utils/EPrismThermalModelQuery.h (34), src/model/thermal/utils/EStackupPrismThermalModelBuilder.h (28), src/model/thermal/utils/EStackupPrismThermalModelQuery.h (34), src/simulation/thermal/EThermalSimulation.h (64), src/solver/thermal/network/test/test.cpp (69), src/solver/thermal/utils/EPrismThermalNetworkBuilder.h (53), src/solver/thermal/utils/EStackupPrismThermalNetworkBuilder.h (24), src/utility/EFlattenUtility.h (40), src/utility/ELayout2CtmUtility.h (22), src/utility/ELayoutConnectivity.h (16), src/utility/ELayoutMergeUtility.h (16), src/utility/ELayoutModifier.h (21), src/utility/ELayoutPolygonMerger.h (49), src/utility/ELayoutRetriever.h (45), src/utility/ELayoutViewRenderer.h (24)

## 6. Properties the code does not have

For each property with status `partial`: what is refuted (theorems `…_refuted`) and what is missing, from `MANIFEST.json`.

* C04 (A copied net collection keeps ids unique): False of the code in general (the copied id generator restarts at zero); the negation is proved with a witness and the part that holds is the partial theorem. Refutations: `c04_copy_collides_refuted`.
* C06 (Objects stay on their layer when dielectric layers are inserted): Primitive layers and padstack layer maps follow; bondwire end layers and component placement layers are not renumbered (refuted). Refutations: `Layer.c06_unmapped_refuted`.
* C11 (Setting a material property takes effect): False of the code for a second setting of the same property; the negation is proved for every history. Refutations: `c11_set_ignored_refuted`.
* C12 (Material property accessors agree): False of the code for nine components and for off-diagonal entries of simple values. Refutations: `c12_tensor_views_refuted`.
* C13 (Reading a transform does not change it): False of the code: compositions onto a read transform are lost when a component is set afterwards; negation proved for every matrix library. Refutations: `c13_reads_matter_refuted`.
* C48 (A uniform boundary condition can be changed): False of the code for a second setting. Refutations: `c48_set_ignored_refuted`.
* C49 (Two-way maps stay consistent): False of the code when keys are reused. Refutations: `c49_reverse_refuted`.
* C16 (Extraction never returns a model of other settings): False of the code for grid models of other nets and for failing generations; both negations are proved in general. The generation of prism models also reads the layer cut model the layout keeps; C148 shows that the code is this cache with the layout and that model in place of the layout, and what this means for forced extractions. Refutations: `Extract.c16_nets_ignored_refuted`, `Extract.c16_failed_generation_refuted`.
* C17 (Iterators visit every element once): Proved for all iterators in use; false for the iterator over sub-collections behind an empty one. Refutations: `Iter.c17_empty_stops_refuted`.
* C57 (Current shows what Next will return): False of the code for components in the hierarchy iterator. Refutations: `Iter.c57_component_hidden_refuted`.
* C20 (Connectivity extraction groups objects into nets): The grouping is proved for every layout with a layer and every partition; bondwires and other bystanders keep net ids which may then belong to a new, unrelated net, and a layout without stackup layers is undefined behaviour. Refutations: `Conn.c20_bystander_refuted`.
* C21 (Merging polygons replaces exactly the merged primitives): False of the code for some traversal orders: general families of counterexamples are given, one of them ascending. For which orders it holds is shown exactly (c21_exact). Partial because the claim for all orders is false. Refutations: `Util.c21_order_refuted`, `Util.c21_ascending_refuted`.
* C58 (Bond wire refinement by length ends within the length): Proved for every length of at least two grid units; with one grid unit the loop may run for ever. The last segment always has length zero. Refutations: `Util.c58_unit_length_refuted`.
* C25 (Every point of the layout falls in a tile of the grid): Proved for points of the stored region off its upper bounds. False on the upper bounds (index one past the end), for layouts whose rounded tiles stop short of the far edge, and for zero strides (division by zero). Refutations: `Geom.c25_bound_refuted`, `Geom.c25_cover_refuted`, `Geom.c25_zero_stride_refuted`.
* C27 (Slicing thick layers ends and preserves the stack): Result proved right whenever slicing ends; it ends for ratios of at least three, and provably does not for some inputs with smaller ratios, the default two included. Refutations: `Geom.c27_two_refuted`, `Geom.c27_three_refuted`.
* C51 (Reducing boundary nodes conserves heat transfer): The reduced network is right whenever the loop finishes without touching a dangling reference; that it may touch one is proved. Refutations: `Thermal.c51_dangling_refuted`.
* C55 (Tile power tables are respected): The interpolator of boost enters by its contract. False for tables of two or three samples (exception, then a null pointer) and for a sample given twice. Refutations: `GridT.c55_few_refuted`, `GridT.c55_twice_refuted`.
* C61 (Elements of a grid network have the values of their geometry and material): Right in y and z direction and for pure metal cells; false in x direction, for mixed cells and for bond wires. Refutations: `GridT.c61_x_refuted`, `GridT.c61_capacity_refuted`, `GridT.c61_wire_refuted`.
* C47 (Boundary conditions do not destroy heat sources): Grid and prism builders: the heat of an element is the last value written, so that a flux replaces the power sources; right only for elements with at most one source. Refutations: `GridT.c47_grid_refuted`, `PrismT.c47_prism_refuted`.
* C65 (Resistances between prisms are those of the two parts in series): Right across layers; within a layer exactly when the line between the centres is perpendicular to the common side, otherwise the value is another one and depends on the numbering. Refutations: `PrismT.c65_side_refuted`, `PrismT.c65_order_refuted`.
* C32 (Pad parameters are only read for layers of the padstack): Right for ids from -1 on and for names; every id below -1, the component layer for example, goes outside of the vector. Refutations: `Pad.c32_negative_refuted`.
* C35 (Reducing a thermal model conserves power): Powers and chip models: proved for every size. Averages: proved for one of the two possible numberings of the external grid type. Maximum and minimum start from zero and are wrong for blocks of one sign; grid models with power sources are doubled or undefined. Refutations: `Reduce.c35_numbering_refuted`, `Reduce.c35_extremes_refuted`, `Reduce.c35_grid_refuted`, `Reduce.c35_block_refuted`.
* C37 (A height query finds the layer containing the height): A height equal to the top of the stack is given to the bottom layer by the prism model. Refutations: `Query.c37_top_refuted`.
* C66 (Monitor points are assigned to the nearest element): Proved for layers with elements; a layer without elements is undefined behaviour. Refutations: `Query.c66_empty_layer_refuted`.
* C67 (The static solver returns the solution of the last assembled network): Right for at least one iteration and results of the size of the initial temperatures; a limit of zero wraps around, and block powers of grid models make the comparison of two iterations read beyond the end. Refutations: `Static.c67_zero_iterations_refuted`, `Static.c67_block_power_refuted`.
* C40 (Chip stackups are contiguous): Whenever the lookup of positions ends, the stackup has no gap and no overlap and holds every layer with a position. The lookup ends for vias that are not cyclic, and provably never ends for cyclic ones. Refutations: `Ctm.c40_cycle_refuted`.
* C43 (GDSII records are decoded completely): Proved for complete files; truncated files are reported as read, a length field of one never ends, null padding calls the reader for records that are not in the file. Refutations: `Gds.c43_truncated_refuted`, `Gds.c43_endless_refuted`, `Gds.c43_null_first_refuted`, `Gds.c43_padding_refuted`.
* C44 (GDSII elements end up in their cell): Proved from the bytes of the file on for libraries without repeated structure names; the elements of a repeated structure end up in the cell before it. Refutations: `Gds.c44_repeated_refuted`.
* C45 (GDSII arrays place every instance): Only the first instance is right; the columns and rows are ignored. Refutations: `Gds.c45_array_refuted`.
* C68 (A GDSII import has a layer for every layer of its shapes): Proved up to a layer with number -1 that every reference makes for. Refutations: `Gds.c68_reference_refuted`.
* C69 (A layer map file decides on which layers shapes are): Proved for the layer number; the data type is ignored. Refutations: `Gds.c69_datatype_refuted`.
* C70 (GDSII references are placed as the file says): Position, magnification and cell are right; every rotated and every mirrored reference is placed wrongly. Refutations: `Gds.c70_rotation_refuted`, `Gds.c70_mirror_refuted`, `Gds.c70_unknown_refuted`.
* C46 (KiCad trees read back as written): Reading is proved for every tree and layout; parsing never ends for files without parenthesis and for files cut off inside of a name or atom; quotes and backslashes in atoms are not read back. Refutations: `KiCad.c46_endless_refuted`, `KiCad.c46_escape_refuted`.
* C72 (A KiCad import has the layers and nets of the board): Nets, kinds, thicknesses and gapless stacking are proved for every order of the maps; the order of the layers is not that of the board, the dielectric layers of the stackup are lost, and of two nets of a name one is lost. Refutations: `KiCad.c72_order_refuted`, `KiCad.c72_dielectric_refuted`, `KiCad.c72_shared_refuted`, `KiCad.c72_bare_refuted`.
* C52 (DMC outlines and holes use each point once): For every import that goes through; too short point files do not go through (undefined behaviour), and holes before the first outline shift all points after them. The increment of the record iterator past the end is not modelled. Refutations: `Dmc.c52_short_refuted`, `Dmc.c52_lead_refuted`.
* C73 (DMC shapes end up on the net and layer of their record): Proved for records that agree with each other; two net ids with one name, and files without outlines, are undefined behaviour; a via to an unused signal layer throws. Refutations: `Dmc.c73_names_refuted`, `Dmc.c73_via_refuted`, `Dmc.c73_empty_refuted`.
* C39 (Encrypted thermal model files can be read back): Texts are decrypted to themselves; a file is recognised if its first line starts with #Version, which the default text does not: such files throw when read. Negative numbers, names of 63 characters, and files written plain after being read encrypted fail. Refutations: `Ctm.c39_negative_refuted`, `Ctm.c39_default_refuted`, `Ctm.c39_plain_refuted`, `Ctm.c39_linefeed_refuted`.
* C74 (Chip thermal model headers survive writing and reading): Everything but the origin and the first line is read back, for headers with short names; the origin is replaced by the size, metal names of 21 or more characters make the file unreadable, and empty via layers become None. Split, Trim and number printing of the library are modelled as documented in the model file. Refutations: `Ctm.c74_origin_refuted`, `Ctm.c74_long_refuted`, `Ctm.c74_none_refuted`.
* C75 (Chip and grid thermal models describe the same stack): Holds if the joined layer names differ and, for the way back, if every non-metal layer is between two metals. Refuted: equal joined names double the power; a grid model made from a chip model can never be written and read again since no layer is marked as metal; two neighbouring non-metal layers make the lookup recurse forever; an outer non-metal layer is lost. Refutations: `Ctm.c75_power_refuted`, `Ctm.c75_again_refuted`, `Ctm.c75_adjacent_refuted`, `Ctm.c75_outer_refuted`.
* C77 (Stackup boundary conditions act on the exposed area): Holds where only one of power, top and bottom acts on an element. Refuted: the bottom replaces the top, a flux replaces the power, the flux on the bottom of the last layer is not multiplied by the area, and boundary conditions of blocks are ignored. Refutations: `PrismT.c77_both_refuted`, `PrismT.c77_power_refuted`, `PrismT.c77_last_refuted`, `PrismT.c77_blocks_refuted`.
* C80 (Imported GDSII objects keep their geometry): Proved for polygons and paths; texts lose position, rotation and scale since CreateText does not use its transform. Refutations: `Gds.c80_text_refuted`.
* C82 (A transformed shape covers the image of what it covered): Proved for polygons, polygons with holes and template instances under all transforms, rectangles along the axes, circles and paths under isometries. Refuted: a rectangle turned by another angle becomes its bounding box; circles keep their radius and paths their width when scaled. Refutations: `Shp.c82_rect_refuted`, `Shp.c82_circle_refuted`.
* C83 (The bounding box of a shape is the least box around its outline): The box always contains the outline. It is the least one except for circles and for template instances that are turned, for which it is refuted. Refutations: `Shp.c83_turned_refuted`.
* C84 (A padstack instance has on each layer the pad that belongs there): The choice of the pad is proved. The rotation and offset of the pad are applied after the transform of the instance, so that pads with a rotation are drawn at the wrong place (refuted). Refutations: `Shp.c84_order_refuted`.
* C86 (Shapes of XFL routes keep their net, layer and voids): What is drawn is proved for all routes: each shape with the voids that follow it directly. The full claim is proved when voids directly follow their shape or another void on its layer, and refuted when a void on another layer is in between; a template with holes loses them when a void follows. Refutations: `Xfl.c86_voids_refuted`, `Xfl.c86_own_holes_refuted`.
* C87 (Imported XFL shapes have the size given in the file): Polygons, oblongs and composites are right. Rectangles get half of their size, squares, diamonds and circles are not scaled, and arcs through three points are undefined behaviour (all refuted). Refutations: `Xfl.c87_rectangle_refuted`, `Xfl.c87_unscaled_refuted`, `Xfl.c87_arc3_refuted`.
* C89 (Padstack definitions of an XFL file have their pads on the right layers): Definitions and layer maps are proved for vias with different names; equal names use a null pointer. The layer map is written from pads to layers but read from layers to pads, so that a pad is drawn on its layer only if its number is the id of the layer (refuted for all layers whose id is no pad number). Refutations: `Xfl.c89_duplicate_refuted`, `Xfl.c89_pad_layer_refuted`.
* C90 (The board outline of an XFL file becomes the boundary of the layout): Polygons and composites are right; any outline by a template shape uses a null pointer (a local variable hides the shape). Refutations: `Xfl.c90_template_refuted`.
* C91 (A database is a dictionary of definitions for each kind): Proved for all histories without self-assignment. Assigning a database to itself loses everything, including the collections, and creating a material afterwards uses a null pointer. Refutations: `Db.c91_self_assign_refuted`.
* C92 (Materials are found by their ids): Ids differ and what is found is right in all databases; complete only in databases that are not copies. The id table is not copied: a copy finds no material by id (refuted for every database). Refutations: `Db.c92_copy_refuted`.
* C93 (A copied database is independent of the original): Holds for the database of definitions, the cell of layouts and the components of bond wires (if they keep their names). All other pointers (component definitions, layouts of instances and components, padstack definitions, layer maps, solder joints) still lead into the original; proved for every database. Refutations: `Copy.c93_far_refuted`, `Copy.c93_renamed_refuted`.
* C94 (Pins, outlines and bond wires follow their component): False of the code: a component whose transform was read (for example printed) is no longer moved by AddTransform as far as pins and outline are concerned, in every state; a second pin of the same name is never found. Proved for all other histories, over any library of matrices. Rounding of points is not modelled. Refutations: `Mount.c94_read_refuted`, `Mount.c94_same_name_refuted`.
* C95 (The power of a grid thermal model is the loss power of the components): False of the code: the loss power is looked up at the number of degrees Celsius although its table is in kelvin, so with samples above 125 K all five grids are equal; a component on the upper bound of the region is written outside of the grid (undefined behaviour); a component partly outside is left out. Proved: everything else, and the whole claim for powers that do not depend on the temperature. Refutations: `GridPower.c95_kelvin_refuted`, `GridPower.c95_edge_refuted`, `GridPower.c95_outside_refuted`.
* C96 (A layer cut model has a polygon for every outline and hole of the layout): False of the code: the joint at the end of a wire with a current is added twice; a heated joint loses its net and holes; a padstack instance without shape on a layer of its range dereferences null; a layer without height gets that of whatever was read before; a component thinner than the height unit leaves no trace and its power is lost. Proved for all complete layouts without these: exactly the polygons, heights, materials, nets, power blocks, wires and circle centres of the specification, in order, and that the tables of layers can be built. Refutations: `CutEx.c96_joint_twice_refuted`, `CutEx.c96_net_refuted`, `CutEx.c96_pad_refuted`, `CutEx.c96_stale_refuted`, `CutEx.c96_thin_refuted`.
* C97 (A transient analysis samples one trajectory that starts at the temperature of the environment): False of the code: with fixed steps the time beyond the last whole interval of a step is lost; the default sampling interval of zero divides by zero; a network with more nodes than the model is silently not simulated; if nothing is sampled the analysis succeeds with infinite extremes; without probes a sample dereferences an empty range; a step that is not positive never ends; a reduced model with temperature dependence replaces the node temperatures by those of the probes and dereferences null in the second step. Proved for steps of whole intervals, for adaptive integration, and for constant materials. Refutations: `Trans.c97_lost_time_refuted`, `Trans.c97_default_refuted`, `Trans.c97_size_refuted`, `Trans.c97_no_sample_refuted`, `Trans.c97_no_probe_refuted`, `Trans.c97_step_refuted`, `Trans.c97_probe_refuted`, `Trans.c97_reduced_size_refuted`, `Trans.c97_reduced_refuted`.
* C98 (Merging the polygons of a layout keeps the metal of every layer and net): False of the code: the settings on dielectric layers come after the mergers were made and have no effect; an order of the hash set of positions can lose the merged polygon and keep a part; an instance without definition dereferences null. Proved for descending orders: what is kept, what is merged, and that each net covers the same points, plus those of its padstack instances where included. Refutations: `PMerge.c98_order_refuted`, `PMerge.c98_dielectric_refuted`, `PMerge.c98_definition_refuted`.
* C99 (The polyline of a bond wire runs from its start to its end and leaves both surfaces outwards): False of the code: a JEDEC4 wire ignores the orientation of its end and arrives through the board when the end is higher than the loop or on a lower face; a wire without end or start layer is put into the model with heights zero; a wire of another type gets no points; a flat JEDEC4 wire has segments of length zero. Proved for mounted simple and JEDEC4 wires: thirteen points, ends, rectangle, heights, outer side at the start and at the end of simple wires. Refutations: `Wire.c99_end_refuted`, `Wire.c99_type_refuted`, `Wire.c99_unmounted_refuted`, `Wire.c99_no_start_refuted`, `Wire.c99_flat_refuted`.
* C100 (A thermal simulation answers every monitor with the temperature of its nearest element): False of the code for grid models, which do not implement the search of elements: monitors are ignored without notice; and a failed extraction simulates the last model of the type. Proved end to end for prism and stackup prism models on top of C16, C37, C38, C66, C67. The layout of c100_layout is, for prism models, the layout with the layer cut model it keeps (C148). Refutations: `Sim.c100_empty_refuted`, `Sim.c100_grid_refuted`, `Sim.c100_stale_refuted`.
* C101 (The circuit written for a thermal network has the network's temperatures as its voltages): False of the code: heat sources hang at a node connected to nothing else, so a heated network's circuit has no operating point; given temperatures are counted from the reference node and so come out too high by the reference temperature. The operating points are characterised exactly, from Kirchhoff's and Ohm's law. Refutations: `Netlist.c101_sources_refuted`, `Netlist.c101_fixed_refuted`.
* C103 (The chip thermal model generated from a layout describes its layers and its metal): Proved: layers, order and densities over the tiles of the mapping (c103_layers), exactly when those are the tiles of the chip model (c103_tiles), the claim on densities if the resolution divides the region (c103_density_partial). The full statement is false: tiles are displaced when the region is no multiple of the resolution (c103_tiles_refuted), and thicknesses are taken for coordinates (c103_thickness_refuted). That the library's number of tiles is the least that covers the region is a hypothesis. Refutations: `L2C.c103_tiles_refuted`, `L2C.c103_thickness_refuted`.
* C104 (The grid thermal model of a layout has its layers, bond wires and boundary conditions on the cells they cover): Proved: layers, thickness, metal and power of each layer (c104_layers), success of the extraction (c104_extract), bond wires with their ends in the region (c104_wires), boundary conditions with blocks inside the region (c104_boundary_partial). The full statement is false: a block that reaches the upper bound cools cells it does not meet (c104_edge_refuted), a block beyond the right bound or a wire that starts outside and no network is built (c104_above_refuted, c104_wire_refuted). Distances and pi are parameters. Refutations: `GridExt.c104_edge_refuted`, `GridExt.c104_above_refuted`, `GridExt.c104_wire_refuted`.
* C105 (Routes of an XFL file are read as they are written): Proved for all routes without diamonds, arcs of three points, shapes mirrored at the x axis and bond wires without names of dies before another object (c105_route_partial). The full statement is false, exactly for the other routes: every text of such a route (without the sign +) is not read at all (c105_exact_refuted), since instDiamond is not in the rule route, ARC is tried before ARC3 (c105_arc3_refuted), char_("NY") lacks X, and the optional names of dies take the next keyword and its layer. Numbers are exact; the words inf and nan are not modelled. Refutations: `XflP.c105_exact_refuted`, `XflP.c105_arc3_refuted`.
* C106 (Sections of an XFL file are read as they are written): Proved for all sections (c106_section_partial) but: template diamonds, which are read as squares (c106_diamond_refuted); arcs of three points and the routes of C105, which are not read; parts in which a pin without padstack is followed by a pin whose name begins with a digit or a sign: the name is taken for the padstack and the part is not read (c106_pin_refuted). The outline of a part (partTail) is only covered when absent. Numbers are exact; the words inf and nan are not modelled. Refutations: `XflP.c106_diamond_refuted`, `XflP.c106_pin_refuted`.
* C107 (An XFL file is read whole or rejected): Proved for files of the sections of C106 (c107_file_partial). The rest is false: every text that ends with a line feed is accepted, whatever is in it (c107_accepts_refuted); one route that cannot be read (C105) loses itself and all later routes of its section while earlier ones stay and the file is accepted (c107_lost_refuted, for section texts without +, # and a further .end); a file whose last line is a comment without end of line is rejected after everything was handled (c107_comment_refuted), and so is a file that breaks off in a section of routes (c107_broken_refuted). Refutations: `XflP.c107_accepts_refuted`, `XflP.c107_lost_refuted`, `XflP.c107_comment_refuted`, `XflP.c107_broken_refuted`.
* C108 (The objects of a KiCad board are collected with their footprint, layer and net): What is collected, for every well formed board and every meaning of the moved-from key of AddComponent: c108_objects_partial. With keys kept, every footprint of a distinct name is a component of its own (c108_own_partial). The code moves the name before it is used as key, so with the usual empty moved-from string all footprints fall into one component named after the first (c108_footprints_refuted; right only for a single footprint, c108_one_partial). False too: the layer of lines, circles and polygons (c108_layer_refuted), blind vias (c108_blind_refuted), outlines of one or no point (c108_points_refuted), outlines of oval pads (c108_oval_refuted; rectangles are right, c108_rect_partial). Layers and nets are extracted as in C72 (c108_refines_c72). Missing: nothing of these objects reaches the layout in the code; arcs are positional. Refutations: `KiCad.c108_footprints_refuted`, `KiCad.c108_layer_refuted`, `KiCad.c108_blind_refuted`, `KiCad.c108_points_refuted`, `KiCad.c108_oval_refuted`.
* C109 (Power and density files of a chip thermal model are read as they are written, and cut files are rejected): Powers come back (c109_power); whole density files are read record by record (c109_records) and are written as the tiles with their corners (c109_write, c109_density_partial). The densities come back in their cells exactly if the grid of the library lies column by column in memory (c109_layout_partial); that library is not in the repository. Cut files are not rejected: c109_power_cut_refuted, c109_cut_refuted; an empty density file uses an unset value (c109_empty_refuted). A float is any encoding into four bytes with a decoder. Refutations: `Ctm.c109_power_cut_refuted`, `Ctm.c109_cut_refuted`, `Ctm.c109_empty_refuted`.
* C110 (A chip thermal model packed and made again is the same): What comes back, for every packable model: c110_package_partial; everything (header as in C74) if temperatures differ in six digits, sizes match and cells lie column by column (c110_data_partial). False otherwise: temperatures equal to six digits (c110_temps_refuted), powers of another size (c110_size_refuted), fewer than five temperatures (c110_few_refuted), files left after a failure (c110_left_refuted). The archive itself (tar) is the library's and is taken as the map of names to contents. Refutations: `Ctm.c110_temps_refuted`, `Ctm.c110_size_refuted`, `Ctm.c110_few_refuted`, `Ctm.c110_left_refuted`.
* C111 (DMC and DOM files are read line by line, and lines that are not records are rejected): Files of well formed lines are read (c111_dmc, c111_dom, c111_line), DMC lines that end too early or have a word for a number are rejected with their number (c111_short, c111_number, c111_stop), no unset number is used (c111_set), and the database is made of what was read (c111_load). False: lines without layer name are taken (c111_layer_refuted), a tenth word that is no number throws (c111_exn_refuted), DOM files are never rejected (c111_accept_refuted), blank lines add the origin (c111_origin_refuted), coordinates are cut (c111_cut_refuted), a missing file gives no message (c111_open_refuted). Exponents in numbers are not modelled. Refutations: `Dmc.c111_layer_refuted`, `Dmc.c111_exn_refuted`, `Dmc.c111_accept_refuted`, `Dmc.c111_origin_refuted`, `Dmc.c111_cut_refuted`, `Dmc.c111_open_refuted`.
* C112 (A layer map file gives its rows or is rejected): Rows, comments and empty lines are read as they should be and lines without five items are refused, exactly; lookups give the first row. The rest fails: a layer number that is no number throws, what follows its digits is ignored, every word not beginning with m is a dielectric, a line of blanks or of a carriage return rejects the file, and the database stays registered after a failure, so that its name is taken. Refutations: `Gds.c112_exn_refuted`, `Gds.c112_junk_refuted`, `Gds.c112_kind_refuted`, `Gds.c112_blank_refuted`, `Gds.c112_name_refuted`.
* C113 (DMC and DOM files written from merged polygons give the polygons again): Proved in full for units of K coordinates with K dividing a million, polygons that all have nets and names of one word. False otherwise: polygons whose net is not found are left out silently, with none at all the import of the written files is undefined, coordinates below half a millionth of a unit become zero (metre), a net name with a blank makes the import throw, a layer name keeps its first word, and files that cannot be opened still give true (bad instead of fail is asked). Refutations: `Dmc.c113_net_refuted`, `Dmc.c113_empty_refuted`, `Dmc.c113_unit_refuted`, `Dmc.c113_blank_refuted`, `Dmc.c113_layer_refuted`, `Dmc.c113_open_refuted`.
* C114 (The power of a prism thermal model is the loss power of its power blocks): Exact sum over blocks for prism and stackup prism models and any temperatures (c114_prism, c114_stack), heat flows of the network if there is no boundary flux (c114_network), the whole power, also by scenario, for blocks whose triangles tile the polygon and are found (c114_whole); the layer of a block exists and has the polygon (c114_layer). False of the code, with proof: blocks at the lower face of their polygon (c114_below_refuted), polygons of fluids or without material (c114_fluid_refuted), blocks with a smaller polygon inside, which takes the triangles (c114_hidden_refuted). Geometry library and net ids are outside the model. Refutations: `PrismT.c114_below_refuted`, `PrismT.c114_fluid_refuted`, `PrismT.c114_hidden_refuted`.
* C115 (Geometry of prism networks: positive resistances and paths over common sides): All but the last part holds, with real numbers and exact square roots. The last fails, and c115_side says exactly when: the rest of the way between the centres is taken instead of the other way to the side, so the resistance is never less than the series, equal exactly if the line between the centres is at right angles to the side, and depends on the numbering unless that is so or the conductivities are the same (an example shows that it does). Center and PointLineDistanceSq of the geometry library are taken to be the centroid and the distance to the infinite line.
* C116 (Meshes of stackup prism models: which layers share one, and what they are made of): Without imprints meshes are made of exactly the polygons of the layer, two layers share a mesh exactly if they are slices of one layer, numbers are as claimed, and the code throws exactly if a layer has no polygons. Two parts fail: imprints pile up, the mesh of a layer has the polygons of all layers above (c116_imprint says which, with multiplicity); and since pointers are compared, layers with the same polygons have separate meshes unless they come from slicing. Refutations: `StackMesh.c116_upper_refuted`, `StackMesh.c116_same_refuted`.
* C117 (Text files of metal fractions say the grid, the boxes of its tiles and the fractions): Proved for names that are words (empty names allowed in the profiles) and, in the result file, resolutions below ten units. The code violates the rest, each proved as a general family: `RESOLUTION` is written without a blank, so the word and the number run together exactly when the resolution rounds to ten units or more; names that are empty or have blanks change the number of words of a line; elevations and thicknesses, which are already in user units, are multiplied by the unit of a coordinate a second time; a tile narrower than half of the sixth digit of its edge is printed with equal edges; layers without a name get the name of other layers; the profile of a grid model prints the die with six digits after the point but the tiles with six significant digits, so from one metre on the last tile does not end where the die ends; and with a missing fraction it reports failure but leaves a file of four lines. Refutations: `Profile.c117_resolution_refuted`, `Profile.c117_name_refuted`, `Profile.c117_thick_refuted`, `Profile.c117_flat_refuted`, `Profile.c117_names_refuted`, `Profile.c117_missing_refuted`, `Profile.c117_die_refuted`.
* C118 (The boundary of a layout is the least box around its geometry): Proved: read from layouts that remember nothing wrong, the boundary is a rectangle around all geometry to any depth, the least one when everything lies along the axes, and what is remembered stays right (c118_first_partial, c118_fresh, c118_set). False of the code as a whole, with proofs: the first reading is remembered, so nothing added later counts (c118_stale, c118_stale_refuted); components, padstack instances, bond wires, texts and geometry on layers the layout does not have never count (c118_others_refuted); an instance of a layout without geometry makes the boundary reach to the corners of the empty box (c118_empty_refuted); the box of a turned instance is that of its turned box (c118_turned_refuted); layouts that instantiate each other in a circle are read without end (c118_cycle_refuted). Exact coordinates; the empty box is neutral for the union of boxes (library). Refutations: `Bdy.c118_null_refuted`, `Bdy.c118_stale_refuted`, `Bdy.c118_others_refuted`, `Bdy.c118_empty_refuted`, `Bdy.c118_turned_refuted`, `Bdy.c118_cycle_refuted`.
* C119 (The picture of a layout shows its boundary and the selected objects): Proved: exactly what is drawn (c119_exact), which is what was asked for when nothing is selected (c119_all_partial). False of the code: selections of nets and of layers work the wrong way round, the selected objects are left out and the others drawn (c119_nets_refuted, c119_layers_refuted); a geometry without shape is read through a null pointer (c119_null_refuted); instances and padstack instances are not drawn (c119_insts_refuted). The image writer is not modelled. Refutations: `Bdy.c119_nets_refuted`, `Bdy.c119_layers_refuted`, `Bdy.c119_null_refuted`, `Bdy.c119_insts_refuted`.
* C120 (A database that is saved and loaded again is the same database): The claim is false as it stands: names and uuids of layouts and what was appended to a transformation that had been read are not archived, and a grid thermal model makes Save throw after the file was emptied (all three shown for every such database). Otherwise shown in full: a database without dangling pointers and grid models is saved, and what is loaded is an isomorphic copy of the reachable graph except for the members in an explicit table; it is the same exactly when those members were empty; a second round trip loses nothing more. Refutations: `Arc.c120_layout_refuted`, `Arc.c120_grid_refuted`, `Arc.c120_transform_refuted`.
* C121 (Lengths, areas and volumes of prism thermal models are those of the layout in metres): The claim is false as it stands: the number of metres of a user unit is computed from the number of coordinates of a user unit truncated to an integer, so every length is too small by one factor unless a user unit is a whole number of coordinates (25/25.4 for mils in micrometres), and zero if a user unit is less than a coordinate. Shown exactly for all units, with the square and cube of the factor for areas and volumes; the claim holds exactly for whole quotients. Numbers are exact. Refutations: `PrismS.c121_refuted`.
* C122 (The result files of a thermal simulation say the temperatures of the model): The claim is false as it stands: in a layer of one temperature the colour of every cell is computed from the quotient of two zeros; a probe that is not a node ends the run with an exception and leaves a file without an end of line; times that agree in six digits have one text; without a working directory the matrices and the file for prisms go to the root of the file system. The rest is proved for all runs. Numbers are exact and printed with six digits; of pictures the numbers turned into colours are kept. Refutations: `Dump.c122_probe_refuted`, `Dump.c122_hot_refuted`, `Dump.c122_many_refuted`, `Dump.c122_root_refuted`, `Dump.c122_time_refuted`.
* C128 (What is created in user units is what was asked for, to within one database unit): Partial because the code is not invariant under moves: truncation is towards zero (exact condition proved, and that every coordinate off the grid has a move that is not followed). A last coordinate without partner is dropped. Rounding of corners and of transformed points is the library's (any rounding by less than one). Refutations: `User.c128_shift_refuted`, `User.c128_size_refuted`.
* C130 (A grid thermal model holds what fits it, and a power table says truly what it holds): Partial because the code accepts negative thicknesses over references (c130_thickness_refuted), a zero scale (c130_scale_refuted), refuses metal fractions for layers without one (c130_fraction_refuted) and turns the range of an empty table around (c130_range_refuted). MaxOccupancy and operator!= of the library are taken to compare all cells; the interpolator of the library is taken to stay between its points. Refutations: `GridObj.c130_fraction_refuted`, `GridObj.c130_scale_refuted`, `GridObj.c130_thickness_refuted`, `GridObj.c130_range_refuted`.
* C131 (A database made of an XFL file holds what the text of the file says): Proved from the text of the file to the database by composing the reader (C105-C107) with the import steps (C85-C90). Which files are imported is exact: all others of the format end in undefined behaviour (units or scale never set, two usable vias of one name, an outline that is a template shape), hence partial. Refuted: any text ending with a line is accepted and then units or scale are read uninitialised; every unit word other than inch is taken for millimetre. Refutations: `XflI.c131_unset_refuted`, `XflI.c131_units_refuted`.
* C132 (A GDSII file imported and flattened shows every element once for each chain of references that leads to it): False of the code in general: arrays place three copies (C45), angles in degrees are taken as radians and mirroring is dropped (c132_turned_refuted), the width of a path on one layer is not magnified while on two layers it is (c132_width_refuted), circular files are taken and never flattened (c132_cycle). Proved from the bytes on for files without these (c132_flat_partial); c132_chains says that the recursive drawing of the statement consists of the elements at the ends of all chains. Refutations: `GdsD.c132_width_refuted`, `GdsD.c132_turned_refuted`.
* C133 (A database made of a KiCad file holds what the text of the board says): Composes the reader (C46), the extraction (C108) and the creation of layers and nets (C72). Proved: layers, nets, names and registry for every text of a board in order. False of the code: CreateEcadObjects puts nothing but layers and nets into the layout (c133_objects_refuted); a failed import keeps its name, so that it cannot be repeated (c133_failed_refuted); the order of the layers is that of a hash map (c72_order_refuted). Refutations: `KiCad.c133_objects_refuted`, `KiCad.c133_failed_refuted`.
* C134 (Steady temperatures of a layout answer to powers, cooling, metal and bond wires as those of a heat conductor do): All laws but that of bond wires hold. The network takes conductivity times cross section over length as the resistance of a wire, so that the law of wires holds in the opposite direction (c134_wires_refuted). Arithmetic is exact; the linear solver is assumed to solve the systems given to it. Refutations: `LayoutResponse.c134_wires_refuted`.
* C135 (A database made of a DMC and a DOM file holds what the texts say): c135_design is the whole statement but for the boundary, which is that of the boxes written in the records and not of the points (c135_boundary_refuted). Vias whose signal layer has no outline, as all vias written V, make the import throw and leave the database behind, so that the name cannot be imported again (c135_via_refuted); without outlines the import is undefined (c135_empty_refuted). Refutations: `Dmc.c135_via_refuted`, `Dmc.c135_empty_refuted`, `Dmc.c135_boundary_refuted`.
* C137 (The transient solvers scale the heat of each node by the excitation of its own scenario): The full solver keeps the scenarios in a vector of Float32. c137_exact says for which networks the claim holds: exactly those whose heated nodes have scenarios a Float32 can hold. False of the code: a scenario above 2^24 that is odd is replaced by an even one (c137_odd_refuted), and the rates are undefined exactly if some heated node has one of the last 2^39 scenarios (c137_none_refuted), such as the default, which stands for none: so for every grid model with heat, as its builder sets no scenario (c137_grid_refuted, c137_layout_refuted), and for prism models with a heat flux into a prism without a power (c137_flux_refuted, c137_stack_refuted). Holds of the reduced solver and of prism models without heat fluxes and scenarios up to 2^24. Exact arithmetic except for the scenarios. Refutations: `Scen.c137_none_refuted`, `Scen.c137_odd_refuted`, `Scen.c137_grid_refuted`, `Scen.c137_layout_refuted`, `Scen.c137_flux_refuted`, `Scen.c137_stack_refuted`.
* C142 (The networks of prism models use the properties that were given to the materials): Proved for materials whose first conductivity has one or three values or polynomials and whose other first properties have one. False of the code: a second setting is ignored (C11); of a tensor the first column is used, so that a diagonal tensor does not conduct in two of the axes; tables are read uninitialised or as zero; a missing property is a null pointer; in the copy of a database every lookup is one, since the table of ids is not copied. The lookups are made before the network is changed instead of in between. Refutations: `Mat.c142_tensor_refuted`, `Mat.c142_table_refuted`, `Mat.c142_missing_refuted`, `Mat.c142_stack_missing_refuted`, `Mat.c142_copy_refuted`, `Mat.c142_copied_refuted`.
* C148 (A forced extraction describes the layout as it is): False of the code for prism models after a change of the layout; the negation is proved for all layouts and histories, with an exact condition for when it shows. c148_power_refuted follows it to the power the model gives off. Refutations: `Cache2.c148_forced_refuted`, `Cache2.c148_first_refuted`, `LayoutPrism.c148_power_refuted`.
* C149 (Pictures and meshes written by extractions): False of the code for meshes and for calls answered from the cache; both negations are proved in general. Writing is assumed to succeed, and nobody else writes into the directory meanwhile. Refutations: `Sketch.c149_mesh_refuted`, `Sketch.c149_mixed_refuted`, `Sketch.c149_reused_refuted`.
* C150 (Transient analyses with fixed steps): False of the code for sampling intervals that are long against the time constant of a node; the negation is proved for all networks, and the exact condition. The stepper (modified midpoint, two substeps) belongs to boost and is modelled from its documentation. Refutations: `Mid.c150_coarse_refuted`, `Mid.c150_node_refuted`.
* C151 (Bond wires in thermal networks are chains of the right resistances): The last sentence is false of the code: the builder takes the conductivity of the second segment at the temperature of the first; proved to be right exactly if the material conducts equally at both temperatures. The rest is proved in full. Refutations: `WireT.c151_hot_refuted`, `WireT.c151_stack_hot_refuted`.
* C152 (The temperature of the environment shifts all results by the same amount, in either unit): The last sentence is false of the code: the temperature in the settings of an extraction is read by their comparison only, so that another value leaves all results as they are and merely throws kept models away. Properties that depend on temperature are excluded; c152_refuted shows that they have to be. The adaptive integrator, a library, is not covered by c152_steps, and the extremes of the transient result are not stated (they start from the greatest number). Refutations: `Env.c152_refuted`.
* C153 (Sessions of imports: databases made by different imports live side by side): All of the statement is proved for sessions without undefined behaviour, except that failed imports leave the registry as it was: that holds for XFL and DMC files (`c153_failed_partial`), but a GDSII import whose layer map file cannot be read and a KiCad import whose file cannot be opened return null and leave an empty database under the name (`c153_gds_refuted`, `c153_kicad_refuted`), so that all later imports under the name return null until it is removed (`c153_stuck`). Refutations: `Session.c153_gds_refuted`, `Session.c153_kicad_refuted`.
* C154 (The linear solvers on thermal networks): Exact arithmetic: rounding is not modelled. The factorisations and the iteration are modelled from general knowledge of Eigen, neither whose source nor documentation was at hand; SparseLU enters as a solver that solves systems with one solution, the elimination order and the threshold as parameters. The code does not ask any solver whether it succeeded: for networks with a part that is not cooled the matrix is not positive definite and LLT fails in every order (c154_uncooled_refuted), while the code uses what the library left behind. A solver type outside the enumeration gives the temperatures of the environment without any message (c154_default_refuted). That grid, prism and stackup models give networks with every node connected to a cooled one is C62, C64 and C78. Refutations: `LinSolve.c154_default_refuted`, `LinSolve.c154_uncooled_refuted`.
* C155 (Chip thermal model files made of a layout can be read again): Of a layout in which two stackup layers have the same name nothing is written (c155_twice). Proved for layers whose name is one word of at most twenty bytes that does not begin with a closing brace, in stackups not thicker than a hundred kilometres (c155_read; numbers come back up to a millionth, c155_close). It fails whenever a name consists of several words, like `Top Layer`: the files are written without a complaint, and the reader rejects them because the line of the layers has more items than it says (c155_words_refuted). The outermost dielectric layers come back with the layer `None` as a neighbour. Thickness and place of the tiles have the faults of C103, which are in the model before it is written. Packing and unpacking the files is left to the tool `tar` and is not modelled. Refutations: `L2C.c155_words_refuted`.
* C157 (An evenly heated stack has the temperatures of a plane wall of its layers): The statement as a whole is refuted: the coefficient is put on the node in the middle of the first layer, so the resistance of its upper half is missing and all layers are too cold by the heat per area times that resistance, unless no heat flows (c157_surface_refuted, c157_prism_surface_refuted, c157_stack_surface_refuted). Proved: the temperatures are even in each layer, and the rises from layer to layer are those of the wall (c157_grid_partial, c157_prism_partial, c157_stack_partial). In stackup models the heat comes from powers only, since a flux at the bottom of the last layer is not multiplied by the area (C77). Over exact arithmetic; each cell or prism has at most one source of heat, since further ones replace it (C47). Refutations: `Wall.c157_surface_refuted`, `Wall.c157_prism_surface_refuted`, `Wall.c157_stack_surface_refuted`.
* C158 (The merger of polygons writes one file per layer with what it merged, and says if it failed): Proved in full for the VTK files (c158_vtk, c158_vtk_fails: after a failure the remaining layers are not written) and for the files and contents of the pictures (c158_png_partial, c158_merge). Refuted for the result of the pictures: success is reported even if none could be written (c158_png_refuted). The writers of the library are a function that says which files can be written; a file is the list of its polygons. Refutations: `PMerge.c158_png_refuted`.

## 7. Assumptions about code that is not in the repository

* Geometry library (`generic`): extents, transforms of points, polygons from boxes as written in `Shape/Model`; stroke outlines, inscribed and
  circumscribed polygons, arcs, areas, overlaps, triangulations and boolean operations are parameters of the model, with the facts used as
  hypotheses of the theorem (for instance `Lib.InscribedOK`, `Lib.StrokeOK`).
* `math::EQ`, `math::GE` and so on with a tolerance: exact comparisons unless the comment of a definition says that the tolerance is modelled.
* String functions (`Split`, `Trim`, number printing and reading): modelled where the property is about text (C39, C46, C74), else parameters.
* Thread pool: every job submitted runs once, and the destructor waits for all jobs. Jobs of different threads are interleaved in any order
  (C18, C36, C79). Races on counters that are only printed are not modelled.
* Eigen: a factorisation that succeeds yields a solution of the system; the model takes the solution as given by its equation.
* boost: variants and bimaps as inductive types and lists of pairs; serialization is not modelled.
