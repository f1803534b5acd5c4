# Formal model of INMOST: design

The model is written in Lean 4 (plus single Mathlib modules where stated). It is
organised by area; each area has

* `Model.lean`  - function by function transcription of the C++ code, with file and line citations;
* `Spec.lean`   - the small independent specification used to state the properties (where the
  specification is more than one line; otherwise it sits at the top of `Props.lean`);
* `Lemmas.lean` - helper lemmas;
* `Props.lean`  - the property theorems (names `Cnn_...`) and, beside each of them, a concrete
  non-trivial instance that meets its hypotheses.

## Trusted base

* Lean 4.33.0 kernel. Axioms: only `propext`, `Classical.choice`, `Quot.sound`
  (`lean/Verif/Audit.lean` prints them for every property theorem). No `sorry`, no
  `native_decide`, no `bv_decide`, no axioms of our own.
* The reading of `/repo` that produced the model. The code is not executed.
* Floating point is not modelled. Where the code computes with `double`, the model computes in an
  ordered field or in the reals ("exact arithmetic"), so rounding, overflow, NaN and infinities
  are outside of the model.
* `std::` containers and algorithms (`std::vector`, `std::map`, `std::sort`, `std::lower_bound`) are
  modelled by their documented contracts.
* MPI is modelled as reliable, per-(source, destination, tag) FIFO message passing.
* C++ undefined behaviour (out-of-bounds access, use of an uninitialised value) is a distinct outcome
  (`none`) wherever an access is not guarded by construction.

## Findings

Where the code violates a property, the negation is proved with a concrete witness
(theorem suffix `_fails`) and the part that does hold is proved as `_partial`.
The list is in section "Disagreements" at the end.

## Plan per property

| id | what is modelled | how it is proved |
|----|------------------|------------------|
| C01 | handle arithmetic on 32-bit words | bit-vector / `Nat` arithmetic for every id below 2^29-1 |
| C02, C04 | marker table as a list of bytes, create/release | lowest-zero-bit lemma on `BitVec 8`; invariant over histories |
| C03 | per-element marker bytes, set/get/remove | frame lemmas from disjoint masks |
| C05 | buffer of cells + size + capacity, loops as recursion, out-of-range = `none` | refinement to `List` by induction over the operation history; range erase / shrinking replace are refuted |
| C06 | chunk table with shift/mask indexing | refinement to a list; stale bytes after shrink/grow refuted for the bulk variant |
| C07 | links/back_links/empty_space/empty_links | invariant over create/destroy histories |
| C08 | the swap loop of ReorderEmpty with MoveStorage | loop invariant |
| C09, C10 | tag table: per-type position or sparse flag, free columns | invariant over histories; stale sparse flag refuted |
| C11 | links as multi-relation, create / Disconnect / Connect / delete | counting invariant |
| C12, C13 | nested traversal with marker de-duplication | membership and `Nodup` by list induction |
| C14 | the marking/counting search over upper links | membership characterisation |
| C15 | marker based loops of earray.cpp | list induction; refuted for empty left operand with repetitions |
| C16-C18 | slot list with holes plus list of hole indices | refinement to finite sets; failures refuted with witnesses |
| C19 | parent/child/sibling pointers | chain invariant |
| C20, C21 | four-pass byte radix sort | LSD radix correctness by stability, for every length |
| C22, C23 | iterator state machine over link table | induction on the remaining range |
| C24-C27 | sparse rows, merging, linked-list accumulator, products | refinement to finitely supported functions |
| C28 | interval arithmetic of Load | `omega`-style arithmetic for all sizes |
| C29-C31 | expression trees over the reals with the code's multiplier recursion | induction on trees with `HasDerivAt`/`HasFDerivAt`; wrong second derivative formulas refuted |
| C32 | binary search with integer bounds | loop invariant |
| C33, C34 | enumeration loops, registration slots | induction over loops/histories, prefix sums for MPI_Scan |
| C35 | flat recording | list induction |
| C36, C37 | full-pivoting elimination, outer-product Cholesky | loop invariants over a field |
| C38 | closed formula | field arithmetic over the reals |
| C39, C40 | byte loops / find_first_of loops | list induction |
| C41 | byte buffers, flips, copies | list lemmas; big-endian copy loop refuted |
| C42-C45 | all processes' OrderInfo state, exchange lists, message passing | per-pair exchange-list agreement; induction over schedules |
| C46 | BiCGStab recurrences over a vector space | loop invariant |
| C47 | Delete, Hide, EndModification, Disconnect on the connection relation | invariant over histories, closure under "built on" |
| C48, C49 | SortSet, binary search and insertion of sets kept sorted by handles | refinement to sorted lists; holes refuted |
| C50 | packed index of `SymmetricMatrix` | arithmetic for all sizes |
| C51 | vectors of three numbers | ring identities over an ordered field |
| C52, C53 | overlap levels and interval splitting of `PrepareMatrix` | induction over levels / intervals; nested intervals refuted |
| C54, C55 | ILU2: rescaling, factorisation with dropping, triangular solves | loop invariants over a field; identity without dropping |
| C56, C57 | order of edges of faces, `getNodes` | walks and cycles over edges, list induction |
| C58, C59 | SplitEdge, UniteEdges, TestUniteEdges | loops (closed walks) are kept; third edge, hidden edge refuted |
| C60, C61 | ExchangeData, ReduceData: packing, messages, unpacking on all processors | alignment of send and receive lists; every order of events (small-step relation) ends in the same state |
| C62 | SynchronizeMarker | the exchange of C60/C61 with the markers |
| C63, C64 | TotalNumberOf, ExclusiveSum, Enumerate, AssignGlobalID | prefix sums over processors and lists |
| C65 | chunked send, FinishRequests | invariant over every order and grouping of arrivals |
| C66 | SearchKDTree: both sorts, build, SearchCell; `float` conversion as a function with bounded error | radix sort as in C20, tree encloses its elements |
| C67 | Cell::Inside | closed surfaces: the pyramids over the faces sum up to the volume |
| C68 | segment/box, segment/triangle, collection with a private marker | separating-slab argument, barycentric coordinates |
| C69 | sphere/box, distance to triangle | projection and the seven cases, for every ordered field with a square root |
| C70 | FacesOrientation with CheckConvexity, search over common edges | invariant of the search: queued faces are marked iff they run the other way; closure gives the component |
| C71 | MEASURE of cells and faces | tetrahedra cancel in pairs: additive flux of the boundary, for every cut of the solid |
| C72 | BARYCENTER of cells | as C71 for the first moments |
| C73 | NORMAL, MEASURE and BARYCENTER of faces | telescoping sums around the polygon; any cut into triangles has the same area vector |
| C74 | CheckNormalOrientation, FixNormalOrientation, SwapCells, ReorderEdges | C70, reversed loop has the opposite normal |
| C75 | bytes written by SavePMF and read by LoadPMF for one processor, both byte orders and all widths of integers | section by section: the reader consumes exactly what the writer wrote; the rebuilt connectivity is that of a history of calls |
| C76 | joining of parts, sizes, offsets and distribution, both strategies of reading | prefix sums over parts, induction over messages |
| C77 | new ranks of owners and processors | the reader of a part is unique; sorted lists without repetitions |
| C78 | WriteXML and ReadXML on the text | the text of a tree is a document of the grammar of C79 |
| C79 | XMLReader with all states of tags, attributes, comments, data blocks and included files | induction over the grammar: every function of the reader consumes its part of the text |
| C80 | Expand, MakePolish, Run, ConvertMultiplier | induction over the grammar of expressions with the operations pending on the stack |
| C81 | GetContentsWord, the Parse functions, reading and writing of data sets, declarations of tags | words by a grammar of contents; the written text is in it; induction over elements; codes of values |
| C82 | BridgeAdjacencies, BackCell, FrontCell, Neighbour, NeighbouringCells on the connectivity of C11-C14 | invariant of marks over the two loops; first and second visible entry of a list |
| C83 | Boundary, GatherBoundaryFaces, GatherInteriorFaces, CountBoundaryFaces, MarkBoundaryFaces (one and several processors) | incidence of C12/C13; union of arrays over the two collective calls of C60, C61 |
| C84 | ResolveShared: boxes, exchange and comparison of nodes, prediction of processors for edges, faces and cells, exchange and removal, global numbers | merge of sorted lists under a tolerance; induction over types with the invariant "lists and numbers are right below"; C64 for the numbers |
| C85 | EquilibrateGhost: queue of cells with distances to owned cells, reduction of (distance, owner) over copies, new owners of cells, then of faces, edges and nodes | breadth first search computes least walks; a reduction that chooses the least of two, followed by an exchange, gives all copies the least value; induction over passes |
| C86 | incident_matrix (the search of loops for SplitFace and SplitCell): do_show_row, do_hide_row, recursive_find with its dead ends and its choice of the best loop, find_shortest_loop, the visits | the recursion restores the selection (induction over the depth); a closed set that contains the selected chain contains a next column, so every closed set is met unless it has more edges than the best loop; the edges with an odd rest form closed polygons (parity), so by completeness no boundary edge is left over (`C86_outer`), and each loop has an edge that no later loop has (`C86_order`) |
| C87 | Face::SplitFace: inner edges and nodes, deletion of the face, the faces of the loops (with and without the check for existing faces), the connections of the cells, the nodes of the cells | the loops are polygons that use every boundary edge once and inner edges twice or not at all (C86_outer); the run over the pairs of loops and new faces keeps the invariant of C11 (`Reach`); area, holes and repeated nodes refuted; every step has a defined outcome (`C87_defined`) |
| C88 | Cell::SplitCell: inner faces, deletion of the cell, the cells of the loops; the nodes of the new cells (RestoreCellNodes) are a parameter | deletion and creations keep the invariant of C11; the loops are closed (C86_closed) and faces keep their edges; the parts themselves refuted by a tall prism and by a cavity; every step has a defined outcome (`C88_defined`) |
| C89 | Cell::UniteCells, Cell::TestUniteCells: counts of faces, elements to remove, protection, removals (Hide or Delete), the new cell; the nodes of the new cell are a parameter | removals in the order cells, faces, edges, nodes delete nothing else because nothing visible is left above (`Cut`); the list of all faces is a permutation of outer faces and twice the inner faces; protected nodes in the test, touching, repeated and third cells refuted |
| C90 | Face::UniteFaces, Face::TestUniteFaces: counts of edges, elements to remove, protection, the search of the boundary polygon, removals (Hide or Delete), the new face and its cells | the walk along marked edges visits every outer edge once and returns because every node has an even number of outer edges; it is total for a simple polygon; removals without assertion failures delete nothing else (`Cleared`); in a closed cell with no other face at an inner edge both united faces belong to the cell; the test and faces touching at a node refuted |
| C91 | RemoveLinksToDeletedElements, ApplyModification, EndModification, Destroy of sets: references in tags, elements and links of sets, arrays of shared and ghost elements | invariant over histories: everything named exists; the loops along the links of sets keep the forest of C19 and end because chains of siblings are finite; remote references and one order of deleted sets refuted |
| C92 | CreateSet, CreateSetUnique, GetSet, GetSetsByPrefix, names in Destroy, Clear and copies | invariant over histories: the sorted map holds exactly the names of the sets that exist; the prefix loop equals a filter because cutting names keeps their order; four refutations |
| C93 | ResolveSets up to owner and status: encoding, gathering and decoding of names, lists of ranks | the buffer of each rank decodes to the names it sent (induction over names and ranks); refuted for names with a zero byte |
| C94 | Remove/RestoreUpper/LowerAdjacencies with masks, FixNormalOrientation and FixEdgeOrder that follow | invariant over sequences of calls: kept lists are permutations of the original ones (counting with the mirror property of C11); order and one mask refuted |
| C95 | RemoveGhost: the loop over cells, the passes over faces, edges, nodes with ReduceData(DeleteUnpack) and ExchangeData, the update of processor lists, statuses and stored lists | each pass is a reduction and an exchange of C60; what arrives is the list of processors that delete; induction over the types to the inductive set of kept elements |
| C96 | RemoveGhostElements: the loop over sets, cells, faces, edges, nodes with the handles passed by each processor | the same passes; the elements named and bare ghosts; two statements of the documentation refuted |
| C97 | PackElementsGather, PackElementsData, UnpackElementsData with tags, FindSharedGhost | positions in the lists of the message are related to local elements on both sides; invariant over the four passes of unpacking: the partial list of received elements stands for the sent ones |
| C98 | ExchangeMarked (AGhost), InformElementsOwners, RecomputeParallelStorage, the last ExchangeData | invariants over the list of messages in any order for both rounds; the owners know all holders after the second round; the lists of others by C60 |
| C99 | ComputeSharedSkinSet, ExchangeGhost (marker 0, delete_ghost false) | ReduceData and ExchangeData of lists give every copy the union (C60, C61); invariant of the loop over layers: processors have all cells within m steps, and any cell at distance m+1 from q that is reached through a neighbour of q on p is in the list of p for q |
| C100 | Redistribute with ExchangeMarked(AMigrate): passes over new owners and processors, ReduceData and ExchangeData between them, SendTo, deletion, messages, new owners, statuses and stored lists; no sets, no references | the tags of copies agree after each collective call (C60); induction over the types gives processors of an element = processors of the cells at it; what is sent and what is deleted follow from them; C97 for messages; isolated faces refuted |
| C101 | the layers in Redistribute: split skin, marks of cells, bridge elements, RedistUnpack | the loop over layers gives the inductive set of cells near the new owner as each old processor sees it; compared with distance in the whole mesh; refuted for two layers and for nodes |
| C102 | copy constructor and operator = on tags, columns, sparse storage, links; copy loops over types, tags, elements | the loops are shown to put the columns of the original in place (induction over elements, tags, types); sparse data refuted in general |
| C103 | calls of C07-C09 on a copy | simulation: a copy differs from a consistent state in back_links only, and no call but ReorderEmpty reads them; two counterexamples |
| C104 | CopyTagData, DuplicateTagData | induction over elements and types with C09; two counterexamples |
| C105 | RestoreCellNodes, ComputeGeometricType, TestClosure, CreateCell without nodes | nodes: the numberings of a solid are closed under turning any face to the front (finite check, transported along an injection), the loop over the sides fills the positions above the base (induction over faces, eight ways to store a side); types: sides as unordered pairs, each pair twice; counterexamples |
| C106 | classes of expressions and views of inmost_dense.h, constructors of MatrixMul, Trace, DotProduct | induction over the meaning of expressions (inductive relation to tables); loop invariants for copies and products; variables as dual numbers; counterexamples |
| C107 | assignment operators of AbstractMatrix, Matrix, SubMatrix on a memory of matrices | references of a window are injective; invariant of the loops: written elements are new, the others old; counterexamples for shared memory |
| C108 | Det: search of the pivot row, sign, elimination, both comparisons with eps | the loop multiplies by the determinant of the unvisited rows (Laplace expansion, row operations); runs with equal answers of the tests are equal; the tested numbers are quotients of minors |
| C109 | Residual: Clear, Norm, Rescale, SetInterval, InitLocks, Lock, copy, operator [] with += | each row is touched by one step of a loop; sums of powers scale with the factor; sums over intervals are concatenated; gradients add up (C29), order by uniqueness of derivatives |
| C110 | HessianRow::RowVec, HessianMatrix::MatVec | each entry adds its products to the scalar product with any vector; comparison with the polar form of the quadratic form of C31 |
| C111 | Unite of sets with the same comparator | invariant of the merge with marks: what is written is in order and before the rest; nothing of the second range is marked; the rest of the first is not before the last element of the second |
| C112 | AddElements for global numbers, hierarchy, centroids | as C111; the loop for centroids skips an element of the set with each new one |
| C113 | PutElements | induction over the elements, holes are the positions of invalid handles |
| C114 | Clear, DeleteSet, DeleteSetTree, Destroy of sets | postorder of the tree given by child and sibling links as an inductive relation; ancestors are on one line, so subtrees of siblings are disjoint |
| C115 | BinaryHeap, BinaryHeapDense | content as a partial map, correctness of each call along all histories; slots and positions inverse to each other, order of parents and children with one exception during the loops |
| C116 | BinaryHeapCustom | same proof with the comparisons as a parameter |
| C117 | maximum transversal reordering of the inner MPTILU2: costs, initial pairs, paths of length two, search with heap, dual variables, augmentation, gaps | invariant of pairs (Perm and IPerm inverse, positions inside rows) through all stages; visited rows form a tree of parents; the search ends since each pass pops a column of the heap |
| C118 | same | reduced costs stay nonnegative and vanish on pairs: distances of the heap are shortest paths (Dijkstra); a failed search bounds the largest double by a walk along the other permutation; sums of duals bound all permutations |
| C119 | tables of the class Model and their functions | invariant along histories: each table is a permutation of what was added, names distinct |
| C120 | FillResidual, UpdateSolution, UpdateTimeStep, SetTimeStep, RestoreTimeStep, PrepareIterations | the nested loops are one loop over a concatenation; relation of calls made one after the other |
| C121 | UpdateMultiplier, AdjustTimeStep, reduction by MPI_MIN | the minimum over the same concatenation |
| C122 | Initialize, with calls made by the parts as a parameter; a vector that grows under its own loop is undefined | tables of earlier stages stay as they were in later ones |
| C123 | partitioner.cpp, package 0, adjacency as a parameter | invariant: the list of visited cells in order; numbers are positions in it |
| C124 | partitioner.cpp, package 8, points of all processes in one list, rand() as an oracle | centres stay in the box of the points by convexity; counts agree with clusters; pigeonhole for the donor |
| C125 | partitioner.cpp, package 3, with centres that are NaN | the same box; the cluster chosen by any point keeps a centre |
| C126 | container.hpp interval, heap of blocks, pointers with offsets, 32-bit indices | refinement to lists: each interval with elements owns one block |
| C127 | inmost_residual.h Lock/UnLock, threads with split additions, any schedule | invariant: entries plus pending additions are constant; lock holder = thread inside; decreasing measure |
| C128 | sparse.cpp LockService with OpenMP, states of each lock | simulation by bounds and set of locked rows |
| C129 | SolverMaster.cpp and SolverName of all classes, options of the build as flags | case distinction over the names |
| C130 | solver.cpp parseXMLDatabase, constructor; SolverInner Setup; XML as a tree, string_to_lower arbitrary | last match in a list, last assignment in a fold |
| C131 | solver.cpp, SolverInner, SolverILU2, BCGS_solver and ILU2_preconditioner as state machines with a heap of matrices | simulation of the user's knowledge |
| C132 | optimizers.cpp results buffer, over an ordered field | list invariants |
| C133 | optimizers.cpp parameters: update, announced points, range constructor, closest value; the power of ten arbitrary | set/get of lists, induction over the loop |
| C134 | optimizers.cpp OptimizerInterface over an arbitrary algorithm | invariant over histories; `Faithful` is the contract of an algorithm, shown for the three algorithms |
| C135 | alternating optimizer as an instance of the interface | invariant of the positions of the handlers |
| C136 | annealing optimizer, random numbers as arbitrary lists, exponentials as arbitrary answers | invariant and inequalities |
| C137 | ttsp.cpp, search of ttsp_configuration.cpp; the configuration file as its entries | invariant over histories, keys injective without colons |
| C138 | eset.cpp sets sorted by IDs: binary searches, add, remove; centroid comparison over rationals | lower bound over sorted lists; counterexamples for holes, PutElement and shared IDs |
| C139 | inmost_variable.h classes and operators as formulas over the expressions of C29 | induction over formulas, then C29 |
| C140 | inmost_variable.h stored_variable_expression with an explicit memory | refinement to a map from objects to formulas |
| C141 | inmost_data.h Storage with its link, storage.cpp, element access of the three kinds of arrays; addresses with lifetimes | refinement to variables and slots as values |
| C142 | parallel.cpp reductions; MPI calls as specified by MPI, exact sums | sums over permutations, folds, prefix sums |
| C143 | inmost_block_variable.h: Value and Variable of each class; matrices as sizes and elements; failed assertions as none | induction over formulas with a relation between values near the point and values with derivatives |
| C144 | parallel.cpp ComputeSharedProcs, both variants; threads as any distribution of the elements, merged in any order | membership and order by induction over folds; uniqueness of sorted lists |
| C145 | mesh.cpp CopyData with tag.cpp CopyData and GetTag; data of tags by names in numbered meshes | induction over tags of the source with a frame condition |
| C146 | optimizers.cpp Optimizers: heap of objects and the map of names | invariant by induction over the history, against the last call of each name |
| C147 | optimizers.cpp OptimizersConfiguration over a stream of tokens with eofbit and failbit | induction over values; endless loop as no result for every bound on iterations |
| C148 | modify.cpp CollapseEdge with creation of elements; three levels of elements over lists of lower ones | one invariant of the loop for all levels; elements compared by sets of nodes, of edges, of faces |
| C149 | mesh.cpp BeginTopologyCheck, EndTopologyCheck and creation of edges, faces, cells; bits as a type, errors as a list | what each check forbids stated on its own and compared with the errors found; cases of a call; induction over histories for the error state |
| C150 | SolverInner.cpp Condest: two power iterations over a normed space, with Solve as a map of right hand side and guess | bounds on stretching are kept by each step; product of both estimates |
| C151 | node.cpp, edge.cpp: typed queries with hidden elements, markers and the private marker; ends of edges | invariant of the loops (marker on exactly the collected elements); query with a marker compared with the filtered query; positions of visible nodes |
| C152 | mesh.cpp CopyVector2Tag, CopyTag2Vector: arrays as lists with accesses out of range as failures | induction over elements; the largest position is reached |
| C153 | tag.cpp RenameTag on a list of names and records | induction over the list of tags and over histories |
| C154 | element.cpp CheckElementConnectivity, CheckConnectivity | counts of connections back on both sides against mutual lists without repetitions |
| C155 | geometry.cpp Element::Mean, meantri, meantet over real numbers with the constants of the code | weights of each corner within 1e-15 of 1/3 or 2e-14 of 1/4, induction over triangles and faces; integral of a cubic polynomial for edges |
| C156 | eset.cpp SynchronizeSet*, SetSendTo, CollectProcessors, element.cpp SendTo on the tree of C19 | order of visits as an inductive relation, from the order of deletion of C114; membership in merged lists |
| C157 | geometry.cpp triarea3d, WachspressInterpolation2D over real numbers | Heron's formula by algebra, weights as differences of terms of neighbouring sides, cyclic sum is zero |
| C158 | geometry.cpp Cell::Inside L371-489: walk around faces, queue of neighbours | the walk follows the chain of nodes; the queue is filled in the first turn only; induction over the queue |
| C159 | mesh.cpp SetDimensions L1892-1921, CreateTag and DeleteTag for tags of nodes | copying between records and the flat vector stated by positions; induction over nodes |
| C160 | geometry.cpp Element::CastRay L2659-2734 | polynomial identities for points of a plane in the basis of a triangle; induction over triangles |
| C161 | geometry.cpp Face::Inside L285-342 | barycentric coordinates in the plane; the three cross products are multiples of one vector |
| C162 | geometry.cpp Edge::SameLine L191-217, Face::SamePlane L219-275 | orthogonal projection is the nearest point; unit normals with product 1 or -1 are parallel |
| C163 | eset.cpp ElementSet::Erase(beg,end) L1630-1649 | induction over places, invariant: the list of free places is exact and without repetitions |
| C164 | geometry.cpp PrepareGeometricData L1233-1413, RemoveGeometricData L1147-1178 | invariant: stored values are the computed ones; induction over tables and histories |
| C165 | parallel.cpp pack_data, pack_data_array, pack_data_vector, their sizes, unpack_data, unpack_data_array, unpack_data_vector L121-274 | induction over chunks, then over the vectors of a message |

## What is modelled

Every definition cites its lines. In short, of `/repo/Source`:

| area of `lean/Verif` | code |
|---|---|
| Handles, Markers | Headers/inmost_data.h, marker functions of Headers/inmost_mesh.h and Mesh/mesh.cpp |
| Containers | Headers/container.hpp: `array`, `linked_array`, `chunk_array`, `chunk_bulk_array` |
| Storage | Data/tag.cpp, Mesh/mesh.cpp: TieElement, UntieElement, MoveStorage, ReorderEmpty, CreateTag, DeleteTag, sparse and dense cells |
| Copy | Mesh/mesh.cpp: copy constructor, operator =, CopyTagData, DuplicateTagData; Data/tag.cpp: copies of TagManager |
| CellNodes | Mesh/mesh.cpp RestoreCellNodes, CreateCell without nodes; Mesh/geometry.cpp ComputeGeometricType, TestClosure |
| Topology, Split | Mesh/mesh.cpp Create*, Mesh/modify.cpp Delete, Hide, Disconnect, Connect, EndModification, SplitEdge, UniteEdges, TestUniteEdges, SplitFace, SplitCell, UniteCells, TestUniteCells, UniteFaces, TestUniteFaces; Mesh/element.cpp adjacency queries, BridgeAdjacencies; Mesh/face.cpp, Mesh/geometry.cpp: cells of a face, neighbours, boundary |
| Refs | Mesh/modify.cpp RemoveLinksToDeletedElements, ApplyModification, EndModification, Destroy of sets |
| Adjacency | Mesh/mesh.cpp Remove/RestoreUpper/LowerAdjacencies |
| EdgeLoop | Mesh/face.cpp, Mesh/cell.cpp: order of edges, getNodes |
| Sets, Sort, Iterators | Mesh/earray.cpp, Mesh/eset.cpp (unsorted and HANDLE_COMPARATOR; Unite and AddElements for all comparators), Mesh/comparator.cpp, Mesh/iterator.cpp |
| Search | Mesh/kdtree.cpp, Cell::Inside of Mesh/geometry.cpp |
| Geometry | Mesh/geometry.cpp: normals, areas, volumes, barycenters, CheckConvexity, FacesOrientation, CheckNormalOrientation, FixNormalOrientation |
| Parallel | Mesh/parallel.cpp: exchange and reduction of tags, markers, numbering, chunked buffers; MarkBoundaryFaces; EquilibrateGhost; RemoveGhost and RemoveGhostElements |
| Resolve | Mesh/parallel.cpp: ResolveShared |
| Layers | Mesh/parallel.cpp: ComputeSharedSkinSet, ExchangeGhost without marker and without removal of ghosts |
| Transfer | Mesh/parallel.cpp: packing and unpacking of elements, ExchangeMarked with AGhost, InformElementsOwners, RecomputeParallelStorage |
| Migrate | Mesh/parallel.cpp: ExchangeMarked with AMigrate, Redistribute without sets and references |
| Sparse, OrderInfo, Krylov, ILU2 | Solver/sparse.cpp, Headers/inmost_sparse.h, Solver/OrderInfo.cpp, solver_inner/solver_bcgsl.hpp, solver_ilu2.hpp |
| Autodiff, Table, Record, Unknowns | Headers/inmost_expression.h, Autodiff/autodiff.cpp |
| Heap | Misc/utils.h: BinaryHeap, BinaryHeapCustom; BinaryHeapDense of Headers/inmost_dense.h |
| Matching | Solver/solver_inner/solver_mptilu2/solver_mtilu2.cpp: maximum transversal reordering (L174-473) |
| Models | Autodiff/model.cpp, Headers/inmost_model.h: class Model without ReportErrors, ToggleEntryState and adaptation |
| Partition | Partitioner/partitioner.cpp: INNER_RCM (L298-410), INNER_KMEANS (L1347-1808), INNER_SKMEANS (L1809-2411) |
| Locks | Headers/container.hpp: interval (L839-1012), Headers/inmost_residual.h: locks (L98-109), Solver/sparse.cpp: LockService (L1310-1357) |
| SolverFront | Solver/SolverMaster.cpp (L52-142), Solver/solver.cpp (L20-65, 97-189, 247-325), Solver/SolverParameters.cpp (L20-32), Solver/solver_inner/SolverInner.cpp (L6-92), Solver/solver_inner/solver_ilu2/SolverILU2.cpp |
| Optim | Optimizer/optimizers.cpp (L26-38, 106-116, 149-158, 255-331, 406-476, 479-602), Optimizer/optimizers/{noop,alternating,annealing}, Solver/ttsp/ttsp.cpp, Solver/ttsp/ttsp_configuration.cpp (L420-441) |
| Dynamic | Headers/inmost_variable.h (L208-386, 471-734, without stencils) |
| Sets/Find | Mesh/eset.cpp (L614-627, 934-954, 1459-1485, 1545-1557), Mesh/comparator.cpp L5-17, Headers/inmost_mesh.h L3428-3429 |
| Handles/Links | Data/storage.cpp, Headers/inmost_data.h (L470-481), Headers/inmost_mesh.h (L236-249) |
| Parallel/Reduce | Mesh/parallel.cpp (L769-791, 876-1190) |
| Dynamic/Block | Headers/inmost_block_variable.h (L89-675 without division; L743-749), elements of operations of Headers/inmost_dense.h (L3071-3120 and the views cited in the module) |
| Parallel/Neighbours | Mesh/parallel.cpp (L2743-2855) |
| Copy/Element | Mesh/mesh.cpp (L2304-2315, 2584-2617), Data/tag.cpp (L97-166, 425-432) |
| Optim/Registry | optimizers.cpp L640-700: available types, creation, saved optimizers |
| Optim/Config | optimizers.cpp L702-773: configuration lines and files |
| Topology/Collapse | modify.cpp L1087-1207: collapse of an edge |
| Topology/Checks | mesh.cpp L874-1188: topology checks at creation |
| SolverFront/Condest | SolverInner.cpp L190-280: estimate of the condition number |
| Adjacency/Typed | node.cpp L7-379, edge.cpp L6-312, modify.cpp L2300-2316: adjacent elements by type |
| Storage/TagVector | mesh.cpp L2715-2860: values of tags in arrays |
| Names/Rename | tag.cpp L318-334: renaming tags |
| Adjacency/Check | element.cpp L1723-1806, L1853-1859: check of connections |
| Parallel/PackData | C165 packing of values to messages |
| Geometry/Prepare | C164 stored geometric data |
| Sets/EraseRange | C163 erasing a range of a set |
| Search/Same | C162 tests of a common line and plane |
| Search/FaceInside | C161 test of a point in a face |
| Search/Ray | C160 ray cast at a face |
| Storage/Dimensions | C159 change of the number of dimensions |
| Search/Orient | C158 orientation of faces in Cell::Inside |
| Geometry/Wachspress | C157 interpolation over faces |
| Sets/SendModel, Sets/SendProps | C156 marking of sets for sending |
| Geometry/Mean | C155 Element::Mean |
| Residual | Autodiff/residual.cpp, HessianRow::RowVec and HessianMatrix::MatVec of Solver/sparse.cpp |
| Dense | Headers/inmost_dense.h: Solve, CholeskySolve, Det, SymmetricMatrix, CrossProduct, Transform |
| Views | Headers/inmost_dense.h: expressions, views, products, assignments |
| Names | sets by name in Mesh/mesh.cpp, ResolveSets in Mesh/parallel.cpp |
| Text, Binary | Misc/base64.cpp, Misc/utils.cpp, IO/io.hpp |
| Pmf | IO/mesh_pmf_file.cpp |
| Xml | Misc/xml.cpp; declarations and data of tags in IO/mesh_xml_file.cpp |

Not modelled: other file formats of meshes, sets and references in Redistribute, partitioners other than INNER_RCM, INNER_KMEANS and INNER_SKMEANS, other inner solvers, bindings to external libraries,
geometric data of meshes of dimension 2, stored geometric data, interpolation, eigenvalue and
singular value decompositions, `CollapseEdge`, the Bayesian optimizer, properties and printing of the optimizers, the configuration file of the automatic tuning, OpenMP.

## Disagreements

The code does not have these properties. Each entry names the theorem that shows it, or says that it was
only read.

* C05 `array::erase(begin,end)` and shrinking `replace` lose or corrupt elements (`C05_eraseRange_fails`,
  `C05_eraseEmptyRange_fails`, `C05_replaceShrink_fails`); `a.push_back(a[i])` reads freed memory
  (`C05_pushBackSelf_fails`).
* C06 `chunk_bulk_array` exposes old bytes after shrinking and growing (`C06_bulk_fails`).
* C10 a tag created again as dense where it was sparse keeps the sparse flag (`C10_fails`).
* C11 Connect/Disconnect stores a marker value as a handle (`C11_connect_fails`).
* C15 `ElementArray::Unite` on an empty array keeps repetitions (`C15_unite_fails`).
* C16 `Subtract` of a set with itself leaves the marker set (`C16_self_fails`).
* C17 AddElements of repeated elements, of invalid handles, and on sets sorted by handles loses or
  repeats elements (`C17_repeated_fails`, `C17_unite_fails`, `C17_sorted_fails`).
* C18 `ReorderEmpty` of sets with holes (`C18_unsorted_fails`, `C18_sorted_fails`).
* C19 a child removed and added again keeps its old sibling (`C19_readd_fails`).
* C21 negative global numbers are sorted after positive ones (`C21_fails`).
* C22, C23 `SwapModification` counts, reverse iteration, `PrevHandle` (`C22_swap_fails`, `C23_*_fails`).
* C26 `Row` operations on unsorted or repeated indices (`C26_sorted_fails`, `C26_push_repeated_fails`).
* C29-C31 `pow(x,1)` at zero, `x += x*y`, second derivatives of reciprocal, exp, pow and of products
  (`C29_pow_fails`, `C30_self_fails`, `C31_*_fails`).
* C32 a table with one node (`C32_single_node_fails`).
* C33 indices of status and block entries collide (`C33_*_fails`).
* C36 tiny pivots, empty products (`C36_tiny_fails`, `C36_empty_fails`).
* C41 big-endian integers (`C41_high_fails`).
* C42, C43 processors with no rows (`C42_fails`, `C43_empty_fails`); C45, C53 overlapping intervals
  (`C45_overlapping_fails`, `C53_*_fails`).
* C46 BiCGStab without preconditioner, stale residual of BiCGStab(l) (`C46_*_fails`).
* C48, C49 sorting and searching sets with holes or after a change of the comparator (`C48_*_fails`,
  `C49_*_fails`).
* C55 no rescaling iterations destroys the matrix (`C55_no_scaling_fails`).
* C56, C57 CheckEdgeOrder ignores the last edge, hidden edges, Cell::FixEdgeOrder, getNodes(mask)
  (`C56_*_fails`, `C57_mask_fails`).
* C58, C59 SplitEdge with a hidden edge; UniteEdges with a third edge at an inner node, TestUniteEdges of
  edges apart from each other (`C58_hidden_fails`, `C59_*_fails`).
* C60 ghosts keep data that the owner does not have (`C60_absent_fails`, `C60_empty_fails`).
* C62 SYNC_BIT_AND does not clear the marker (`C62_and_fails`).
* C65 buffers over two gigabytes (`C65_large_fails`).
* C66 the empty tree, boxes in `float` with coordinates of a hundred thousand (`C66_*_fails`).
* C67 every point is inside of every cell of a two-dimensional mesh; the tolerance is absolute
  (`C67_planar_fails`, `C67_small_fails`).
* C68 segments in the plane of a face are missed; faces are repeated if the tree has a cell and its face
  (`C68_coplanar_fails`, `C68_mixed_fails`).
* C69 an L-shaped face is found far away from the sphere: its centroid is a node, and the distance to
  a degenerate triangle is zero along its line; boxes in `float` are not widened
  (`C69_degenerate_fails`, `C69_float_fails`).
* C70, C71, C74 CheckConvexity compares with the absolute epsilon and UnitNormal does not normalise small
  normals, so every cell of size 1e-5 is taken to be convex: wrong marks, a volume five times too large, an
  outward normal that is reported as inward (`C70_tiny_fails`, `C71_tiny_fails`, `C74_tiny_fails`).
* C75 the order of the cells of a face is lost in the file, so that the normal of the face changes its side
  (`C75_cell_order_fails`); an empty array of bytes becomes one zero byte in the file and in the mesh that is saved
  (`C75_empty_bytes_fails`); a tag name of 256 letters gives a file that cannot be read (`C75_long_name_fails`).
  Only read: names are cut at a zero byte; an invalid reference to another mesh is written without the name that the
  reader expects; signed integers are not extended when the widths differ; the table of geometric data is not
  restored; a reference to the mesh itself reads an undefined number.
* C76 with messages (strategy 0) the first processor appends its own bytes twice (`C76_first_twice_fails`).
* C78, C79 a root `<a/>` is reported as a failure; `<_a></_a>` opens and does not close; quotes and `]]>` are not escaped by WriteXML;
  raw text after a comment, `<a b=c>` and `</a >` fail; a file that ends in a data block raises an exception of the string
  (`C78_root_stub_fails`, `C78_underscore_fails`, `C78_quote_fails`, `C78_contents_fails`, `C79_text_after_comment_fails`,
  `C79_bare_value_fails`, `C79_space_in_close_fails`, `C79_truncated_fails`).
* C80 `(1)-2`, `2*-3` are errors, `1e-5` is a difference, `(1+2` is 3 without an error, errors of multipliers are not
  reported and 1e20 is cast to an integer (`C80_minus_after_bracket_fails`, `C80_minus_after_operation_fails`,
  `C80_exponent_fails`, `C80_unbalanced_fails`, `C80_error_ignored_fails`).
* C81 in xml files a reference to no element is read as the first node (`C81_none_fails`); derivatives are lost, since atov loops
  over derivatives from 2 to their number (`C81_derivatives_fails`); empty records of sparse tags are lost
  (`C81_empty_record_fails`); a word directly before `]]>` is not read (`C81_last_word_fails`); values of a vector tag given one by
  one go to the first place (`C81_one_by_one_fails`); a word ends at the first right bracket of its multiplier
  (`C81_nested_brackets_fails`); tags of remote references become tags of reals (`C81_remote_fails`).  Only read, not modelled:
  six digits of reals are written by default; references to the mesh itself are read outside of an array; the correction of links
  between sets maps parents, children and siblings twice and leaves sets inside of sets as they were.
* C82 the neighbour over a face with three cells is one of the others only (`C82_three_cells_fails`); NeighbouringCells repeats
  a cell that shares two faces (`C82_repeated_fails`).
* C83 hidden faces are listed as boundary faces (`C83_hidden_fails`); a face with three cells is neither boundary nor interior
  (`C83_three_cells_fails`); a face without cells is at the boundary on one processor but not on several (`C83_no_cells_fails`).
* C84 nodes exactly one tolerance apart are equal for the comparison but are not found (`C84_boundary_fails`); three nodes in a row, each
  within the tolerance of the next, give a ghost whose owner is a ghost (`C84_chain_fails`); a face that consists of a part of the
  edges of another one is taken for it on one side only (`C84_part_fails`).
* C86 `find_shortest_loop` does not return the shortest loop: loops with more edges than the first one found are not looked at
  (`C86_shortest_fails`).  For faces the marks of dead ends hide closed sets: the search may return nothing although there is one
  (`C86_faces_fails`).
* C87 SplitFace: the parts may overlap, since loops are chosen by length and not by area (`C87_area_fails`); a closed polygon inside that does
  not touch the boundary is not cut out (`C87_hole_fails`); a node that a cell has already is attached to it a second time on one side
  only (`C87_nodes_fails`).
* C88 SplitCell: given faces that cut the cell into parts may be left unused (`C88_unused_fails`); a cavity becomes a cell
  (`C88_cavity_fails`).
* C89 TestUniteCells ignores protected nodes (`C89_test_fails`); UniteCells: cells that touch along an edge
  (`C89_touch_fails`), a repeated cell (`C89_repeat_fails`), a third cell at a face (`C89_third_fails`).
* C90 TestUniteFaces passes a private marker to SetMarker and fails an assertion whenever two faces share an edge
  (`C90_test_fails`); UniteFaces unites faces of different cells that touch at a node and leaves open cells (`C90_closed_fails`).
* C91 remote references to deleted elements stay (`C91_remote_fails`); ApplyModification fails an assertion when a set and its second child
  are deleted and its first child is not (`C91_links_fails`).
* C92 in a modification GetSet and CreateSet hand out sets that were deleted (`C92_hidden_fails`); CreateSetUnique with a name in use
  (`C92_unique_fails`); Clear keeps names of sets that are gone (`C92_clear_fails`); a copy of a mesh finds no sets (`C92_copy_fails`).
* C93 ResolveSets fails on names with a zero byte (`C93_zero_fails`).
* C94 restored connections are in another order: back cell, ends of edges, direction of faces (`C94_back_fails`, `C94_direction_fails`);
  RestoreLowerAdjacencies(FACE) needs the nodes of edges (`C94_face_fails`).
* C95 with a marker set on the ghost only the owner is not told (`C95_marker_fails`).
* C96 "Non-ghost elements will also be deleted": they stay (`C96_nonghost_fails`); requests for lower elements are not ignored: the
  face is deleted, with the owned cell on it (`C96_lower_fails`).
* C97 a node marked twice for a processor (its number twice in SendtoTag) is created twice there (`C97_twice_fails`).
* C99 ExchangeGhost with NODE or EDGE does not find cells that meet in a node or an edge only (`C99_node_fails`).
* C100 a face without cells may be deleted by Redistribute on the processor that stays its owner: `determine_my_procs_high` leaves the processors of the element before it in `result` (`C100_isolated_fails`).
* C101 Redistribute with two layers through faces, or one through nodes, misses cells (`C101_layers_fails`).
* C102 no sparse data is copied by the copy constructor or assignment of meshes: `other.HaveData(h,tags[i])` is asked with the tag of the copy (`C102_sparse_fails`).
* C103 ReorderEmpty (also inside Save of .pmf) on a copied mesh, followed by creation of an element, makes two elements share their data: `back_links` is not copied (`C103_reorder_fails`).
* C103 after assignment of meshes the next dense tag gets a column in use: `empty_dense_data` is not cleared (`C103_assign_fails`).
* C104 CopyTagData of a tag of variable size to itself, and DuplicateTagData with its own name, lose the data (`C104_self_fails`); on the mesh itself a sparse input without data gets a record (`C104_mesh_fails`).
* C105 a cell created without suggested nodes does not have the order of VTK: CreateCell calls RestoreCellNodes (mesh.cpp L1839) before ComputeGeometricType (L1859), contrary to the documentation of getNodes (`C105_created_fails`).
* C105 hidden edges count in ComputeGeometricType: a tetrahedron two of whose faces share the hidden halves of an edge becomes a Polyhedron (`C105_type_fails`); RestoreCellNodes of a tetrahedron fails if the first edge of its second face is hidden (`C105_hidden_fails`).
* C106 the product of a n by 0 and a 0 by m matrix reads elements outside of the arrays (`C106_mul_empty_fails`).
* C106 with an automatizator the product of matrices of variables sums over `Cols()` of the result instead of the columns of the left matrix (inmost_dense.h L2927, L3012, L3097): terms are lost or elements outside of the arrays are read (`C106_mul_variable_fails`, `C106_mul_variable_outside_fails`).
* C107 `A = A.Transpose()` and `A += A.Transpose()` use elements already overwritten; for matrices that are not square A = A.Transpose() leaves the array (`C107_transpose_fails`, `C107_symmetrize_fails`); the same for overlapping submatrices (`C107_overlap_fails`).
* C107 an assignment to BlockOf changes the zero that all blocks share (`C107_zero_fails`); an assignment between named views also makes the left one refer to the right one (`C107_rebind_fails`); `A.Transpose() = B` stores B, not its transpose (`C107_target_fails`).
* C108 Det() compares with the absolute tolerance 1e-13: the determinant of the 1 by 1 matrix [1e-14] is returned as 0 (`C108_pivot_fails`), that of [1 1e14; 1e-14 2] as 2 instead of 1 (`C108_coef_fails`).
* C109 Rescale(0) makes the exponent 1/p infinite and multiplies equations with two or more entries by zero (`C109_rescale_zero_fails`). SetInterval moves values with the beginning of the interval instead of keeping them under their numbers (`C109_setInterval_fails`), does not change the interval of the Hessian (`C109_hessian_fails`) nor that of the locks (`C109_locks_interval_fails`); a copy has no locks and Lock does nothing (`C109_locks_copy_fails`).
* C110 HessianRow::RowVec takes the number of entries of U as the number of entries of H and of J (`C110_count_fails`, `C110_short_fails`), so that MatVec into an empty matrix always fails (`C110_empty_fails`), and it uses entries off the diagonal as mixed derivatives although expressions store twice the mixed derivative (`C110_mixed_fails`, `C110_double_fails`; GetVariable has the factor one half).
* C111 Unite of sorted sets: the loops that attach the rest stop at the first marked element; if the last element of the second set is in the first set, it is marked and still in front, and the rest of the first set is lost (`C111_last_fails`: {1,3,5} united with {1} is {1}); the same happens at holes (`C111_holes_fails`) and in the unsorted parts (`C111_tail_fails`).
* C112 AddElements of a set sorted by centroids increases the iterator of the set after writing a new element (`++it` instead of `++jt`, eset.cpp L871), so that each new element inside the range removes an old one (`C112_centroid_fails`); for all comparators the end of the set is lost if the last new element is in it (`C112_last_fails`).
* C113 PutElements fills all holes without looking at the number of elements given (`C113_few_fails`).
* C114 Deleting a set does not reset the sibling links of its children; adding one of them to another set adds the following ones too (`C114_sibling_fails`).
* C116 BinaryHeapCustom::ChangeKey stores the new key before it compares the old key with it (`keys[i] = key; if( !Comparator()(keys[i],key) )`, utils.h L208-209), so that with std::less a key made larger stays at the front of the heap (`C116_change_fails`). The library itself only makes keys smaller (solver_mlmtiluc2.cpp L1590).
* C117 the first pass of the reordering takes gaps `< 1.0e-30`, the second `<= 1.0e-30` (solver_mtilu2.cpp); a gap of exactly the threshold fails the assert in debug mode and uses an undefined index otherwise (`C117_tie_fails`).
* C119 Model::GetScalarFunctionNames loops over MatrixFunctions (model.cpp L231, `C119_scalar_names_fails`); Model::GetCouplingTerm uses `CouplingTerms.find(subm)` without comparison with `end()` (model.cpp L175-176, 186-187), and the assert of AddCouplingTerm (L52) calls it before the first term exists (`C119_coupling_fails`).
* C120 inmost_model.h says of AddCouplingTerm "Coupling terms linked to submodels are not evaluated for non-active submodels"; FillResidual (model.cpp L392-402) and UpdateMultiplier call all of them (`C120_coupling_inactive_fails`).
* C122 entries added by coupling terms and functions during Model::Initialize come after the loop that registers entries (model.cpp L317-337, `C122_late_entry_fails`).
* C123 INNER_RCM: parts are blocks of cells/processors+1 numbers, so with four cells and four processors one processor gets two cells and one none (partitioner.cpp L332, 402, `C123_idle_fails`). The name says reverse, but the reversal is commented out (L392-394).
* C125 INNER_KMEANS: a cluster without points gets the centre 0/0 (partitioner.cpp L1715-1717) and no cell ever after (`C125_idle_fails`).
* Only read: INNER_KMEANS and INNER_SKMEANS communicate over MPI_COMM_WORLD, not over the communicator of the mesh (partitioner.cpp L1490, 1655, 1955, 2124).
* C128 LockService::SetInterval(b,b) on a service with rows destroys the locks but keeps them in the interval, so the destructor destroys them again (sparse.cpp L1337-1344, `C128_empty_fails`); assignment of an empty service does the same.
* C128 Residual::TestLock returns false when there are no locks, while Lock returns at once (inmost_residual.h L102, 109, `C128_test_fails`); LockService::TestLock without OpenMP returns true (sparse.cpp L1361).
* C127 needs InitLocks: without it Lock silently does nothing (`C127_unlocked_fails`).
* C129 SolverMLMPTILUC::SolverName returns "inner_mptiluc" (SolverMLMPTILUC.cpp L79, `C129_name_fails`). No inner solver can be copied or assigned (SolverInner.cpp L13-23, `C129_copy_fails`).
* C130 A parameter in the database counts only if `value` is its only attribute (solver.cpp L306, `C130_attribute_fails`). GetParameter returns "" for drop_tolerance and all parameters other than four (SolverInner.cpp L62-73, `C130_get_fails`).
* C131 Clear deletes the iterations and sets the pointer to NULL; the next SetMatrix or Iterations dereferences it (SolverInner.cpp L51-54, SolverILU2.cpp L31, `C131_clear_fails`). OldPreconditioner is ignored by SolverILU2 (SolverILU2.cpp L48-49, `C131_old_fails`).
* Only read: Iterations and Residual before the first Solve return members without a value (solver_bcgsl.hpp L1273-1277).
* C132 GetLastUniqueEntries returns up to max+1 entries (`C132_unique_fails`); a buffer of capacity 0 pops an empty deque (`C132_empty_fails`).
* C133 The range constructor of OptimizationParameter writes past its vector unless the range is a whole number of steps (`C133_range_fails`).
* C134 RestartWithBest reads past a buffer with fewer results than allowed failures (`C134_restart_small_fails`), and uses a result after it was removed for a buffer of one result (`C134_restart_one_fails`).
* C135 After a bad result the alternating optimizer repeats the suggestion (`C135_repeat_fails`); a parameter with two values is never changed (`C135_two_fails`).
* C136 A parameter with one value gives 0/0 (`C136_single_fails`); with the strict bound the search is stuck at the ends of the range (`C136_strict_fails`).
* C137 Enable without a configuration dereferences NULL in SolverOptimize (ttsp.cpp L110, `C137_null_fails`), an unknown optimizer type too (L123, `C137_type_fails`); Deinitialize drops optimizers without deleting them (L45, `C137_leak_fails`); the second entry of a solver is never found (ttsp_configuration.cpp L421, `C137_second_fails`).
* C138 RemoveElement leaves a hole that compares as the largest ID, elements behind it are not found (inmost_mesh.h L3429, `C138_hole_fails`); PutElement appends to a set and keeps it marked sorted (`C138_put_fails`); IDs are numbered per type, so two elements of one set can share an ID (`C138_same_id_fails`). Comparison of centroids with a tolerance is cyclic (comparator.cpp L5-17, `C138_centroid_fails`). Only read: FindHandle passes the number of the comparator instead of CENTROID to GetGeometricData (eset.cpp L1561).
* C140 operator= of stored_variable_expression drops the old formula without deleting it (inmost_variable.h L216-217, `C140_leak_fails`); copying a default object dereferences NULL (L214, `C140_empty_fails`). Only read: pow(real, variable) passes its arguments in the wrong order (L713); stencil_expression uses mutable iterators in const functions (L409, L414, L421): both fail to compile when used.
* C141 `Node n = cell.getNodes()[0]; n = other;` writes through the address of the element of the temporary array (storage.cpp L11, `C141_dangling_fails`); with an array that still exists the assignment to the local variable changes the array (`C141_alias_fails`, announced in inmost_data.h L479-480). An assignment to a slot stores the handle but not the mesh, even in remote_reference_array (storage.cpp L22-25, `C141_mesh_fails`).
* C143 `condition` of blocks is documented to give the first block for a non-negative control (inmost_block_variable.h L743), but tests `> 0.0` (L636, L640), unlike `condition` of numbers (inmost_expression.h L2321): `C143_condition_fails`. A stencil without elements reads `coefs[0]` and `elems[0]` (L204, L214): `C143_empty_stencil_fails`. With an automatizator `Variable` of a product adds only as many terms as the result has columns (inmost_dense.h L3097, the failure of C106), so `Value` and `Variable` of the same block differ: `C143_product_fails`.
* C145 `CopyData(a,a)` empties arrays of variable size before reading them (tag.cpp L106, `C145_self_fails`); sparse data that only `a` has stays (`C145_stale_fails`); the test for an invalid tag at mesh.cpp L2610 is never reached with assertions because GetTag stops the program (tag.cpp L430, `C145_missing_tag_fails`).
* C146 SaveOptimizerOrReplace with an unknown type deletes the saved optimizer (optimizers.cpp L680-686, `C146_unknown_type`).
* C147 the loop at optimizers.cpp L715-719 tests `eof` before the read: a trailing blank gives a value never assigned (`C147_trailing_blank_fails`), a word makes it endless (`C147_word_fails`); empty lines give parameters without a name (`C147_empty_line_fails`); L744 tests `bad()`, which a failed open does not set (`C147_missing_file_fails`).
* C148 CollapseEdge keeps a cell of two triangles, each listed twice, when an edge of the common triangle of a bipyramid is collapsed (modify.cpp L1167-1183, `C148_degenerate_cell_fails`); without checks for duplicates it makes two edges over the same nodes (`C148_unchecked_fails`).
* C149 BeginTopologyCheck reports ADJACENT_DIMENSION though only another check is enabled (mesh.cpp L927, L935, `C149_not_enabled_fails`); PROHIBIT_CONCAVE_CELL alone is never checked (L919, L1036, `C149_concave_fails`); TRIPLE_SHARED_FACE misses a face of three cells (L1054, `C149_third_cell_fails`); an exception of EndTopologyCheck leaves the element in the mesh (L1184, `C149_exception_leaves_element_fails`); with DELETE_ON_ERROR the handle of the deleted element is returned as new (L1183, `C149_deleted_handle_fails`).
* C150 Condest takes the norm of the random vector for an estimate if one step is allowed, and never returns the documented 1.0e+100 as the flags of divergence are not set (SolverInner.cpp L231-235, L267-275, `C150_one_step_fails`); it can return less than one (`C150_below_one_fails`).
* C151 Edge::getEnd calls getNext after its end was reached: with all nodes hidden the index is one more than the size and is used (edge.cpp L67-69, `C151_hidden_ends_fails`).
* C152 CopyTag2Vector resizes the array to the largest position, not one more, and writes behind its end whenever there is an element (mesh.cpp L2735, L2746, L2771, L2782, `C152_last_value_fails`).
* C155 Element::Mean with two dimensions takes the length of the normal of a triangle with the first two components, which are zero, and returns 0/0 (geometry.cpp L2461, `C155_plane_fails`).
* C155 Element::Mean over a face that is not convex adds areas without sign and depends on the first node (geometry.cpp L2461-2463, `C155_nonconvex_fails`).
* C156 SynchronizeSetElementsWithOwner on a set that is shared and owned by this processor adds the rank of this processor to the processors to send to (eset.cpp L1805-1821, `C156_owner_itself_fails`); SynchronizeSetElements takes it out.
* C157 WachspressInterpolation2D clears the map only for points on a side; for points inside earlier entries stay and are divided by the sum of weights (geometry.cpp L2809, L2821, `C157_old_entries_fails`).
* C158 Cell::Inside without prepared orientation: `cur_edges` is a reference bound once to the edges of the first face (geometry.cpp L387) and the loop never goes on to neighbours of neighbours, so faces that share no edge with the first are never reversed and a point inside can be found outside (`C158_opposite_fails`).
* C159 Mesh::SetDimensions creates the tag `COORD` in place of `PROTECTED_COORD` (mesh.cpp L1907): a tag of the user with this name is overwritten (`C159_user_tag_fails`) or the assertion in CreateTag fails (`C159_user_size_fails`); hidden nodes are not counted, so if all are hidden they lose their coordinates (`C159_hidden_fails`).
* C160 Element::CastRay: at a corner of a face the tests of `uq` and `vq` are swapped (geometry.cpp L2714-2717), the entry is for the node at the other end of the side (`C160_node_fails`).
* C161 Face::Inside: for a face whose centre lies on the line of a side (an L-shaped face) all points of this line are inside (`C161_line_fails`); for segments in two dimensions `vec_cross_product` reads third entries that are not set and `vec_len(nrm,dim)` leaves out the third entry of the result, so the distance to the line is not tested (geometry.cpp L300-306, `C161_two_dimensions_fails`).
* C162 Face::SamePlane for faces compares cosines with the tolerance, so points of an accepted face can be at ten times the tolerance from the plane (`C162_tolerance_fails`); Edge::SameLine divides by the length of the first edge (`C162_point_fails`).
* C164 Mesh::PrepareGeometricData sets the flag ORIENTATION of faces outside of the test of the mask (geometry.cpp L1270), so faces count as oriented although none was turned (`C164_orientation_fails`).
* C71 the volume of a cavity is added, its surface is not connected with the outer one (`C71_cavity_fails`).

Read, not proved: SetData of REMOTE_REFERENCE uses a wrong stride; PutElements reads past
the end; AddElements for CENTROID_COMPARATOR increments the wrong iterator (eset.cpp L871); SortSet for
GLOBALID_COMPARATOR compacts from index 0; SetMarkerElements has no test for invalid handles;
CentroidComparator is not a strict weak order; NextHandle(h,etype) may return one past the end;
Vector/Matrix::Save over MPI; copy constructors of unary expressions; Matrix::Root does not advance its
counter; TestUniteFaces passes a private marker to SetMarker; TestUniteEdges leaks a marker;
AssignGlobalID clears one of five counters; FacesOrientation and CheckNormalOrientation walk over hidden
edges and faces; Element::Mean takes areas without sign; `mpi_tag*1000+it` may overflow.
