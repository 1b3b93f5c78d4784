# Formal model of MSTK in Lean 4: design

The model lives in `lean/Verif/`. C code is read from `/repo` at the pinned commit and
translated by hand, function by function, into total computable Lean definitions. Each
definition cites the file and lines it models and says where it simplifies.

## Conventions

* `Res α = ok a | ub | fatal | hang`. `ub` is undefined behaviour (NULL or freed pointer dereferenced,
  access outside allocated storage, read of uninitialised memory, over-wide shift). `fatal` is the
  `exit(-1)` reached from `MSTK_Report(.., MSTK_FATAL)`. `hang` is a loop that never ends (or a call
  that waits for a message nobody sends). A theorem saying that a call returns `ok` therefore also says
  that the call has no undefined behaviour, does not abort and returns.
* `void *` is `Option α`: `none` is NULL. Entities are abstract handles with decidable equality. In the
  topology model each handle carries a status (unused, live, deleted but kept, freed); touching a handle
  that is not allocated is `ub`.
* Machine integers are `Int`/`Nat` where only the value matters and overflow is excluded by the sizes;
  `BitVec` where the bit layout is the point (entity headers, list/hash headers, marker words, direction
  words, parallel flags).
* Layering: `List_ptr` is modelled with its real storage (slots, gaps, counters) in `ListModel`.
  The refinement theorems C01/C04/C06 show it behaves as a sequence; the topology modules then use
  Lean lists for `List_ptr` values. C14/C18 justify reading a "marked" test as membership.
* Files: `Verif/*Model.lean` (and `TopoQuery`, `BitField`, `TopoStep`) hold the model; `Verif/Topo*.lean`,
  `*Lemmas.lean` hold helper lemmas; `Verif/Props/*.lean` hold specifications, property theorems and
  non-vacuity examples. `TopoSpec.lean` holds the specification of a consistent mesh and of legal calls.

## Trusted base

* Lean 4.33.0's kernel. The theorems depend on no axioms other than `propext`, `Classical.choice` and
  `Quot.sound` (`#print axioms` on each theorem of the manifest; no own axioms, no `sorry`, no
  `native_decide`, no `bv_decide`). `decide +kernel` is used for complete finite tables, for executing
  concrete runs (examples, negation witnesses) and is evaluated by the kernel.
* The hand translation from C to Lean.
* Properties of the environment that the model takes as given:
  - `malloc`/`realloc` do not fail;
  - `int` is 32 bits and `1 << 31`, `~(1 << 31)` have their two's complement meaning (as with gcc and clang);
  - `qsort` sorts (modelled by insertion sort where the comparison is an order), `bsearch` is the loop of glibc;
  - MPI: collectives are functions of all ranks' arguments, called in the same order on all ranks;
    point-to-point messages are modelled both with fully synchronous sends and with any choice of buffered
    ones, and messages between two ranks with the same tag do not overtake each other.
* Not modelled: `double` arithmetic (coordinates; geometric predicates are inputs or ordered fields),
  file formats, METIS/Zoltan, ExodusII, memory leaks.


## Properties: what is modelled, how it is proved, status

| id | property | modelled | proof | status |
|----|----|----|----|----|
| C01 | A List_ptr behaves as a sequence | List.c storage (slots, gaps, counters), all edit operations | refinement to Lean lists, induction over histories | proved |
| C02 | Concatenation appends the source sequence | `List_Cat` | negation with witness (stale first-gap index); theorem for the remaining cases | partial |
| C03 | List_Insert places the new entry just before the given one | `List_Insert` | negation with witness (inverted comparison); theorem saying what it does | partial |
| C04 | Iteration visits each entry exactly once, in order | `List_Next_Entry` loop | induction over slots | proved |
| C05 | Lists never write outside their storage | storage bounds of the same model | invariant; every operation returns `ok` | proved |
| C06 | Set-like use of lists | ChknAdd/Contains/Locate/Rem | refinement | proved |
| C07 | Removal from a sorted list removes the entry looked for | `List_RemSorted` | loop invariant of the binary search; negations for absent entries | partial |
| C08 | Hash table is a find-or-insert map | Hash.c buckets and chains, any hash function, resizing | refinement to finite map; doubling lemma modulo 2^k | proved |
| C09 | Check-and-add into the hash never corrupts the table handle | `Hash_ChknAdd` return value | negation, theorem for absent keys | partial |
| C10 | Locked hash entities survive automatic purging | lock counter and purge | invariant over histories | proved |
| C100 | Merging two faces in a reduced representation puts the first in place of the second | MFs_Merge_R3R4 over the R4 model with MR_Replace_Faces_FNR3R4 and the mesh sets | the invariant of C95 is kept by each replacement; induction over the regions of the second face; the answers then follow from C95 | partial |
| C101 | The edges of a region are the sides of its faces | MR_Edges_R3R4 (tets, hexes, other regions) and MR_UsesEdge_R3R4 over the R4 model; what stands at the end of an edge may be a vertex or an edge | the corners of a tet are renamed to four numbers, which the code cannot tell apart, and the finite table of all orders is decided; induction over the faces for the other regions; invariant of C95 | partial |
| C102 | Updating all attributes gives every ghost the values of its owner | the loop of MESH_UpdateAttributes on all partitions: calls that all must make fall into rounds, or the partitions wait for ever; each round is the exchange of C33 and C34 with any schedule | induction over the attributes: rounds by position; each round changes one attribute only, so the results of C34 add up; completion from C33 | partial |
| C103 | Merging two faces of a mesh that stores vertices and regions only | MFs_Merge and MFs_Merge_R1R2 over the R1 model with the deletion of faces and the mesh sets | none of the answers about other entities reads the state of the second face, so they follow from C92; the list of faces by an invariant over all histories | partial |
| C11 | Sorting sorts | `List_Sort`'s quicksort loops | functional correctness, induction on the range | proved |
| C12 | Comparison functions are consistent orders | comparison functions on 32-bit ints | order laws; negation with overflow | proved |
| C13 | A marker is never handed out twice | marker allocator | invariant over histories | proved |
| C14 | Marks with different markers are independent | mark bits in a 32-bit word | bit-vector lemmas, induction over histories | proved |
| C15 | Entity header fields read back and do not interfere | packed bit fields of the entity header | lens laws on `BitVec 32` | proved |
| C16 | Attribute values are a map | attribute instances of an entity | refinement to finite map | proved |
| C17 | Clearing an attribute is always safe | clearing an attribute | negation (NULL source of memcpy), theorem for scalars | partial |
| C18 | Mesh set algebra is set algebra | mesh set algebra | membership lemmas over mark bits | proved |
| C19 | IDs of live entities are unique and resolvable | entity lists, IDs, sorted search | invariant over histories; negations | partial |
| C20 | Mesh counts and traversal agree with the live entities | counts and traversals of the entity lists | invariant over histories | proved |
| C21 | Upward and downward adjacency agree (full representation F1) | F1 adjacency of vertices, edges, faces, regions and 26 edit operations | global invariant `Consistent` preserved by every legal operation; induction over histories | proved |
| C22 | Derived adjacency queries return the right sets | adjacency queries across dimensions (MV/ME/MF/MR) | membership characterisation from the invariant | partial |
| C23 | Face vertices and edges are reported in cyclic order | `MF_Vertices`, `MF_Edges` with start vertex and direction | rotation/reversal lemmas over closed loops | proved |
| C24 | A face defined by vertices reports those vertices | `MF_Set_Vertices` | loop of leading edges; negations | proved |
| C25 | Edge directions follow their edges when a face is edited | `MF_Rem_Edge`, `MF_Replace_Edges(_i)` | list surgery lemmas; negations | partial |
| C26 | Replacing faces of a region leaves other faces alone | `MR_Replace_Faces` | direction word lemmas; negation | partial |
| C27 | Deleting with keep then restoring is the identity on adjacency | delete with keep and restore, all four kinds | state equality after restore | proved |
| C28 | Standard element tables are consistent | standard element tables as literals | `decide` over the complete finite tables | proved |
| C29 | Splitting an edge preserves the mesh around it | `ME_MultiSplit`, `ME_Split` | loop over faces with simulation of loops | partial |
| C30 | Merging vertices redirects every use | `MVs_Merge` | loop invariant over the edges of the second vertex | partial |
| C31 | Parallel adjacency flags are independent | parallel flag words of a mesh | bit lemmas, induction over histories | proved |
| C32 | Partitions agree on who sends to whom | `MESH_Update_ParallelAdj` on all ranks | all-ranks model of the collectives | proved |
| C33 | Attribute exchange cannot deadlock | rank programs of sends and receives | every schedule: progress by well-founded argument, termination measure | proved |
| C34 | After an update ghosts carry the owner's value | attribute exchange on all ranks | refinement over any schedule of C33; negations | partial |
| C35 | Global IDs identify points | global vertex IDs by coordinates | sorted runs, prefix sums over ranks | partial |
| C36 | Renumbering global IDs is collective and contiguous | global IDs of owned entities and ghosts | prefix sums; negation for empty ranks | partial |
| C37 | Column fix keeps columns together | `FixColumnPartitions` column walk | loop invariant; termination measure | proved |
| C38 | Structured meshes have the right entities and classification | `MESH_Gen_Structured` 2D and 3D: loops, classification tables, and the calls run on the topology model | membership in nested loops, complete case tables; composition with C24/C48 | proved |
| C39 | Fatal errors stop the program | `MSTK_Report` state | negation, theorem for a fresh message | partial |
| C40 | Sequential renumbering gives IDs 1..n | `MESH_Renumber` (sequential) on the entity lists | refinement | proved |
| C41 | Element type matches the faces | element type decision and stored type | case analysis; negation for `MR_Rem_Face` | proved |
| C42 | Edges and faces are found again from their vertices | common edge/face searches | soundness and completeness; negations | partial |
| C43 | Coordinate comparator is a consistent order | coordinate comparison with tolerance, over ordered fields | order laws; negation of transitivity | partial |
| C44 | Counters packed with flags read back | packed list and hash headers | bit arithmetic; negation for large hash tables | partial |
| C45 | Adding to a mesh set returns the set | `MSet_Add` | negation (the internal list is returned) | partial |
| C46 | Renaming a set is safe | `MSet_Rename` | buffer model; negation | partial |
| C47 | Deletion, restoration and renewed deletion | delete of a restored entity | negation, theorem otherwise | partial |
| C48 | A region defined by its vertices has the faces of its element, each seen from outside | `MR_Set_Vertices` for standard elements and polyhedra | simulation of the face loops over the element tables | proved |
| C49 | Every edit does what it says and nothing else | effect of each of the 26 edit operations on all queries | exact frame: what changes, and that nothing else does | proved |
| C50 | Splitting a face along a new edge cuts it in two and changes nothing else | `MF_Split_with_Edge` | walk invariants, closed cycles cut and closed again; composition of edit effects | proved |
| C51 | Splitting a face at a point makes a fan of triangles | `MF_Split` | induction over the edges of the face; composition of edit effects | proved |
| C52 | Joining two faces across their common edge makes one face with the outer boundary of both | `MFs_Join` | alignment of both loops at the edge, `Closed.join`, composition of edit effects, `MR_Replace_Faces` of two faces by one (`replaceTwo_ok`) and induction over the regions; negations with concrete meshes | partial |
| C53 | Joining two regions removes their common face and unites their other faces | `MRs_Join` | composition of edit effects; negations with concrete meshes | partial |
| C54 | Swapping the diagonal of two triangles | `ME_Swap2D` | alignment of both triangles at the edge, composition of edit effects; negations with concrete meshes | partial |
| C55 | Merging two edges leaves every face closed | `MEs_Merge_FN` with `MF_Replace_Edges`, set replacement | induction over the faces of the second edge; negation with a concrete mesh | partial |
| C56 | Merging two faces glues the regions at both sides | `MFs_Merge_FN` with `MR_Replace_Faces`, set replacement | induction over the regions of the second face; negations with concrete meshes | partial |
| C57 | The vertices of an element come in a standard order | `MR_Vertices_FNR3R4` case by case | faces matched with the faces of the standard element, symmetry of the element to start at any face, then evaluation; general polyhedra by induction over the faces | proved |
| C58 | The edges of an element come in a standard order | `MR_Edges_FN` case by case, `MR_UsesEdge_FN`, `MR_UsesVertex_FNR3R4` | as C57; a table of the edges of the standard elements, checked to be that of the sides of their faces | proved |
| C59 | A mesh written to a file is read back as the same mesh | `MESH_WriteToFile` and `MESH_InitFromFile` down to the characters of the file, `fprintf`/`fscanf` conversions for integers and words; floating point numbers through an abstract pair of conversions | the scanner undoes the printer line by line; then the mesh built from the lines is followed entity by entity as the image of the source under positions | proved |
| C60 | A copied mesh is the mesh it was copied from | `MESH_Copy` for two different meshes of the full representation, with the temporary attribute, attributes and sets | an invariant of the four loops says what the destination is after so many vertices, edges, faces and regions; attributes and sets are followed entity by entity | partial |
| C61 | A mesh sent by one process and received by another is the same mesh | `MESH_SendMesh` and `MESH_RecvMesh` with all they call, messages between two processes arriving in order, buffers of the sizes the code gives them | what is sent is computed in closed form; an invariant over the loops of the receiver says which entities are there and which of them have been filled in; the final state is that of a copy to a new mesh (C60), so the statement about copies applies | partial |
| C62 | The element graph lists for every element the elements next to it | `MESH_GetElementGraph`: both branches, the array with its capacity, the `realloc` of the wrong pointer | the loops are computed in closed form as offsets and a concatenation of neighbour lists; counting in these lists is reduced to counting common faces or edges | partial |
| C63 | The topology check accepts valid meshes and rejects invalid ones | `MESH_CheckTopo`: the checks of vertices, edges, faces and regions, including both walks with their limits, the variable reused by the inner loop and the reads through NULL | each check is computed or inverted separately; the walk round a vertex follows the ring, the walk round an edge the fan, by induction on the rounds; the orientation test is compared with the specification over all values of the four flags | partial |
| C64 | Renumbering to reduce the bandwidth gives every vertex an ID of its own | `Graph_Renumber_GPS` with its four parts, array by array, with the room in each array and cells that were never written; the vertex branch of `MESH_Renumber` with and without markers | levels: invariant of the breadth first traversal; ends: the depth grows in each round; numbers: an invariant that the numbered nodes in order are the inverse of the array; the overflow: the set found would have to contain its first node twice | partial |
| C65 | Collapsing an edge draws one vertex to the other and leaves a sound mesh | `ME_Collapse` as a whole: choice of the vertex, deletion of tetrahedra and triangles, the edge taken out of polygons, deletion of flat regions, merging of edges and of faces, and the lists returned; mesh sets left out | the faces on the edge are edited one after the other and each loses the edge at its place in the cycle; an invariant of the merging loop over the edges at the vertex; two faces with the same edges would have the same vertices | partial |
| C66 | The lists of ghost and overlap entities are those with the label | the ghost, overlap and search lists of the four kinds beside the entity lists of C03/C04; building, sorting, adding, removing, traversing and searching; entity data reduced to label and global ID | each list holds a permutation of the live entities with its label in the order of the specification; invariant over all histories; the traversal and linear search of C02 | partial |
| C67 | Searching by global ID finds the entity that has it | `MESH_Enable_GlobalIDSearch` and the four searches, with the flag that says whether the lists are sorted | the search list is a permutation of the live entities sorted by number; binary search on a list without repetitions; the states in which it fails are tracked by the specification | partial |
| C68 | Labelling marks exactly the layer of elements at the partition boundary | `MESH_LabelPType` for faces and regions, with the queries of C23, C57 and C58; labels as maps | each loop is characterised by the set of entities it reaches; element loops by induction, the vertices and edges of an element by C57/C58 | partial |
| C69 | Deleting the interior leaves exactly the boundary | `MESH_DelInterior` with the four delete functions and the lists it walks through from the back | an invariant says which entities are gone, with all stored boundaries as they were; each deletion is legal because what it bounded is gone | proved |
| C70 | Quadrilaterals made from triangles form the refined mesh | `MESH_Tri2Quad` with `MF_Coords`, `ME`/`MV` queries and `MF_Set_Vertices` for the new faces; a point is the list of vertices it averages | the three stages of new vertices give an injective numbering of the old entities; the new faces are built by C23/C45-style induction on the face list; the edges found by a fold over the sides | proved |
| C71 | Hexahedra made from tetrahedra form the refined mesh | `MESH_Tet2Hex` with `MR_Vertices`, `MVs_CommonEdge`, `MVs_CommonFace`, `MR_Coords` and `MR_Set_Vertices` for the new regions; a point is the list of vertices it averages | the fifteen entities of a tetrahedron are found by C57 and C42; the table of hexahedra is checked completely for common oriented faces, and an oriented quarter of a triangle determines its tetrahedron; the new mesh is built by induction with C48 | proved |
| C72 | Classification worked out from the model regions | `MESH_BuildClassfn` with its four stages for `use_geometry` = 0: the tables of known model faces, edges and vertices, the searches with their different comparisons, and the IDs that are used but not entered | one loop lemma for the three stages: every step extends the table, so that what a search found is the first match in the final table; distinct IDs in the table give the equivalences, and the order of the steps gives that an ID not entered is used once | proved |
| C73 | Mesh from a general description | `MESH_InitFromGenDesc` with its three loops, coordinates and IDs; `MF_Set_Vertices` and both forms of `MR_Set_Vertices` are those of C48 | invariant of a mesh of regions given by the cycles of their faces, kept by a standard element and by a polyhedron; the faces by the invariant of C38 | proved |
| C74 | Splitting an edge of a mesh of triangles and tetrahedra | `ME_Split_SimplexMesh` with `ME_Regions`, `MR_Delete`, `MF_Delete`, `ME_Split`, `MF_Set_Vertices` and `MR_Set_Vertices`; the position and classification of the new vertex and edges are those of `ME_Split` and not in the state | the cut of C69 for the deletions, C29 for the edge, then the new faces and regions are added with the rest staying and every new entity listed (`FacesMore`, `RegsMore`); the orders of the vertices of a tetrahedron are turned into one another by the rotations of C48, and oriented faces determine their tetrahedron | partial |
| C75 | Splitting a face of a mesh of triangles and tetrahedra | `MF_Split_SimplexMesh` with `MF_Regions`, `MR_Delete`, `MF_Split`, `MF_Set_Vertices` and `MR_Set_Vertices`; the position and classification of the new vertex are those of `MF_Split` and not in the state | what is read of each tetrahedron is a turn of its vertices that begins with the triangle seen from inside; the cut of C69 for the deletions; the new triangles and tetrahedra are added with the rest staying and every new entity listed, as for C74; the two tetrahedra of a face see it in opposite directions, so no side of a face is wanted twice | partial |
| C76 | Partitioning a mesh | `MESH_Partition` for surface and volume meshes: the loops over parts and elements, the search for copies in the lists Global2Local, the making of vertices, edges, faces and regions, owners, global IDs and the final correction of owners | an invariant of a piece being built (its entities are exactly the copies, each like its original and bounded by copies) is kept by the making of a vertex, edge, face or region; every run is a chain of copies made of what had none, along which the invariant of owners, links and global IDs is kept | partial |
| C77 | The boundary between parts | `MESH_BuildPBoundary` for surface and volume meshes: the loops over faces, edges and vertices, with the counts of neighbours in the piece and in the mesh | the neighbours in the piece are, one to one, those of the original that are in the piece, so the counts differ just when one is missing; the set of flagged entities is followed through the loops and shown to be what is in an element outside the piece | partial |
| C78 | Ghosts, overlap and owners of a distributed mesh | `MESH_AddGhost` for surface and volume meshes (F1): the inward search that labels overlap entities, the outward search that copies ghosts, the labelling of the boundary; and the steps of `MESH_Partition_and_Send` before anything is sent | the marked vertices and elements are followed ring by ring and shown to be the layers around the piece and around the rest of the mesh; the copies are followed with the invariants of C76; then an invariant over the pieces, finished one after the other, and the fact that the layers around the rest are the union of the layers around the other parts | partial |
| C79 | The mesh sent to other processors for ghosts | `MESH_BuildSubMesh` for surface and volume meshes (F1): marks, the arrays from IDs to places in the lists of the new mesh, copies | refinement: with an invariant on marks and arrays every step gives the same as the corresponding step of the making of a piece (C76), where copies are found by links; then the invariants of C76 | partial |
| C80 | Adding the ghost faces that were received | `MESH_ConcatSubMesh` for surface meshes (F1): the lists of boundary entities, matching by global ID, the temporary attributes, ghosts made earlier, the direction of edges that are there already | an invariant over the run: the mesh is sound, the old entities are unchanged, global IDs are different, an attribute leads to an entity with the same global ID, every ghost made for the current mesh is known by an attribute; so an entity that is not found is new. Boundaries are compared by global IDs and carried along as the mesh grows | partial |
| C81 | Adding the ghost regions that were received | `MESH_ConcatSubMesh` for volume meshes (F1): what C80 has, and the matching of faces, the comparison of the vertices round a face that is there already, ghosts of faces and regions | the invariants of C80, stated for both kinds of meshes; the comparison of vertices is right for lists without repetitions that are rotations of each other or of the reverse; the sides that regions have (face and direction, as a cycle of global IDs) are different for regions in different places, so that no side of a face is used twice | partial |
| C82 | Combining the values on an entity and on its ghosts | `MESH_GathScat1Attribute`: the programs of all partitions as trees of blocking sends and receives whose continuation depends on what was received (first the numbers of entities, then lists of that size), with the steps of MPI as in C33; the combination of values; the update afterwards is that of C33 and C34 | every program follows a fixed list of sends and receives; a general theorem: if these lists are sorted by a common order of the exchanges and what is sent is what is expected, every execution ends, no deadlock is possible and the results are determined; then the values by the lemmas of C34 | partial |
| C83 | Exchanging values across the boundary of partitions | `MESH_XchngEdgeFaceAttrib`: the two loops as for C82 with the ghosts on the boundary, the update of the ghosts (C33, C34) and then the owners, that take what was received before | the communication by the theorem of C82; what the search finds first is the value on the ghost of the lowest rank; ghosts by C34 with the values that the owners had before | partial |
| C84 | Updating the coordinates of ghost vertices | `MESH_UpdateVertexCoords`: what is sent, the places in the lists received, the search and the reading; the calls of MPI are those of C33 | the executions by C33; the places in the lists by the lemmas of C34 | proved |
| C85 | Attribute values of a distributed mesh | `MESH_CopyAttr`: reading the value, leaving out zeros, the second array, the search for the piece and the setting, for all copies in the lists of C76 and C78, and the making of the attributes in `MESH_Partition`; attribute instances as in C16 | induction over copies, entities and kinds: an entity of a piece is a copy of one entity only (C78), so its value is written by that one | partial |
| C86 | Mesh sets of a distributed mesh | `MESH_CopySet`: the set of the name found or made in each piece, the members and the lists of their copies; a missing list is undefined behaviour | exact contents by induction over members and copies; membership by the links of C78 | partial |
| C87 | Splitting a region with a loop of edges | `MR_Split_with_EdgeLoop`: directions of the loop, new face, the two collections of faces with their list of processed faces, the new regions; arrays of 30 and 512 entries | invariant of the collection (right half, no repetition, neighbours of finished faces are in); every face of a half is reached by induction along the paths from the loop | partial |
| C88 | Finding the neighbours of a partition | `MESH_BuildConnection` on all partitions: sorted boundary IDs, largest count, padded blocks and their gather, the search in the block of every other partition, the flags | entries of the gathered blocks by arithmetic; the search finds an ID exactly if it is in the block (sortedness); simulation of the flags as in C31 over both loops | proved |
| C89 | Adjacency in the representation F4 | representation F4: element lists of edges, edge lists of vertices, creation, deletion and restoration of faces and regions, the upward queries with their marks as membership tests; freed storage is undefined behaviour | invariant over all legal histories (an edge lists its faces and the regions that were restored); each query by induction over the lists it walks | partial |
| C90 | Export to OFF and STL | `MESH_ExportToOFF` and `MESH_ExportToSTL`: the text they print, floating point printing and arithmetic abstract | readers of both formats are specified on the words of a text; the words of the printed text by induction over vertices and faces; keywords that run together by a lemma on words without a blank between them; the normal by ring identities | partial |
| C91 | Partitioning with METIS | `MESH_PartitionWithMetis` and `MESH_Get_Partitioning` with METIS: both branches, the array of fixed size, METIS an abstract library with its contract as hypothesis | the loops equal those of C62 up to the array; each side counted at most twice gives the bound on the entries; symmetry by counting common sides | partial |
| C92 | Adjacency in the reduced representation R1 | the representation R1: what vertices, faces and regions store, creation, setting of vertices, deletion and restoration, and the searches for regions of vertices and faces, the direction of a face in a region and the region on a side | invariant over the calls that ties what is stored to what the history says; rotations of lists for the starting vertex and the comparison of cyclic orders; the tables of the standard elements compared completely with an own list of outward faces | partial |
| C93 | Check of the parallel information | all five functions of MESH_Parallel_Check.c as programs of processes that send and receive, with packing of integers, sorting and searching of overlap entities, and the limits of arrays and receives | scripts of programs that go through any number of phases match, so no deadlock in any schedule; induction over the entries of messages; a process that waits for one that has returned waits for ever (invariant over all executions); concrete runs for the negations | partial |
| C94 | In a mesh that stores only vertices and regions, the edges and faces made on request are the right ones | the queries of an R1 mesh that make edges and faces, without the hash table: edges and faces of a region from the tables or the template, edges of a face, edges, faces and neighbours of a vertex, faces and regions of an edge, with the comparison of cycles; reading a null list is undefined | an invariant of all meshes reachable by histories and queries (entities that were there are kept, new names are unused); one lemma about choosing representatives from the entities of all regions, used for edges and faces on their vertices; the edge table is compared with the faces of the standard elements by evaluation; comparing cycles is rotation or reflection; negations, three of them for all meshes | partial |
| C95 | In a mesh that stores vertices, faces and regions but no edges, every query answers what the mesh is | the lists of an R4 mesh and the functions that change them, faces and regions being live, marked as deleted or freed; the queries; regions given by vertices with and without template, with edges made on request | an invariant that ties the lists to what the caller did (who is on which side of a face, which faces a vertex was told), kept by each of ten calls; each query is read off the invariant; the negations follow from the same invariant, the one without template from a predicate that says undefined or a face without vertices | partial |
| C96 | Lengths of edges and the angles between edges and between faces are those of the geometry | the vector functions, the length functions of edges, MEs_Angle and MFs_DihedralAngle over the F1 topology, numbers being an ordered field with a function for the square root; the array of coordinates is kept from the first to the second face | the cosine is specified by the inner product and two lengths and shown to be unique and between -1 and 1; the edges by cases of which ends meet; for the faces, C23 gives where the two lists of vertices start, the third point is a combination of the perpendicular direction and the edge with a positive coefficient, and the inner product of the normals is that of the perpendicular directions; the negations are computed for every ordered field with a square root | partial |
| C97 | The condition numbers of the corners of a face measure the corners | MF_CondNums with its thresholds over the F1 topology, numbers as in C96; a division by zero is the outcome none | the formula with three lengths is turned into the area of the parallelogram; the bound by squares | partial |
| C98 | The format of a file is the one its name or the caller gives | the choice of the routine in MESH_ExportToFile and MESH_ImportFromFile, on strings of any length; the routines themselves are outcomes | the position of the first dot after the first character, by induction on the name; the tables of extensions by cases | partial |
| C99 | Merging two vertices in the reduced representations redirects every use of the second one | MVs_Merge_R1R2 over the R1 model with the faces it makes, MVs_Merge_R3R4 over the R4 model, with the mesh sets | the invariants of C92, C94 and C95 give the regions and faces at the vertex; induction over them | partial |

Theorem names are in `MANIFEST.json`. A theorem whose name contains `negation` exhibits a concrete
execution of the modelled code on which the English property fails; the accompanying `_partial` theorem
proves the property on the rest. The notes in the manifest say what is missing.

## Where the code and the property disagree

* **C02** Concatenation appends the source sequence: Code violates the property when dest has no gaps and src has some (List.c:972-974); proved otherwise. (`C02_list_cat_negation`)
* **C03** List_Insert places the new entry just before the given one: Code violates the property (inverted comparison, List.c:511); append case proved. (`C03_list_insert_negation`)
* **C07** Removal from a sorted list removes the entry looked for: Proved for entries in the list; for absent entries the code hangs or reads an uninitialised variable. (`C07_remSorted_absent_negation`, `C07_remSorted_absent_ub`)
* **C09** Check-and-add into the hash never corrupts the table handle: Code violates the property when the key is present (returns the entry instead of the table); proved for absent keys. (`C09_hash_chknAdd_negation`, `C09_hash_chknAdd_negation_witness`)
* **C100** Merging two faces in a reduced representation puts the first in place of the second: Proved for all legal histories and all pairs of faces that no region has both of and no two regions use in the same direction: every query of C95 answers as if the regions had been given the first face. The code violates the rest: the direction is kept although the first face goes around the other way, so the region has it inside out (for all such faces), and a region that uses the first face in the same direction is overwritten and forgotten by the face (for all histories). (`C100_negation_reversed`, `C100_negation_lost`)
* **C101** The edges of a region are the sides of its faces: Proved for all legal histories and all tets, with faces and vertices in any order and direction; whether a region uses an edge is proved for all regions. The code violates the rest, for all regions: for a hex only four of the twelve edges, and for other regions only those of the first face, have vertices at their ends, the others have edges there; for other regions edges are also counted once for each face. (`C101_negation_hex`, `C101_negation_other`)
* **C102** Updating all attributes gives every ghost the values of its owner: Proved for all partitions, all attributes and all schedules of the messages, if all partitions have the same attributes in the same order, pointers aside; values that are zero are not passed on (C34). The code violates the rest: attributes are brought together by their position and not by their name, so that two partitions with the same attributes in another order exchange the values of different ones, and partitions with different numbers of attributes wait for ever (for all of them). (`C102_negation_hang`, `C102_negation_order`)
* **C103** Merging two faces of a mesh that stores vertices and regions only: Proved for all legal histories and all pairs of different faces: the first face is answered, and all questions about vertices, regions and the other faces are answered as if the second face had not been made. The code violates the rest, for all histories: the second face is freed but stays in every set and on the list of faces, which a mesh without regions has, the model entities are not looked at, and a face merged with itself is answered although it is gone. (`C103_negation_list`, `C103_negation_class`, `C103_negation_self`)
* **C12** Comparison functions are consistent orders: compareINT subtracts and overflows for arbitrary ints (negation recorded); the property holds for IDs, edges and faces. (`C12_compareINT_negation`)
* **C17** Clearing an attribute is always safe: Code violates the property for vector/tensor attributes (memcpy from NULL). (`C17_clear_negation`, `C17_clear_negation_witness`)
* **C19** IDs of live entities are unique and resolvable: Uniqueness proved; lookup proved except when sorted search is requested with no live entities (crash) or entities are restored (missed). (`C19_lookup_crash`, `C19_lookup_negation`)
* **C21** Upward and downward adjacency agree (full representation F1): For legal histories; the negation theorems show concrete histories outside the class (redefining an edge end, replacing by the same vertex, redefining a face, an edge twice in a face) after which the answers disagree. (`C21_negation_reset_vertex`, `C21_negation_replace_same`, `C21_negation_reset_edges`, `C21_negation_repeated_edge`)
* **C22** Derived adjacency queries return the right sets: All list queries are exact. The code violates the counting part: MV_Num_Regions of a vertex without regions dereferences NULL. (`C22_negation_num_regions`, `C22_negation_adjacent_twice`, `C22_negation_adjacent_faces_twice`)
* **C24** A face defined by vertices reports those vertices: For up to 30 vertices, consecutive ones distinct; more than 30 write outside the fixed array, and a repeated consecutive vertex gives a face without a closed loop. (`C24_too_many`, `C24_negation_repeated`)
* **C25** Edge directions follow their edges when a face is edited: The code does not satisfy the full property: replacing edges by two or more fewer, by more across the end of the list, or naming three or more old edges backwards are wrong (negations). The theorems cover all other cases. (`C25_negation_shrink`, `C25_negation_wrap`, `C25_negation_named_backwards`)
* **C26** Replacing faces of a region leaves other faces alone: When at least as many new faces as old ones are given; with fewer the directions are shifted wrongly (negation). (`C26_negation`)
* **C27** Deleting with keep then restoring is the identity on adjacency: For entities that are fully defined (edges with both vertices, faces and regions with a list); restoring an edge with a missing vertex dereferences NULL (negation). (`C27_negation_edge_without_vertex`)
* **C29** Splitting an edge preserves the mesh around it: For edges between two different vertices whose faces use them once and keep at most 32 edges; beyond 32 edges the code shifts out of range (negation). (`C29_negation_too_many`)
* **C30** Merging vertices redirects every use: For two different vertices, the second without an edge to itself; the other cases fail (negations). (`C30_negation_same_vertex`, `C30_negation_edge_to_itself`)
* **C31** Parallel adjacency flags are independent: For one MESH_Set_Prtn call; a second call with more partitions overruns the array (negation). (`C31_set_prtn_again_negation`)
* **C34** After an update ghosts carry the owner's value: Ghosts get the owner's value unless it is zero, for every schedule of the exchange; zero values are never passed on, one-component vectors are never updated, and an unset vector on an overlap entity reads a null pointer (negations). (`C34_negation_zero`, `C34_negation_one_component`, `C34_negation_no_vector`)
* **C35** Global IDs identify points: Proved for every consistent comparison of points; the code's comparison of coordinates has a tolerance and is one when coordinates are equal or further apart than it (C43); without that IDs are lost (negation). (`C35_negation_tolerance`)
* **C36** Renumbering global IDs is collective and contiguous: When all partitions have entities of the type, or none; otherwise the call hangs (negation). Two or more partitions for the ghosts. (`C36_negation_empty_partition`)
* **C39** Fatal errors stop the program: Code violates the property when the message repeats the previous one. (`C39_fatal_negation`, `C39_long_message_ub`)
* **C41** Element type matches the faces: The decision for any face list, and the stored type after MR_Set_Faces and MR_Replace_Faces. MR_Rem_Face does not update the stored type: proved as a negation. (`C41_negation_rem_face`)
* **C42** Edges and faces are found again from their vertices: MVs_CommonEdge and MEs_CommonFace in full for different entities; MVs_CommonFace is sound, and complete when consecutive vertices are joined by the face's edges; negations for the rest. (`C42_negation_same_vertex`, `C42_negation_diagonal`, `C42_negation_parallel_edges`, `C42_negation_too_few`)
* **C43** Coordinate comparator is a consistent order: Not transitive for any positive tolerance. (`C43_compare_coords_negation`)
* **C44** Counters packed with flags read back: Lists proved; hash counts from 2^25 to the documented maximum 2^26-1 are misread. (`C44_hash_header_negation`)
* **C45** Adding to a mesh set returns the set: Code returns the internal list. (`C45_mset_add_negation`)
* **C46** Renaming a set is safe: Code overruns the name buffer for longer names. (`C46_rename_negation`)
* **C47** Deletion, restoration and renewed deletion: Code has undefined behaviour when deleting a restored entity whose ID is not the largest. (`C47_delete_restored_negation`)
* **C48** A region defined by its vertices has the faces of its element, each seen from outside: Classification of created edges and faces is not part of this model. When a side is taken the code builds the region with the face turned round; a face on the same vertices in another order is taken for the face of the polyhedron (the two negation theorems). (`C48_negation_side_taken`, `C48_negation_twisted`)
* **C52** Joining two faces across their common edge makes one face with the outer boundary of both: Proved for each vertex once in each face and at most 32 edges in the result: for faces without regions, and for faces between the same regions when each region uses the faces listed behind the second one in the same direction. Faces on different model entities are joined all the same (the code compares the first face with itself), and when the region uses a later face in the other direction, that face is told the region is on its other side (negations). (`C52_negation_class`, `C52_negation_region`)
* **C53** Joining two regions removes their common face and unites their other faces: Proved for regions with exactly one common face; with two common faces the joined region has one of them twice, and joining a region with itself is a use after free (negations). (`C53_negation_two_faces`, `C53_negation_itself`)
* **C54** Swapping the diagonal of two triangles: Proved when no region has the triangles and they go round the same way; otherwise the code reads the deleted edge, or leaves a region with deleted faces (negations). Classification is not modelled (the code gives the new entities model ID 0). (`C54_negation_folded`, `C54_negation_region`)
* **C55** Merging two edges leaves every face closed: Proved for different edges that no face has both of, faces with up to 32 edges; an edge merged with itself is deleted while faces have it (negation). (`C55_negation_itself`)
* **C56** Merging two faces glues the regions at both sides: Proved for faces going round the same edges when the side needed is free; the code compares too few edges and so merges faces which share only part of them, and a face merged with itself is deleted (negations). (`C56_negation_one_edge`, `C56_negation_itself`)
* **C57** The vertices of an element come in a standard order: Full representations. Needs that no two edges join the same vertices, and that the stored type is that of the element. Negations: a prism crossed by an edge of the mesh gets a wrong numbering; the last face of an open polyhedron is not looked at. (`C57_negation_diagonal`, `C57_negation_open`)
* **C58** The edges of an element come in a standard order: Full representations. Needs that no two edges join the same vertices; the stored type is not used. Negations: for a prism crossed by an edge of the mesh the diagonal is answered and edges are missing; the last face of an open polyhedron is not looked at. (`C58_negation_diagonal`, `C58_negation_open`)
* **C59** A mesh written to a file is read back as the same mesh: One process, representations F1 and F4, release build. Numbers are any type with a printing and a scanning whose output is a word that can be scanned. Negations: a mesh without edges is written but cannot be read; digits after the 16th or 6th decimal are lost; a blank in a name makes the file unreadable; an empty file is undefined behaviour. Writing the extra data of parallel runs and reading R1, R2, R4 files is not modelled. (`C59_negation_no_edges`, `C59_negation_precision`, `C59_negation_blank_name`, `C59_negation_empty_file`)
* **C60** A copied mesh is the mesh it was copied from: Full representation F1, source and destination different meshes, release build. Proved for faces of at most 30 edges and regions of at most 512 faces. Negations: a face with 31 or 32 edges overruns an array; an attribute value that is zero is not set on the copy; the IDs of the source are set but the largest ID is not kept up, so a vertex made later has an ID in use. An attribute called copyatt is not copied, pointers are not copied. (`C60_negation_edges`, `C60_negation_zero`, `C60_negation_id`)
* **C61** A mesh sent by one process and received by another is the same mesh: Full representation F1, release build, receiver's mesh new. Proved for meshes with faces, IDs that are 1, 2, ... in list order, at most 30 edges to a face, global IDs that are distinct, sets that are not empty, vectors that every entity has. Negations show each is needed: gaps in the IDs make receiving undefined, a face with 31 edges overflows the receive buffer, without faces a message is left over and taken for another, without global IDs sets arrive with other entries, an empty set or a vector missing on an entity makes sending undefined; values that are zero and values of attributes for all kinds of entities do not arrive. (`C61_negation_zero`, `C61_negation_all`, `C61_negation_gid`, `C61_negation_id`, `C61_negation_edges`, `C61_negation_faces`, `C61_negation_set`, `C61_negation_vector`)
* **C62** The element graph lists for every element the elements next to it: Full representation F1. Proved for meshes whose element IDs count the elements and, in a mesh with regions, at most four neighbours per region on average. Negations: with more neighbours (any mesh of hexahedra of some size) growing the array is undefined because realloc is given the address of the caller's pointer; after deletions the graph names elements that do not exist; a face that uses an edge twice breaks symmetry. (`C62_negation_realloc`, `C62_negation_ids`, `C62_negation_symmetric`)
* **C63** The topology check accepts valid meshes and rejects invalid ones: Full representation F1. Proved: every well formed mesh is accepted; an accepted mesh has the properties in `Checked`. The rest of the other direction is false: the second vertex of an edge on a model face is not checked when there are regions, edges and faces on different model entities of one dimension and edges with equal vertices are accepted, and a surface with a turned face, a vertex without a face on its model face and an open region crash the routine or stop the program instead of giving 0. (`C63_negation_second_vertex`, `C63_negation_same_dimension`, `C63_negation_degenerate_edge`, `C63_negation_flipped_face`, `C63_negation_no_face`, `C63_negation_open_region`)
* **C65** Collapsing an edge draws one vertex to the other and leaves a sound mesh: The whole routine is modelled; the effect is proved for edges of surface meshes (triangles and polygons up to 32 vertices) at which the collapse does not make two faces coincide. The full statement is false: with topoflag 1 a vertex that was asked for is deleted when the other one is on the same model entity and has a smaller global ID; an unclassified mesh crashes when an edge to be merged has no face left; a merge refused by MEs_Merge is returned as done and leaves two edges with the same ends; in a mesh with regions the outer vertex is not preferred. Missing: the effect on regions. (`C65_negation_unclassified`, `C65_negation_refused_merge`, `C65_negation_outer`)
* **C66** The lists of ghost and overlap entities are those with the label: Proved for every history: the ghost and overlap lists, their order and number, the search among shared entities, the number of interior entities when there are ghost and overlap ones, and the interior entities themselves. The full statement is false: the loop over interior entities never ends well (it reads through NULL), their number cannot be asked for without ghost entities, a deleted ghost or overlap entity is not properly restored, and a ghost deleted before the lists exist stays in the mesh. The statement leaves nothing else open. (`C66_negation_next_interior`, `C66_negation_num_interior`, `C66_negation_restored_ghost`, `C66_negation_restored_overlap`, `C66_negation_delete_unlisted`, `C66_negation_id_search`)
* **C67** Searching by global ID finds the entity that has it: Proved for every history that made and sorted the search lists after the last change, with different global IDs. The full statement is false: a mesh without entities of the kind ends the process or reads NULL, entities created, deleted or renumbered while the search is enabled are missed or read after release, and enabling again does not make new lists. (`C67_negation_empty`, `C67_negation_no_faces`, `C67_negation_created`, `C67_negation_deleted`, `C67_negation_changed`, `C67_negation_enable_again`)
* **C68** Labelling marks exactly the layer of elements at the partition boundary: The labels after the call are proved exactly, for surface and volume meshes. Two clauses of the statement are false: a ghost element becomes an overlap element, and labelling again makes the layer grow by one ring of elements. (`C68_negation_ghost_element`, `C68_negation_again`)
* **C69** Deleting the interior leaves exactly the boundary: For every consistent mesh and every classification in which interior entities bound only interior entities. The two negations show that the condition is needed: without classification the interior faces stay, and a wrong one leaves a face with a deleted edge. (`C69_negation_unclassified`, `C69_negation_misclassified`)
* **C71** Hexahedra made from tetrahedra form the refined mesh: For every consistent mesh of tetrahedra without doubled edges or faces; the lists of entities are any orders of the live ones. Points are given by the vertices they average. The negation theorem shows that a region with triangles only that is not a tetrahedron is not refused but runs into undefined behaviour; the statement is about meshes of tetrahedra and meshes with other faces. (`C71_negation_polyhedron`)
* **C72** Classification worked out from the model regions: For any topology and any lists of all its entities, and any classification known before except an edge without faces that is given on a model edge (undefined behaviour, negation theorem). The statement about edges and vertices on the same model entity is for places where every model face or edge is met once; C72_negation_repeated shows that it fails otherwise. Further negation theorems: the two ends of a model edge between the same faces share a model vertex, model edges given by the user are merged when the same model faces meet there, and a negative region ID stays when no region has ID 0. The refinement by angles (use_geometry = 1) is not modelled; IDs are unbounded integers. (`C72_negation_corners`, `C72_negation_given`, `C72_negation_repeated`, `C72_negation_alone`, `C72_negation_region`)
* **C73** Mesh from a general description: For a mesh without entities and any number of points, faces and regions. The conditions on the lists are those of MF_Set_Vertices and MR_Set_Vertices (C48): distinct vertices, at most 30 per face, 200 and 512 per polyhedron, no side of a face used twice. The call does not undo what it did when it refuses (C73_refused, C73_no_shape), and the test of the number of vertices lets regions with fewer than four vertices through (C73_negation_few). (`C73_negation_few`)
* **C74** Splitting an edge of a mesh of triangles and tetrahedra: Everything of the statement but the model region of the new tetrahedra: their IDs are copied from an array that is allocated and never filled (C74_negation_region_classification). For every consistent mesh without doubled edges or faces in which the edge bounds triangles and tetrahedra only, no two of the tetrahedra on the same four vertices; the rest of the mesh may have any elements. (`C74_negation_region_classification`)
* **C75** Splitting a face of a mesh of triangles and tetrahedra: Everything of the statement but the model region of the new tetrahedra: their IDs are copied from an array that is allocated and never filled (C75_negation_region_classification). For every consistent mesh without doubled edges or faces and every triangle whose regions are tetrahedra, not both on the same four vertices; the rest of the mesh may have any elements. (`C75_negation_region_classification`)
* **C76** Partitioning a mesh: The pieces and the links are as stated for every mesh with at most 30 edges to a face and 512 faces to a region (the arrays of the function) and every assignment; owners and global IDs for every entity that is in a part, when no entity but elements has an owner before and, for the different global IDs, when the entities of the kind have none. What fails otherwise: an entity that is in no element is noted as owned by part 2^29-1; a mesh partitioned a second time gets wrong owners, since the owners noted before are taken for marks; an ID given can be one that is there already. Attributes of the pieces without values and the IDs (numbers) of the copies are not in the statement. (`C76_negation_unused`, `C76_negation_again`, `C76_negation_ids`)
* **C77** The boundary between parts: Proved for every mesh in which everything is in an element, and pieces on which nothing is flagged yet (those MESH_Partition makes). Otherwise it fails: where an edge is in no element, its vertex is flagged though no other part has it; flags from before are not taken back. (`C77_negation_edge`, `C77_negation_again`)
* **C78** Ghosts, overlap and owners of a distributed mesh: Proved for every mesh in which everything is in an element and every part has an element (or no layer is asked for), full representation F1. Otherwise it fails: with a part without elements the program ends; an edge that is in no element makes everything around it overlap although no other piece has it. (`C78_negation_empty`, `C78_negation_edge`)
* **C79** The mesh sent to other processors for ghosts: Proved for every mesh whose vertex, edge and face IDs have no gaps, full representation F1. With gaps, as after a deletion without renumbering, the arrays are written outside their bounds. (`C79_negation_gap`)
* **C80** Adding the ghost faces that were received: Proved for surface meshes (F1) when what a received mesh has in common with the part is not interior there, global IDs of vertices and of edges are different within each mesh and edges with the same global ID join the same vertices. Otherwise it fails: a face received twice is made twice; an interior vertex is not found and made again. (`C80_negation_twice`, `C80_negation_interior`)
* **C81** Adding the ghost regions that were received: Proved for F1 when what a received mesh has in common with the part, regions aside, is not interior there, global IDs of vertices, edges and faces are different within each mesh, edges and faces with the same global ID have the same vertices, received regions are standard elements or closed polyhedra and no two regions are in the same place (the source assumes that, too). Otherwise it fails: a region received twice is made twice, and its faces know only the second one. (`C81_negation_twice`)
* **C82** Combining the values on an entity and on its ghosts: Proved for INT and DOUBLE attributes when the combined number is not zero: zero is neither stored on the owner nor passed on to ghosts. For VECTOR and TENSOR attributes it fails: the sums and extrema use values that were never set. Overflow of the sums is excluded. (`C82_negation_zero`, `C82_negation_arrays`)
* **C83** Exchanging values across the boundary of partitions: Proved for values that are not zero, for INT and DOUBLE attributes and for VECTOR and TENSOR attributes with at least two components that are set. A zero is not passed on, and VECTOR attributes with one component never change. (`C83_negation_zero`, `C83_negation_one_component`)
* **C85** Attribute values of a distributed mesh: Proved for INT and DOUBLE attributes, and for VECTOR and TENSOR attributes with at least two components that are set on all entities the attribute is for. An array attribute that is not set on some entity is read through NULL when it is copied, and one with a single component is made with a missing argument and written through NULL. Attributes of type POINTER are not passed on, as documented in the code. All zeros count as the same number. (`C85_negation_unset`, `C85_negation_one_component`)
* **C86** Mesh sets of a distributed mesh: Proved for all sets with names of at most 255 characters when every entity of the mesh is part of an element (the conclusion of C78). A set with a member that is part of no element, such as a lone edge, is copied with a read through NULL. (`C86_negation_edge`)
* **C87** Splitting a region with a loop of edges: Proved for all consistent meshes and all loops of at most 30 edges (the size of the array of directions) that divide the closed boundary of the region, for at most 511 faces (the array of faces) and loops listed along their first edge. A loop listed against the direction of its first edge ends the program. (`C87_negation_first_edge`)
* **C89** Adjacency in the representation F4: Proved for all legal histories with the regions that were restored after a temporary deletion and with temporary deletion of faces; the faces of a vertex are exact if at each of its edges there are no known regions or all faces belong to known regions. A region that was only created is recorded nowhere, so the queries for regions are empty and the number of regions of a vertex reads through NULL; a face deleted for good stays in the lists of its edges; the region on a side of a face is that of the other side. (`C89_negation_regions`, `C89_negation_free`, `C89_negation_side`)
* **C90** Export to OFF and STL: Proved for all surface meshes numbered in order and all ways to print numbers as words. The OFF file counts points from 1, while the format counts from 0: read by the format it is malformed or describes other faces. The STL file runs endloop and endfacet together, so a reader of the format refuses every file with a triangle. A refused STL export has emptied the file. The OFF code does not close the file; the theorems are about what was printed. (`C90_negation_off`, `C90_negation_stl`, `C90_negation_emptied`)
* **C91** Partitioning with METIS: Proved for all volume meshes whose IDs count the regions and for all surface meshes whose IDs count the faces and whose neighbours fit an array of twice the number of edges, in particular when no edge has more than two faces. With more neighbours the array overflows (six triangles on one edge); IDs with gaps give a graph METIS must not be handed; meshes without faces end the program. What METIS answers to a proper graph is a hypothesis; Zoltan is not modelled. (`C91_negation_overflow`, `C91_negation_wire`, `C91_negation_ids`)
* **C92** Adjacency in the reduced representation R1: Proved for all legal histories in which regions get their vertices once and are deleted temporarily and restored; directions and sides for standard elements given without a template. Deleting a region for good always reads freed storage; a face deleted for good stays in the list of the mesh; a region given with a template has the wrong number of faces and may get the wrong type; a face across a region counts as next to it, a third candidate is not looked at; replacing a vertex and setting the vertices again leave the vertices with stale answers. (`C92_negation_delete`, `C92_negation_faces`, `C92_negation_template`, `C92_negation_type`, `C92_negation_across`, `C92_negation_third`, `C92_negation_replace`, `C92_negation_again`)
* **C93** Check of the parallel information: Proved for any number of partitions and every schedule: the check ends and answers exactly for vertices, edges and the classification of faces and regions, when all partitions pass the check of ghost marks, have regions or none has, ghost faces and regions have originals, and flags fit. A partition that fails the first check leaves the others waiting for ever (for all such meshes); a ghost face without original puts the owner in an endless loop; a partition without regions leaves the others waiting; edges of faces are not compared; global IDs used twice and ghosts of partitions that do not exist are accepted; too many ghosts end the program. MPI_Allgather is modelled by pairwise exchange, coordinates are rational numbers. (`C93_negation_alone`, `C93_negation_faces`, `C93_negation_missing`, `C93_negation_regions`, `C93_negation_twice`, `C93_negation_stray`, `C93_negation_many`)
* **C94** In a mesh that stores only vertices and regions, the edges and faces made on request are the right ones: Proved for all legal histories followed by any queries, for regions that are standard elements given without a template; regions of an edge when no region has both vertices without having the edge and the first vertex has a region; faces of an edge when both or neither vertex has regions. Asking again gives other edges (for all meshes); the number of edges at a vertex without regions and the regions and faces of an edge with such a vertex read a null pointer (for all meshes); a hex given with its faces lacks an edge; a hex counts as a region of an edge across its face. The build without HASHTABLE is modelled; classification of what is made is not. (`C94_negation_again`, `C94_negation_null`, `C94_negation_oneEnd`, `C94_negation_template`, `C94_negation_across`)
* **C95** In a mesh that stores vertices, faces and regions but no edges, every query answers what the mesh is: Proved for all legal histories: everything faces and regions answer, and the edges a face makes on request with their end points and faces. The code violates the rest: giving a face its vertices does not tell the vertices, so a vertex answers only faces that were deleted and restored, and the regions at those (the theorem says exactly which); without them counting regions reads a null pointer (for all histories). Regions given by vertices and a template never share a face (for all histories), regions given by vertices alone read a null pointer (for all meshes), and deleting a face without vertices does (for all histories). No edge is ever answered twice, so neighbouring faces share none (for all meshes), and without restored faces no edge has a face (for all histories). (`C95_negation_vertices`, `C95_negation_template`, `C95_negation_standard`, `C95_negation_bare`, `C95_negation_edges`, `C95_negation_edge_faces`)
* **C96** Lengths of edges and the angles between edges and between faces are those of the geometry: Proved in exact arithmetic over any ordered field with a square root (the real numbers are one), for edges longer than 1.0e-28 and for flat faces of at most 30 vertices that lie on one side of the line of the common edge and have no other vertex near that line. A triangle and a quadrilateral that is not convex give 1 instead of -1 in one order of the arguments, because the number of vertices of the first face is tested for the second one as well; a face with more than 30 vertices overflows an array (for all such faces); for edges of length 1.0e-29 the value is not a cosine. Rounding is not modelled. (`C96_negation_order`, `C96_negation_large`, `C96_negation_short`)
* **C97** The condition numbers of the corners of a face measure the corners: Proved in exact arithmetic over any ordered field with a square root for faces of at most 30 vertices and corners whose three points are at least 1.0e-14 apart; corners in line have no number (division by zero). A face with more than 30 vertices overflows an array (for all such faces); the corners of a square of side 1.0e-15 get a number other than 1. Rounding is not modelled. (`C97_negation_large`, `C97_negation_small`)
* **C98** The format of a file is the one its name or the caller gives: Proved for all names that no other format is ever used and that what was written is read back in the same format; the format of the extension is used for all names with at most one dot after the first character. The code violates the rest: every name with two such dots is refused, among them ../mesh.mstk and mesh.1.mstk (for all such names); files x3d are read but not written by their extension and off the other way round, exo is a format for writing and not for reading; a format name of sixteen characters or more overflows an array (for all of them); an import that is refused changes the representation of the mesh, and any format that begins with a known name is taken for it when writing. (`C98_negation_dots`, `C98_negation_one_way`, `C98_negation_long`, `C98_negation_refused`)
* **C99** Merging two vertices in the reduced representations redirects every use of the second one: Proved for R1 for all meshes made through the interface whose regions at the second vertex are standard elements: regions and sets are redirected. The code violates the rest: in R1 the first vertex does not learn of the regions of the second (for all meshes), edges and faces made before keep the deleted vertex (for all meshes), and a region with both has the first one twice; in R4 no face is changed unless it was deleted and restored (for all histories), so the faces keep the deleted vertex. (`C99_negation_regions`, `C99_negation_made`, `C99_negation_both`, `C99_negation_r4`)

## Which parts of the code are modelled

Source files cited by the model (a file is listed when at least one of its functions is modelled; the
definitions cite the exact lines) and the modules that cite them:

| source | modules |
|----|----|
| src/base/MAttrib.c | AttribModel, CopyAttModel, FileModel, SendModel, UpdateAllModel |
| src/base/MESH_Copy.c | CopyModel |
| src/base/MESH_InitFromFile.c | FileLemmas, FileModel |
| src/base/MESH_WriteToFile.c | FileModel |
| src/base/ME_Face_Funcs_R1R2.c | R1EntModel |
| src/base/ME_Face_Funcs_R3R4.c | R4Model |
| src/base/ME_Geometry.c | GeomModel |
| src/base/ME_Region_Funcs_RN.c | R1EntModel |
| src/base/MEdge.c | F4Model, R1EntModel, R4EdgeModel, R4Model, TopoModel, TopoQuery |
| src/base/MEdge_F1.c | TopoModel, TopoQuery |
| src/base/MEdge_F4.c | F4Model |
| src/base/MEdge_R4.c | R4Model |
| src/base/MEntity.c | AttribModel, CopyModel, EntityModel, F4Model, FileModel, GhostModel, Hash, MeshModel, PBoundModel, UpdateModel |
| src/base/MF_Edge_Funcs_F1F3.c | TopoModel, TopoQuery, TopoSpec |
| src/base/MF_Edge_Funcs_F2F4.c | F4Model |
| src/base/MF_Edge_Funcs_R1.c | Hash, R1EntModel |
| src/base/MF_Edge_Funcs_R4.c | R4EdgeModel, R4Model |
| src/base/MF_Region_Funcs_F1F3.c | TopoModel, TopoQuery |
| src/base/MF_Region_Funcs_F2F4.c | F4Model |
| src/base/MF_Region_Funcs_R1.c | R1Model |
| src/base/MF_Region_Funcs_R4.c | R4Model |
| src/base/MF_Vertex_Funcs_F1F3.c | TopoModel, TopoQuery |
| src/base/MF_Vertex_Funcs_F2F4.c | F4Model |
| src/base/MF_Vertex_Funcs_R1.c | R1EntModel, R1MergeModel, R1Model |
| src/base/MF_Vertex_Funcs_R4.c | R1MergeModel, R4Model |
| src/base/MFace.c | F4Model, R1Model, R4EdgeModel, R4Model, TopoModel, TopoQuery |
| src/base/MFace_F1.c | TopoModel, TopoQuery |
| src/base/MFace_F4.c | F4Model |
| src/base/MFace_R1.c | R1Model |
| src/base/MFace_R4.c | R4Model |
| src/base/MR_Edge_Funcs_FN.c | RegionQueryModel |
| src/base/MR_Edge_Funcs_R1.c | R1EntModel |
| src/base/MR_Edge_Funcs_R3R4.c | R4EdgeModel |
| src/base/MR_Face_Funcs_FNR3R4.c | F4Model, R4MergeModel, R4Model, RegionModel, TemplateModel, TopoModel, TopoQuery |
| src/base/MR_Face_Funcs_R1.c | R1EntModel, R1Model, TemplateModel |
| src/base/MR_Vertex_Funcs_FNR3R4.c | R4Model, RegionQueryModel |
| src/base/MR_Vertex_Funcs_R1.c | R1Model |
| src/base/MRegion.c | F4Model, R1Model, R4Model, TopoModel, TopoQuery |
| src/base/MRegion_F4.c | F4Model |
| src/base/MRegion_FNR3R4.c | R4Model, TopoModel |
| src/base/MRegion_R1.c | R1Model |
| src/base/MSTK.c | EntityModel |
| src/base/MSet.c | MSetModel, MiscModel |
| src/base/MVertex.c | GeomModel, GhostModel, MeshModel, R1MergeModel, R4EdgeModel, TopoModel |
| src/base/MVertex_F1.c | TopoModel, TopoQuery |
| src/base/MVertex_F4.c | F4Model |
| src/base/MVertex_R1.c | R1EntModel, R1MergeModel, R1Model |
| src/base/MVertex_R4.c | R4Model |
| src/base/Mesh.c | CopyAttModel, CopyModel, F4Model, FileModel, GhostModel, MeshModel, ParFlagsModel, PartModel, R1EntModel, R1MergeFaces, R1Model, R4Model, SendModel, SubMeshModel, TopoModel |
| src/hilev/MESH_BuildClassfn.c | ClassfnModel |
| src/hilev/MESH_BuildEdgeClassfn.c | ClassfnModel |
| src/hilev/MESH_BuildFaceClassfn.c | ClassfnModel |
| src/hilev/MESH_BuildVertexClassfn.c | ClassfnModel |
| src/hilev/MESH_CheckTopo.c | CheckModel |
| src/hilev/MESH_DelInterior.c | DelInteriorModel |
| src/hilev/MESH_Gen_Structured.c | BuildModel, GenModel, Structured |
| src/hilev/MESH_GetElementGraph.c | GraphModel |
| src/hilev/MESH_InitFromGenDesc.c | GenDescModel |
| src/hilev/MESH_Renumber.c | MeshModel, NumberModel |
| src/hilev/MESH_Tet2Hex.c | RefineModel |
| src/hilev/MESH_Tri2Quad.c | RefineModel |
| src/hilev/MEs_Angle.c | GeomModel |
| src/hilev/MF_Coords.c | RefineModel |
| src/hilev/MFs_DihedralAngle.c | GeomModel |
| src/hilev/MR_Coords.c | RefineModel |
| src/io/MESH_ExportToFile.c | FormatModel |
| src/io/MESH_ExportToOFF.c | SurfModel |
| src/io/MESH_ExportToSTL.c | SurfModel |
| src/io/MESH_ImportFromFile.c | FormatModel |
| src/misc/MF_CondNums.c | GeomModel |
| src/misc/MSTK_VecFuncs.c | GeomModel |
| src/misc/compare_funcs.c | CompareModel, GhostModel, ParCheckModel |
| src/mod/ME_Collapse.c | CollapseModel |
| src/mod/ME_MultiSplit.c | SplitModel |
| src/mod/ME_Split.c | SplitModel |
| src/mod/ME_Split_SimplexMesh.c | SimplexModel |
| src/mod/ME_Swap2D.c | ModModel |
| src/mod/MEs_Merge_FN.c | ModModel |
| src/mod/MF_Split.c | ModModel, SimplexFaceModel |
| src/mod/MF_Split_SimplexMesh.c | SimplexFaceModel |
| src/mod/MF_Split_with_Edge.c | ModModel |
| src/mod/MFs_Join.c | ModModel |
| src/mod/MFs_Merge.c | R1MergeFaceModel |
| src/mod/MFs_Merge_FN.c | ModModel |
| src/mod/MFs_Merge_R1R2.c | R1MergeFaceModel |
| src/mod/MFs_Merge_R3R4.c | R4MergeModel |
| src/mod/MR_Split_with_EdgeLoop.c | SplitRegModel |
| src/mod/MRs_Join.c | ModModel |
| src/mod/MVs_Merge.c | R1MergeModel |
| src/mod/MVs_Merge_FN.c | SplitModel |
| src/mod/MVs_Merge_R1R2.c | R1MergeModel |
| src/mod/MVs_Merge_R3R4.c | R1MergeModel |
| src/par/FixColumnPartitions.c | ColumnModel |
| src/par/MESH_AddGhost.c | AddGhostModel |
| src/par/MESH_AssignGlobalIDs.c | AssignModel, GlobalIDModel |
| src/par/MESH_BuildConnection.c | ConnModel |
| src/par/MESH_BuildGhostList.c | GhostModel |
| src/par/MESH_BuildPBoundary.c | PBoundModel |
| src/par/MESH_BuildSubMesh.c | PartModel, SubMeshModel |
| src/par/MESH_ConcatSubMesh.c | ConcatModel, ConcatRegModel |
| src/par/MESH_CopyAttr.c | CopyAttModel |
| src/par/MESH_CopySet.c | CopyAttModel |
| src/par/MESH_GathScat1Attribute.c | GatherModel, ProcModel, XchngModel |
| src/par/MESH_Get_Partitioning.c | MetisModel |
| src/par/MESH_LabelPType.c | LabelModel |
| src/par/MESH_ParallelAdj.c | ParAdjModel |
| src/par/MESH_Parallel_AddGhost.c | SubMeshModel |
| src/par/MESH_Parallel_Check.c | ParCheckModel |
| src/par/MESH_Partition.c | AddGhostModel, CopyAttModel, PartModel |
| src/par/MESH_PartitionWithMetis.c | MetisModel |
| src/par/MESH_Partition_and_Send.c | AddGhostModel, PartModel |
| src/par/MESH_RecvMesh.c | SendModel |
| src/par/MESH_Recv_Attribute.c | SendModel |
| src/par/MESH_Recv_AttributeMetaData.c | SendModel |
| src/par/MESH_Recv_MSet.c | SendModel |
| src/par/MESH_Recv_MSetMetaData.c | SendModel |
| src/par/MESH_Recv_NonVertexEntities.c | SendModel |
| src/par/MESH_Recv_VertexCoords.c | SendModel |
| src/par/MESH_Recv_Vertices.c | SendModel |
| src/par/MESH_Renumber_GlobalIDs.c | GlobalIDModel |
| src/par/MESH_SendMesh.c | SendModel |
| src/par/MESH_Send_Attribute.c | SendModel |
| src/par/MESH_Send_AttributeMetaData.c | SendModel |
| src/par/MESH_Send_MSet.c | SendModel |
| src/par/MESH_Send_MSetMetaData.c | SendModel |
| src/par/MESH_Send_MetaData.c | SendModel |
| src/par/MESH_Send_NonVertexEntities.c | SendModel |
| src/par/MESH_Send_VertexCoords.c | SendModel |
| src/par/MESH_Send_Vertices.c | SendModel |
| src/par/MESH_Update1Attribute.c | CoordModel, ExchangeModel, GatherModel, UpdateAllModel, UpdateModel |
| src/par/MESH_UpdateAttributes.c | UpdateAllModel |
| src/par/MESH_UpdateVertexCoords.c | CoordModel |
| src/par/MESH_XchngEdgeFaceAttrib.c | ProcModel, XchngModel |
| src/util/Graph_renumber.c | NumberModel |
| src/util/Hash.c | HashModel, MiscModel |
| src/util/List.c | F4Model, FileModel, GhostModel, ListModel, Lists, MeshModel, MiscModel, PBoundModel, ParCheckModel, RegionQueryModel, RemSorted, SplitModel, TopoModel |
| src/util/MSTK_Report.c | MiscModel, Res |
| src/util/mstk_quicksort.c | SortModel |

Not modelled at all:

* src/base: MEdge_R1.c, MEdge_R2.c, MF_Edge_Funcs_R2.c, MF_Region_Funcs_R2.c, MF_Vertex_Funcs_R2.c, MFace_R2.c, MR_Edge_Funcs_R2.c, MR_Face_Funcs_R2.c, MR_Vertex_Funcs_R2.c, MRegion_F1.c, MRegion_R2.c, MRegion_R4.c, MVertex_R2.c
* src/io: ExodusII_GetElementGraph.c, MESH_ExportToDX.c, MESH_ExportToDXBin.c, MESH_ExportToExodusII.c, MESH_ExportToFLAGX3D.c, MESH_ExportToGMV.c, MESH_ImportFromExodusII.c, MESH_ImportFromFLAGX3D.c, MESH_ImportFromGMV.c, MESH_ImportFromNemesisI.c, MESH_ReadExodusII_Partial.c, MESH_ReadExodusII_Serial.c
* src/misc: List_PrintID.c, MSTK_Print.c
* src/mod: MEs_Merge.c, MEs_Merge_RN.c
* src/par: MESH_AssignGlobalIDs_point.c, MESH_PartitionWithZoltan.c, MESH_Recv_MetaData.c, MSTK_Mesh_Distribute.c, MSTK_Mesh_Read_Distribute.c, MSTK_Weave_DistributedMeshes.c
* src/util: MSTK_Version.c

The topology model is the full representation F1 (all of vertex→edge, edge→vertex/face, face→edge/region,
region→face stored). F1 is the default representation. The reduced representations (R1, R2, R4) and F4 are
modelled only where a row above says so.

## Testing the theorems

`seeded/LOG.jsonl` records edits of the model of the kind a programming error would make, and which theorems
failed to build. Survivors were judged: either the edit does not make the English claim false, or a theorem was
added or tightened (noted in the entry).
