{"id": "C01", "title": "A List_ptr behaves as a sequence", "statement": "After any history of List_Add, List_ChknAdd, List_Inserti, List_Rem, List_Remi, List_Replace, List_Replacei and List_Compress on a list, List_Num_Entries and List_Entry(l,i) report exactly the sequence of entries obtained by performing the same insertions, removals and replacements on an ordinary sequence, even though removals leave internal gaps.", "quantifier": "every starting list produced by List_New, every finite history of the listed calls with in-range indices and non-NULL entries", "why_tests_cant": "Holds for every history of calls, of any length; tests only exercise a handful of short histories.", "anchors": ["src/util/List.c: List_New, List_Add, List_ChknAdd, List_Inserti, List_Rem, List_Remi, List_Replace, List_Replacei, List_Compress, List_Entry, List_Num_Entries"]}
{"id": "C02", "title": "Concatenation appends the source sequence", "statement": "After List_Cat(dest,src), dest reports its old entries followed by those of src, and later edits of dest still behave as edits of that sequence.", "quantifier": "all pairs of lists reached by any history, and all later histories", "why_tests_cant": "The failing combinations need particular gap patterns in both lists followed by particular later calls.", "anchors": ["src/util/List.c: List_Cat"]}
{"id": "C03", "title": "List_Insert places the new entry just before the given one", "statement": "List_Insert(l,e,b4) puts e immediately before the first occurrence of b4 and leaves the order of the others unchanged.", "quantifier": "all lists, all entries e and all b4 in the list", "why_tests_cant": "Position errors only show when b4 is at particular positions.", "anchors": ["src/util/List.c: List_Insert"]}
{"id": "C04", "title": "Iteration visits each entry exactly once, in order", "statement": "Repeated List_Next_Entry from index 0 returns every current entry exactly once, in List_Entry order, then NULL.", "quantifier": "all lists reached by any history of edits, however gapped", "why_tests_cant": "Gap patterns are unbounded.", "anchors": ["src/util/List.c: List_Next_Entry"]}
{"id": "C05", "title": "Lists never write outside their storage", "statement": "No list operation with in-range arguments reads or writes beyond the allocated slots, and storage grows whenever it is full.", "quantifier": "all histories of list operations", "why_tests_cant": "Out-of-bounds accesses are often silent in tests.", "anchors": ["src/util/List.c: List_Add, List_Inserti, List_Cat, List_Compress, pvtList_Set_Pars"]}
{"id": "C06", "title": "Set-like use of lists", "statement": "A list only ever filled by List_ChknAdd holds no duplicates; List_Contains and List_Locate agree with membership and first position; List_Rem removes exactly the first occurrence and reports whether there was one.", "quantifier": "all histories", "why_tests_cant": "Holds for every history of calls, of any length; tests only exercise a handful of short histories.", "anchors": ["src/util/List.c: List_ChknAdd, List_Contains, List_Locate, List_Rem"]}
{"id": "C07", "title": "Removal from a sorted list removes the entry looked for", "statement": "List_RemSorted(l,e,key) on a list sorted by distinct keys removes exactly e, whatever gaps the list has, and reports success.", "quantifier": "all sorted lists with any gap pattern", "why_tests_cant": "Binary search around gaps has many boundary cases.", "anchors": ["src/util/List.c: List_RemSorted"]}
{"id": "C08", "title": "Hash table is a find-or-insert map", "statement": "For any history of insertions into the internal entity hash (with the automatic doubling this triggers), looking up a key returns the entity inserted for that key and NULL for a key never inserted, regardless of the hash function.", "quantifier": "all histories of insertions and all keys, all hash functions", "why_tests_cant": "Needs thousands of colliding entries to trigger doubling.", "anchors": ["src/util/Hash.c: Hash_Add, Hash_Entry, Hash_Enlarge, Hash_CheckSize"]}
{"id": "C09", "title": "Check-and-add into the hash never corrupts the table handle", "statement": "Hash_ChknAdd returns the hash table handle whether or not the key was present, as its callers assign it back to the table.", "quantifier": "all tables and keys", "why_tests_cant": "Path only taken when the key is already present.", "anchors": ["src/util/Hash.c: Hash_ChknAdd"]}
{"id": "C10", "title": "Locked hash entities survive automatic purging", "statement": "An entity locked more often than unlocked is never discarded by automatic removal; lock counts behave as counters until they saturate, and a saturated lock is permanent.", "quantifier": "all interleavings of lock, unlock and purge", "why_tests_cant": "Counter saturation needs long histories.", "anchors": ["src/util/Hash.c: Hash_Lock, Hash_UnLock, Hash_IsLocked, Hash_Remove_Unused"]}
{"id": "C11", "title": "Sorting sorts", "statement": "The internal quicksort leaves the index array a permutation of its input, ordered by non-decreasing key of the items it names, for every input; the key array is not changed, it terminates and stays within bounds.", "quantifier": "all arrays and key arrays of any length", "why_tests_cant": "Unbounded inputs.", "anchors": ["src/util/mstk_quicksort.c: mstk_quicksort, mstk_partition"]}
{"id": "C12", "title": "Comparison functions are consistent orders", "statement": "The comparators used with qsort/bsearch (by ID, global ID, edge vertex pair, face vertex list) are antisymmetric and transitive and compare equal exactly when the entities denote the same thing (same ID; same unordered vertex pair; same vertex set).", "quantifier": "all pairs/triples of entities", "why_tests_cant": "A comparator defect only shows for particular triples; sorted searches then silently miss entries.", "anchors": ["src/misc/compare_funcs.c: compareINT, compareID, compareGlobalID, compareEdgeINT, compareFaceINT, compareValence"]}
{"id": "C13", "title": "A marker is never handed out twice", "statement": "MSTK_GetMarker never returns a marker that is currently allocated, a freed marker can be allocated again, and it fails only when all markers are in use.", "quantifier": "all histories of get and free", "why_tests_cant": "Holds for every history of calls, of any length; tests only exercise a handful of short histories.", "anchors": ["src/base/MSTK.c: MSTK_GetMarker, MSTK_FreeMarker"]}
{"id": "C14", "title": "Marks with different markers are independent", "statement": "MEnt_IsMarked(e,m) is true exactly when the last mark/unmark of e with m was a mark; marking with one marker never alters another.", "quantifier": "all histories of mark/unmark and all markers", "why_tests_cant": "Holds for every history of calls, of any length; tests only exercise a handful of short histories.", "anchors": ["src/base/MEntity.c: MEnt_Mark, MEnt_Unmark, MEnt_IsMarked"]}
{"id": "C15", "title": "Entity header fields read back and do not interfere", "statement": "ID, dimension, representation type, classification dimension and ID, and parallel type fields of an entity read back what was last written (when it fits), and writing one leaves the others unchanged.", "quantifier": "all histories of setters with all in-range values", "why_tests_cant": "Fields are packed into shared words; interference shows only for particular bit patterns.", "anchors": ["src/base/MEntity.c: MEnt_Set_ID, MEnt_Set_GEntDim, MEnt_Set_GEntID, MEnt_Set_Dim, MEnt_Set_RepType_Data, MEnt_Set_PType, MEnt_Set_MasterParID"]}
{"id": "C16", "title": "Attribute values are a map", "statement": "MEnt_Get_AttVal returns the value last set by MEnt_Set_AttVal for that entity and attribute, reports absence (and zeros) if never set or removed, and setting or removing one attribute leaves others unaffected.", "quantifier": "all histories of set, get, remove and clear over all entities and attributes", "why_tests_cant": "Holds for every history of calls, of any length; tests only exercise a handful of short histories.", "anchors": ["src/base/MEntity.c: MEnt_Set_AttVal, MEnt_Get_AttVal, MEnt_Rem_AttVal, MEnt_Clear_AttVal", "src/base/MAttrib.c: MAttIns_Set_Value, MAttIns_Get_Value"]}
{"id": "C17", "title": "Clearing an attribute is always safe", "statement": "MEnt_Clear_AttVal resets the value to zero for any attribute type without invalid memory access.", "quantifier": "all attribute types and sizes", "why_tests_cant": "Undefined behaviour may go unnoticed in a test.", "anchors": ["src/base/MEntity.c: MEnt_Clear_AttVal", "src/base/MAttrib.c: MAttIns_Set_Value"]}
{"id": "C18", "title": "Mesh set algebra is set algebra", "statement": "MSets_Union, MSets_Intersect and MSets_Subtract produce exactly the union, intersection and difference of the two sets, without duplicates, for both the marker-based and the search-based build, and leave the inputs unchanged.", "quantifier": "all pairs of sets", "why_tests_cant": "Holds for every history of calls, of any length; tests only exercise a handful of short histories.", "anchors": ["src/base/MSet.c: MSets_Union, MSets_Intersect, MSets_Subtract"]}
{"id": "C19", "title": "IDs of live entities are unique and resolvable", "statement": "Entities created in a mesh always get an ID different from that of every entity created before, and MESH_VertexFromID (and edge/face/region analogues) returns the live entity with that ID and NULL if none is live.", "quantifier": "all histories of creation, deletion, restoration and enabling of sorted search", "why_tests_cant": "Holds for every history of calls, of any length; tests only exercise a handful of short histories.", "anchors": ["src/base/Mesh.c: MESH_Add_Vertex, MESH_Rem_Vertex, MESH_VertexFromID, MESH_Enable_LocalIDSearch", "src/base/MVertex.c: MV_New, MV_Delete, MV_Restore"]}
{"id": "C20", "title": "Mesh counts and traversal agree with the live entities", "statement": "MESH_Num_Vertices equals the number of live vertices and MESH_Next_Vertex traversal visits exactly the live vertices, once each, in creation order; same for other kinds.", "quantifier": "all histories of creation and deletion", "why_tests_cant": "Holds for every history of calls, of any length; tests only exercise a handful of short histories.", "anchors": ["src/base/Mesh.c: MESH_Num_Vertices, MESH_Next_Vertex, MESH_Add_Vertex, MESH_Rem_Vertex"]}
{"id": "C21", "title": "Upward and downward adjacency agree (full representation F1)", "statement": "At every point of a history of creating entities, defining edges by vertices, faces by edges or vertices and regions by faces, removing, replacing, turning round, deleting, and restoring (in which arguments are live, an edge end, face or region is defined once, replacements bring in entities that are not already there, an entity is deleted only after what it bounds, faces have at most 32 edges and regions at most 512 faces): every call succeeds, an edge is listed by a vertex iff the vertex is one of its ends, a face is listed by an edge iff the edge bounds it, a region is attached to a face iff the face bounds it, with no duplicates.", "quantifier": "all such histories of topology edits in an F1 mesh, of any length", "why_tests_cant": "Holds for every history of calls, of any length; tests only exercise a handful of short histories.", "anchors": ["src/base/MVertex_F1.c", "src/base/MEdge_F1.c", "src/base/MEdge.c", "src/base/MFace_F1.c", "src/base/MF_Edge_Funcs_F1F3.c", "src/base/MF_Region_Funcs_F1F3.c", "src/base/MR_Face_Funcs_FNR3R4.c", "src/base/MRegion_FNR3R4.c"]}
{"id": "C22", "title": "Derived adjacency queries return the right sets", "statement": "MV_Faces, MV_Regions, ME_Regions and MF_Regions return, without duplicates, exactly the entities related to the argument through the mesh; so do MV_AdjVertices, MF_AdjFaces and MR_AdjRegions (each entity once when it is adjacent in one way only); the counting functions return the lengths of these lists.", "quantifier": "all consistent meshes and all entities", "why_tests_cant": "Unbounded connectivity patterns.", "anchors": ["src/base/MVertex_F1.c: MV_Faces_F1, MV_Regions_F1, MV_AdjVertices_F1", "src/base/MEdge_F1.c: ME_Regions_F1"]}
{"id": "C23", "title": "Face vertices and edges are reported in cyclic order", "statement": "For a face whose edges form a closed loop, MF_Vertices(f,dir,v0) lists each vertex once, starts at v0 when given, consecutive vertices are the ends of consecutive edges, and the two directions are reverses (up to rotation) of each other; MF_Edges likewise.", "quantifier": "all faces with any number of edges, all start vertices, both directions", "why_tests_cant": "Unbounded polygon sizes and start positions.", "anchors": ["src/base/MF_Edge_Funcs_F1F3.c: MF_Edges_F1F3", "src/base/MF_Vertex_Funcs_F1F3.c: MF_Vertices_F1F3"]}
{"id": "C24", "title": "A face defined by vertices reports those vertices", "statement": "After MF_Set_Vertices(f,n,v), MF_Vertices(f,1,0) returns v[0..n-1] in order, existing edges between consecutive vertices being reused rather than duplicated.", "quantifier": "all meshes and all loops of at most 30 vertices in which consecutive vertices differ", "why_tests_cant": "Direction bits depend on orientation of every reused edge.", "anchors": ["src/base/MF_Vertex_Funcs_F1F3.c: MF_Set_Vertices_F1F3, MF_Vertices_F1F3"]}
{"id": "C25", "title": "Edge directions follow their edges when a face is edited", "statement": "After MF_Rem_Edge, MF_Replace_Edges or MF_Replace_Edges_i every edge kept in the face keeps its direction, and a face with a closed loop stays a closed loop when the replacement path has the same ends.", "quantifier": "all faces, all replaced ranges including wrap-around, all replacement lengths", "why_tests_cant": "Direction bits are shifted by hand; errors need particular lengths and positions.", "anchors": ["src/base/MF_Edge_Funcs_F1F3.c: MF_Rem_Edge_F1F3, MF_Replace_Edges_i_F1F3, MF_Replace_Edges_F1F3"]}
{"id": "C26", "title": "Replacing faces of a region leaves other faces alone", "statement": "MR_Replace_Faces changes the region list of the replaced and new faces only; every other face keeps its neighbours and the direction reported by MR_FaceDir matches the side of the face the region is attached to.", "quantifier": "all regions, all replaced subsets, all directions", "why_tests_cant": "Needs mixed directions and neighbours on both sides.", "anchors": ["src/base/MR_Face_Funcs_FNR3R4.c: MR_Replace_Faces_FNR3R4, MR_Set_FaceDir_i_FNR3R4"]}
{"id": "C27", "title": "Deleting with keep then restoring is the identity on adjacency", "statement": "XX_Delete(e,1) followed by XX_Restore(e) gives back the same adjacency answers for every entity.", "quantifier": "all entities of all consistent F1 meshes", "why_tests_cant": "Any mesh shape.", "anchors": ["src/base/MEdge_F1.c: ME_Delete_F1, ME_Restore_F1", "src/base/MFace_F1.c: MF_Delete_F1, MF_Restore_F1", "src/base/MRegion_FNR3R4.c: MR_Delete_F1F3R3R4, MR_Restore_F1F3R3R4"]}
{"id": "C28", "title": "Standard element tables are consistent", "statement": "For tets, pyramids, prisms and hexes the face-vertex, face-edge, edge-direction and edge-vertex tables describe the same closed polyhedron: each face's edges join its consecutive vertices, each edge is used by exactly two faces in opposite senses, and the element satisfies Euler's formula.", "quantifier": "all entries of the tables", "why_tests_cant": "A table typo corrupts only some elements.", "anchors": ["include/MSTK_globals.h", "src/base/MR_Face_Funcs_FNR3R4.c"]}
{"id": "C29", "title": "Splitting an edge preserves the mesh around it", "statement": "ME_Split/ME_MultiSplit replace the edge by a chain of n+1 edges through n new vertices in every face that used it, in the right order and direction, leave all other edges of those faces unchanged, keep every face loop closed and delete the old edge.", "quantifier": "all meshes, edges, and numbers of split points", "why_tests_cant": "Any number of incident faces and any orientation.", "anchors": ["src/mod/ME_MultiSplit.c", "src/mod/ME_Split.c"]}
{"id": "C30", "title": "Merging vertices redirects every use", "statement": "After MVs_Merge(v1,v2,..) no edge refers to v2, every edge that ended at v2 ends at v1, all other edges are unchanged and sets containing v2 contain v1 exactly once instead.", "quantifier": "all meshes and vertex pairs, including vertices joined by an edge", "why_tests_cant": "Any connectivity around the two vertices.", "anchors": ["src/mod/MVs_Merge_FN.c", "src/base/MEdge.c: ME_Replace_Vertex"]}
{"id": "C31", "title": "Parallel adjacency flags are independent", "statement": "MESH_Flag_Has_Ghosts_From_Prtn / MESH_Flag_Has_Overlaps_On_Prtn set exactly the flag for that partition and entity type; the recorded receive counts read back per partition and type.", "quantifier": "all histories of flag/set calls and all partitions", "why_tests_cant": "Holds for every history of calls, of any length; tests only exercise a handful of short histories.", "anchors": ["src/base/Mesh.c: MESH_Flag_Has_Ghosts_From_Prtn, MESH_Has_Ghosts_From_Prtn, MESH_Flag_Has_Overlaps_On_Prtn, MESH_Has_Overlaps_On_Prtn, MESH_Init_Par_Recv_Info, MESH_Set_Num_Recv_From_Prtn, MESH_Num_Recv_From_Prtn"]}
{"id": "C32", "title": "Partitions agree on who sends to whom", "statement": "After MESH_Update_ParallelAdj on all partitions, partition p plans to send entities of a type to q exactly when q plans to receive that type from p, and q expects exactly the number p will send.", "quantifier": "all numbers of partitions and all ghost layouts", "why_tests_cant": "Number of partitions and layouts unbounded.", "anchors": ["src/par/MESH_ParallelAdj.c: MESH_Update_ParallelAdj"]}
{"id": "C33", "title": "Attribute exchange cannot deadlock", "statement": "When all partitions call MESH_Update1Attribute with consistent plans, the pairwise blocking exchange always completes, under every interleaving, even if every send blocks until received.", "quantifier": "all numbers of partitions, all communication patterns, all schedules", "why_tests_cant": "Interleavings cannot be enumerated by tests.", "anchors": ["src/par/MESH_Update1Attribute.c: MESH_Update1Attribute"]}
{"id": "C34", "title": "After an update ghosts carry the owner's value", "statement": "After MESH_Update1Attribute every ghost entity's attribute value equals the value on the owning partition.", "quantifier": "all partitions, entities, attribute types and values", "why_tests_cant": "Depends on values and previous ghost contents.", "anchors": ["src/par/MESH_Update1Attribute.c: MESH_Update1Attribute"]}
{"id": "C35", "title": "Global IDs identify points", "statement": "After MESH_AssignGlobalIDs_Vertex (no prior IDs) two vertices on any partitions have the same global ID iff they are the same point, the IDs used are exactly 1..N, and each shared point is owned by exactly one partition, the lowest-ranked holder.", "quantifier": "all numbers of partitions and all distributions of vertices", "why_tests_cant": "Unbounded number of partitions and sharing patterns.", "anchors": ["src/par/MESH_AssignGlobalIDs.c: MESH_AssignGlobalIDs_Vertex"]}
{"id": "C36", "title": "Renumbering global IDs is collective and contiguous", "statement": "MESH_Renumber_GlobalIDs gives owned entities globally contiguous distinct IDs 1..N and every partition takes part in the same collective operations whatever it holds.", "quantifier": "all distributions including partitions with no entities", "why_tests_cant": "Empty partitions are rare in tests and show up as a hang.", "anchors": ["src/par/MESH_Renumber_GlobalIDs.c: MESH_Renumber_GlobalIDs, MESH_Renumber_EntityGlobalIDs"]}
{"id": "C37", "title": "Column fix keeps columns together", "statement": "After FixColumnPartitions returns on a columnar mesh every region has the same partition as the region directly above it, top regions keep their partition and no new partition number appears.", "quantifier": "all columnar meshes and all initial partitionings", "why_tests_cant": "Unbounded number and length of columns.", "anchors": ["src/par/FixColumnPartitions.c: FixColumnPartitions"]}
{"id": "C38", "title": "Structured meshes have the right entities and classification", "statement": "MESH_Gen_Structured(nx,ny,nz) creates (nx+1)(ny+1)(nz+1) vertices, the matching numbers of edges, faces and regions, and every vertex, edge and face is classified on the model entity of the box it lies on.", "quantifier": "all nx, ny, nz > 0", "why_tests_cant": "Unbounded grid sizes.", "anchors": ["src/hilev/MESH_Gen_Structured.c: MESH_Gen_Structured"]}
{"id": "C39", "title": "Fatal errors stop the program", "statement": "A call of MSTK_Report with severity FATAL never returns.", "quantifier": "all histories of reports", "why_tests_cant": "Depends on the previous message.", "anchors": ["src/util/MSTK_Report.c: MSTK_Report"]}
{"id": "C40", "title": "Sequential renumbering gives IDs 1..n", "statement": "After MESH_Renumber(mesh,0,type) the i-th entity in traversal order has ID i and MESH_xxxFromID(i) returns it.", "quantifier": "all meshes reached by any history", "why_tests_cant": "Holds for every history of calls, of any length; tests only exercise a handful of short histories.", "anchors": ["src/hilev/MESH_Renumber.c: MESH_Renumber", "src/base/Mesh.c: MESH_VertexFromID"]}
{"id": "C41", "title": "Element type matches the faces", "statement": "MR_ElementType reports TET, PYRAMID, PRISM or HEX exactly when the region's face sizes are those of such an element, and POLYHED/RUNKNOWN otherwise, after every MR_Set_Faces/MR_Replace_Faces.", "quantifier": "all regions", "why_tests_cant": "Unbounded face lists.", "anchors": ["src/base/MR_Face_Funcs_FNR3R4.c: MR_Update_ElementType_FNR3R4"]}
{"id": "C42", "title": "Edges and faces are found again from their vertices", "statement": "MVs_CommonEdge(v1,v2) returns an edge joining the two distinct vertices iff one exists; MVs_CommonFace returns a face using all given vertices iff one exists.", "quantifier": "all consistent meshes and vertices", "why_tests_cant": "Any connectivity.", "anchors": ["src/base/MEdge.c: MVs_CommonEdge", "src/base/MFace.c: MVs_CommonFace"]}
{"id": "C43", "title": "Coordinate comparator is a consistent order", "statement": "The comparator used to sort points by coordinates within a tolerance is antisymmetric and transitive, as qsort requires.", "quantifier": "all triples of points and all positive tolerances", "why_tests_cant": "Inconsistent only for particular triples near the tolerance.", "anchors": ["src/misc/compare_funcs.c: compareCoorDouble"]}
{"id": "C44", "title": "Counters packed with flags read back", "statement": "The entry count, the storage exponent and the automatic-removal flag of lists and hash tables read back what was stored, for every count up to the documented maximum.", "quantifier": "all counts, exponents and flags", "why_tests_cant": "Failures need tens of millions of entries.", "anchors": ["src/util/List.c: pvtList_Get_Pars, pvtList_Set_Pars", "src/util/Hash.c: pvtHash_Get_Pars, pvtHash_Set_Pars, pvtHash_Get_Nent"]}
{"id": "C45", "title": "Adding to a mesh set returns the set", "statement": "MSet_Add, MSet_ChknAdd, MSet_Insert return the set they were given (their declared result is a set handle), so the result can be used as the set.", "quantifier": "all sets and entries", "why_tests_cant": "Callers that ignore the result never see it.", "anchors": ["src/base/MSet.c: MSet_Add, MSet_ChknAdd, MSet_Insert, MSet_Inserti"]}
{"id": "C46", "title": "Renaming a set is safe", "statement": "MSet_Rename accepts any new name and MSet_Name then reports it.", "quantifier": "all old and new names", "why_tests_cant": "Heap overruns are silent in tests.", "anchors": ["src/base/MSet.c: MSet_New, MSet_Rename, MSet_Name"]}
{"id": "C47", "title": "Deletion, restoration and renewed deletion", "statement": "An entity deleted with keep and restored is live again with its old ID and can be deleted again like any other.", "quantifier": "all histories and entities", "why_tests_cant": "Depends on list positions and the history of other deletions.", "anchors": ["src/base/MVertex.c: MV_Delete, MV_Restore", "src/base/Mesh.c: MESH_Rem_Vertex, MESH_Add_Vertex"]}
{"id": "C48", "title": "A region defined by its vertices has the faces of its element, each seen from outside", "statement": "MR_Set_Vertices gives a region without faces, from 4, 5, 6 or 8 distinct vertices, the faces of the tetrahedron, pyramid, prism or hexahedron in the documented order, or from a caller's table the faces of a general polyhedron: MF_Vertices in the direction MR_FaceDir reports lists each face's vertices as seen from outside. Faces and edges that exist are found and used, in the right direction, instead of being created again; the region's element type is the one for its vertices; every other answer of the mesh stays the same. Required: no region uses one of these faces from the same side already; with a table, a face on the same vertices goes round them in the given or opposite order.", "quantifier": "every consistent mesh whose faces are loops of distinct vertices, every region without faces, every choice of distinct vertices and every table of up to 512 faces with up to 30 vertices", "why_tests_cant": "Which faces exist, which region is on which side and how each found face happens to be oriented vary independently per face; tests build one element or a regular block.", "anchors": ["src/base/MR_Face_Funcs_FNR3R4.c:MR_Set_Vertices_FNR3R4", "include/MSTK_globals.h:MSTK_rfv_template"]}
{"id": "C49", "title": "Every edit does what it says and nothing else", "statement": "For each edit call (creating, deleting and restoring entities, setting or replacing an edge's vertices, setting, removing, replacing and reversing a face's edges, defining a face by vertices, setting, removing, replacing and re-directing a region's faces) the answers of ME_Vertex, MF_Edges/MF_EdgeDir, MR_Faces/MR_FaceDir and which entities exist change exactly as the call says, and no other entity's answers change: reversing an edge flips that one direction, turning a face of a region flips its use in both regions and nothing else, removing keeps the order and directions of the rest. (A face that loses two edges or more: C25; a region that loses faces: C26.)", "quantifier": "every consistent mesh and every permitted edit call, and every history of permitted calls from an empty mesh", "why_tests_cant": "The directions are packed into bit words that are shifted, cleared and toggled in place, and a call on one region also rewrites its neighbour; tests look at the entity they edited, not at every other entity of every mesh.", "anchors": ["src/base/MF_Edge_Funcs_F1F3.c:MF_Rev_EdgeDir_i_F1F3", "src/base/MR_Face_Funcs_FNR3R4.c:MR_Rev_FaceDir_i_FNR3R4", "src/base/MR_Face_Funcs_FNR3R4.c:MR_Rem_Face_FNR3R4", "src/base/MEdge.c:ME_Replace_Vertex", "src/base/MFace_F1.c:MF_Restore_F1"]}
{"id": "C50", "title": "Splitting a face along a new edge cuts it in two and changes nothing else", "statement": "MF_Split_with_Edge on a face and two of its vertices that no edge joins makes one edge between them and two faces which together go round the old one, in its direction; each region of the old face has the two new ones in its place, in the same direction; the old face is gone, the mesh is still consistent and no other answer changes. When an edge joins the two vertices already, that edge is returned and the mesh is left alone; a vertex that is not on the face is a fatal error.", "quantifier": "all consistent meshes, faces of any shape up to the documented limits, pairs of vertices", "why_tests_cant": "Depends on the orientation of every edge of the face and on the regions at both sides.", "anchors": ["src/mod/MF_Split_with_Edge.c: MF_Split_with_Edge"]}
{"id": "C51", "title": "Splitting a face at a point makes a fan of triangles", "statement": "MF_Split gives one new vertex and a triangle at it for every edge of the face, in the direction of the face; old edges are kept, each vertex of the face gets one edge to the new one; regions have the triangles in place of the face in the same direction; the face is gone and no other answer changes.", "quantifier": "all consistent meshes, faces with up to MAXPV2 vertices", "why_tests_cant": "Any polygon, any use of it by regions.", "anchors": ["src/mod/MF_Split.c: MF_Split"]}
{"id": "C53", "title": "Joining two regions removes their common face and unites their other faces", "statement": "MRs_Join of two regions classified alike that share a face leaves one region with all the other faces of both, each in the direction it had; the common face and the second region are gone, nothing else changes. Regions that are classified differently or do not share the face are refused and the mesh is unchanged.", "quantifier": "all consistent meshes and pairs of regions", "why_tests_cant": "Depends on the positions of the common face in both regions and the packed directions.", "anchors": ["src/mod/MRs_Join.c: MRs_Join"]}
{"id": "C52", "title": "Joining two faces across their common edge makes one face with the outer boundary of both", "statement": "MFs_Join of two faces classified on the same model entity, between the same regions, makes one face whose boundary is that of both without the common edge, gone round in the direction of the first; regions of the faces have the new face in place of both, in the same direction; the two faces and the edge are gone and no other answer changes. Faces on different model entities, between different regions or not having the edge are refused and the mesh is unchanged.", "quantifier": "all consistent meshes, pairs of faces of any shape, common edges at any position and in any direction", "why_tests_cant": "Depends on where each face stores the edge and on the directions packed in the regions.", "anchors": ["src/mod/MFs_Join.c: MFs_Join", "src/base/MR_Face_Funcs_FNR3R4.c: MR_Replace_Faces_FNR3R4"]}
{"id": "C54", "title": "Swapping the diagonal of two triangles", "statement": "ME_Swap2D on an edge of a surface mesh between exactly two triangles replaces it by the other diagonal of their quadrilateral: one new edge joining the two opposite vertices and two new triangles going round in the direction of the old ones, with the four outer edges used in the same directions; the old edge and triangles are gone and no other answer changes. Edges that are not on a model face, do not have two faces or have a face that is no triangle are refused and the mesh is unchanged.", "quantifier": "all consistent meshes, edges, storage orders and directions of the two triangles", "why_tests_cant": "Every rotation and direction of both triangles and either order of the faces of the edge.", "anchors": ["src/mod/ME_Swap2D.c: ME_Swap2D"]}
{"id": "C55", "title": "Merging two edges leaves every face closed", "statement": "MEs_Merge of two edges with the same ends makes every face of the second use the first, in the place of the second and so that the face goes round the same vertices; entity sets name the first in place of the second; the second is deleted and no other answer changes. Edges classified differently or without the same ends are refused and the mesh is unchanged.", "quantifier": "all consistent meshes, pairs of edges, any number of faces at either", "why_tests_cant": "Both relative directions of the edges and of each face.", "anchors": ["src/mod/MEs_Merge_FN.c: MEs_Merge_FN", "src/base/MF_Edge_Funcs_FN.c: MF_Replace_Edges_FN"]}
{"id": "C56", "title": "Merging two faces glues the regions at both sides", "statement": "MFs_Merge of two faces going round the same edges makes every region of the second have the first in its place, in the direction that matches the relative orientation of the two; entity sets name the first in place of the second; the second is deleted and no other answer changes. Faces classified differently or with other edges are refused and the mesh is unchanged.", "quantifier": "all consistent meshes, pairs of faces, both relative orientations", "why_tests_cant": "Both relative orientations, either side of both faces occupied.", "anchors": ["src/mod/MFs_Merge_FN.c: MFs_Merge_FN"]}
{"id": "C57", "title": "The vertices of an element come in a standard order", "statement": "MR_Vertices of a tetrahedron, pyramid, prism or hexahedron gives its vertices, each once, in an order that is a standard numbering of that element: the faces of the standard element on the vertices in this order are exactly the faces of the region seen from outside, in whatever order and orientation the faces are stored. (Prisms: provided no edge of the mesh crosses one of its quadrilaterals.) For any other polyhedron whose faces form a closed surface it gives exactly the vertices of its faces, each once.", "quantifier": "all consistent meshes, elements, orders and orientations and starting vertices of their faces", "why_tests_cant": "6! orders of the faces times 2^6 orientations times 4^6 starting vertices for one hexahedron, in every surrounding mesh.", "anchors": ["src/base/MR_Vertex_Funcs_FNR3R4.c: MR_Vertices_FNR3R4"]}
{"id": "C58", "title": "The edges of an element come in a standard order", "statement": "MR_Edges of a tetrahedron, pyramid, prism or hexahedron gives all edges of its faces, each once, in an order that is standard for a standard numbering of its vertices: those round the base, those round the top, those from the base to the top. (Prisms and hexahedra: provided no edge of the mesh crosses the element.) For any other polyhedron whose faces form a closed surface it gives exactly the edges of its faces, each once. MR_UsesEdge and MR_UsesVertex answer whether some face of the region has the edge or the vertex.", "quantifier": "all consistent meshes, elements, orders and orientations and starting vertices of their faces, edges and vertices", "why_tests_cant": "6! orders of the faces times 2^6 orientations times 4^6 starting vertices for one hexahedron, in every surrounding mesh.", "anchors": ["src/base/MR_Edge_Funcs_FN.c: MR_Edges_FN, MR_UsesEdge_FN", "src/base/MR_Vertex_Funcs_FNR3R4.c: MR_UsesVertex_FNR3R4"]}
{"id": "C59", "title": "A mesh written to a file is read back as the same mesh", "statement": "MESH_WriteToFile of a mesh with edges followed by MESH_InitFromFile succeeds and gives the same mesh: as many entities of each kind, in the same order, each with the same classification, bounded by the corresponding entities in the same order and directions; coordinates are those that 16 printed decimals give; every attribute that is not a pointer and has a value comes back with its name, type, number of components and the value (6 printed decimals) on each corresponding entity. Writing the mesh that was read gives the same file.", "quantifier": "all consistent meshes in the representations F1 and F4, all handle gaps and list orders, all attributes whose names are words of less than 256 characters, any conversion of numbers to text and back", "why_tests_cant": "Every sequence of digits, signs and blanks the writer can print has to be taken apart by the reader in the same way, for all meshes and attribute tables.", "anchors": ["src/base/MESH_WriteToFile.c: MESH_WriteToFile", "src/base/MESH_InitFromFile.c: MESH_InitFromFile"]}
{"id": "C60", "title": "A copied mesh is the mesh it was copied from", "statement": "After MESH_Copy(src, dst, with_attr, with_sets) the destination has the entities it had, unchanged, followed by one new entity for each entity of the source, in the same order. Each new entity has the coordinates, classification, ID and distributed-mesh data of its original and is bounded by the copies of what bounds the original, in the same directions. If asked for, every attribute is there with the same name, type, number of components and values on the copies, and every set with the copies of its entries in order; otherwise attributes and sets of the destination stay as they were. Entities the destination makes later get IDs that are not in use.", "quantifier": "every source mesh of the full representation with deleted entities and any list order, every destination mesh, every attribute and set, both flags", "why_tests_cant": "the copy is made through a temporary attribute in five nested loops; a mistake shows only for meshes with particular entity orders, directions, face sizes, values that are zero, or destinations that are not empty", "anchors": ["src/base/MESH_Copy.c: MESH_Copy", "src/base/Mesh.c: MESH_Add_Vertex"]}
{"id": "C61", "title": "A mesh sent by one process and received by another is the same mesh", "statement": "When one process calls MESH_SendMesh and another MESH_RecvMesh with a new mesh, the receiver takes exactly the messages that were sent and its mesh has one entity for each entity of the sender's mesh, in the same order, with the same coordinates, classification, ID and distributed-mesh data, bounded by the entities that stand for what bounds the original, in the same directions. If attributes are asked for, every attribute that does not hold pointers arrives with its name, type, number of components and values, and every set with its entries in order.", "quantifier": "every mesh of the full representation, every number type for coordinates and values, every attribute and set, whatever messages follow", "why_tests_cant": "the two sides are written separately and must agree on order, number, size and packing of messages; a mistake shows only for particular meshes - gaps in the IDs, no faces, large faces, values that are zero, empty sets - and only when run on several processes", "anchors": ["src/par/MESH_SendMesh.c: MESH_SendMesh", "src/par/MESH_RecvMesh.c: MESH_RecvMesh", "src/par/MESH_Send_NonVertexEntities.c: MESH_Send_NonVertexEntities_FN", "src/par/MESH_Recv_NonVertexEntities.c: MESH_Recv_NonVertexEntities_FN", "src/par/MESH_Send_Attribute.c: MESH_Send_Attribute", "src/par/MESH_Recv_Attribute.c: MESH_Recv_Attribute", "src/par/MESH_Send_MSet.c: MESH_Send_MSet", "src/par/MESH_Recv_MSet.c: MESH_Recv_MSet"]}
{"id": "C62", "title": "The element graph lists for every element the elements next to it", "statement": "MESH_GetElementGraph gives the number of elements, offsets that start at 0, never decrease and end at the number of entries, and for element i (counted from 0 in the order of the mesh) the numbers of the elements that share a side with it, each once per shared side; no other number occurs, and j is listed for i as often as i for j.", "quantifier": "every consistent mesh, solid or surface, manifold or not, any number of elements and neighbours", "why_tests_cant": "a mistake needs a mesh with many neighbours per element, with deleted elements or with more than two faces at an edge; partitioners that receive a wrong graph fail far away or give bad partitions silently", "anchors": ["src/hilev/MESH_GetElementGraph.c: MESH_GetElementGraph"]}
{"id": "C63", "title": "The topology check accepts valid meshes and rejects invalid ones", "statement": "MESH_CheckTopo returns 1 for every mesh whose adjacencies agree, whose classification does not decrease from an entity to what it bounds, whose faces inside model regions have a region at both sides, whose regions are closed and oriented, and whose faces and regions on a model face form rings around vertices and fans around edges. When it returns 1 the mesh has these properties.", "quantifier": "every complete mesh in full representation, any size, classification and ghost status", "why_tests_cant": "acceptance of all valid meshes and rejection of every invalid one range over all meshes; tests show a few valid ones and no test feeds a mesh with one face turned round or a region left open", "anchors": ["src/hilev/MESH_CheckTopo.c: MESH_CheckTopo"]}
{"id": "C64", "title": "Renumbering to reduce the bandwidth gives every vertex an ID of its own", "statement": "MESH_Renumber with type 1 for vertices ends; afterwards the vertices have the IDs 1 to n, each exactly once. Either the IDs are the old order without gaps, or the largest and the average difference of IDs in an element are smaller than before. The level structures it uses have every vertex at the level of its distance from the start, and the two ends it chooses are as far apart as any vertex is from either of them.", "quantifier": "every mesh (every list of elements over n vertices, any order of the elements around a vertex), every graph with mutual neighbours, any starting vertex", "why_tests_cant": "that no vertex is left without number and no array overflows depends on the shape of the whole mesh; tests renumber one or two meshes and compare with a stored result", "anchors": ["src/hilev/MESH_Renumber.c: MESH_Renumber", "src/util/Graph_renumber.c: Graph_Renumber_GPS, Graph_Build_LevelStructure, Graph_Find_ExtremalNodes, Graph_Assign_Levels_MinWidth, Graph_Assign_Numbers"]}
{"id": "C65", "title": "Collapsing an edge draws one vertex to the other and leaves a sound mesh", "statement": "ME_Collapse deletes the edge, one of its vertices, the triangles on the edge and one of each two edges that come to have the same ends, and nothing else. Every other face goes round the same vertices with the kept vertex for the deleted one, the mesh is consistent, and the lists returned have every deleted entity exactly once and every merged pair. The vertex asked for is kept; with topoflag 1 the vertex on the model entity of lower dimension, and the call is refused, with the mesh unchanged, when the vertices are on different model entities of the same dimension; when nothing is asked for, a vertex on the outer boundary is preferred.", "quantifier": "every consistent mesh, every edge that may be contracted, any classification, global IDs and ghost status, both values of topoflag and of the vertex to be kept", "why_tests_cant": "the edit reaches every face and edge at two vertices of any valence and merges edges in an order that depends on the stored lists; tests collapse an edge of one mesh", "anchors": ["src/mod/ME_Collapse.c: ME_Collapse", "src/mod/MEs_Merge.c: MEs_Merge", "src/mod/MFs_Merge.c: MFs_Merge"]}
{"id": "C66", "title": "The lists of ghost and overlap entities are those with the label", "statement": "After the ghost lists of a mesh were built, and through any later creations and deletions, the traversal of the ghost (overlap) vertices, edges, faces and regions gives exactly the entities of the mesh labelled so, each once and in increasing order of global ID. The numbers of ghost, overlap and interior entities agree with the labels, the loop over the interior entities visits each and ends, a search by global ID among the shared entities finds one exactly if there is one, and a deleted ghost or overlap entity that is restored is what it was before.", "quantifier": "every history of creating, deleting, labelling and numbering entities and building the ghost lists", "why_tests_cant": "the lists are kept in step with the labels by every creation and deletion; tests look at the lists once, right after they were built", "anchors": ["src/par/MESH_BuildGhostList.c: MESH_Build_GhostLists", "src/base/Mesh.c: MESH_Next_GhostVertex, MESH_Next_InteriorVertex, MESH_Num_InteriorVertices, MESH_GhostVertexFromGlobalID, MESH_Add_GhostVertex, MESH_Rem_GhostVertex, MESH_Sort_GhostLists", "src/base/MVertex.c: MV_Delete, MV_Restore"]}
{"id": "C67", "title": "Searching by global ID finds the entity that has it", "statement": "While the search by global ID is enabled, asking for a vertex, edge, face or region by its global ID gives the entity of the mesh that has this number, and NULL if there is none, whatever was created, deleted or renumbered since.", "quantifier": "every history of creating, deleting and numbering entities, enabling, sorting and disabling the search, and every number asked for", "why_tests_cant": "the search lists are copies that the other operations do not touch; tests search a mesh that did not change", "anchors": ["src/base/Mesh.c: MESH_Enable_GlobalIDSearch, MESH_Disable_GlobalIDSearch, MESH_VertexFromGlobalID, MESH_EdgeFromGlobalID, MESH_FaceFromGlobalID, MESH_RegionFromGlobalID"]}
{"id": "C68", "title": "Labelling marks exactly the layer of elements at the partition boundary", "statement": "After MESH_LabelPType exactly the elements (faces of a surface mesh, regions of a volume mesh) that had a ghost or overlap vertex when it was called are overlap, besides those that were overlap already, together with all their vertices, edges and faces except ghosts, which stay ghosts. Every other label is as before, the order of the elements in the mesh does not matter, and labelling again changes nothing.", "quantifier": "every consistent mesh of faces with simple loops or of standard and closed polyhedral regions, every order of its elements, and every assignment of labels", "why_tests_cant": "the labels set by one element are read by the loops over the others; tests label one decomposition of a regular mesh", "anchors": ["src/par/MESH_LabelPType.c: MESH_LabelPType, MESH_LabelPType_Face, MESH_LabelPType_Region"]}
{"id": "C69", "title": "Deleting the interior leaves exactly the boundary", "statement": "In a mesh in which an entity inside the model bounds only entities inside the model, MESH_DelInterior deletes all regions, and the faces, edges and vertices on model entities of the dimension of the mesh, and nothing else. What remains is a consistent mesh, has its boundary as before, has no regions at its faces, and is listed in the order it was. A mesh of vertices only is left alone.", "quantifier": "every consistent mesh of dimension 1, 2 or 3 and every such classification", "why_tests_cant": "entities are deleted while the lists are walked through, each deletion edits the lists of its neighbours; tests delete the interior of one mesh, if any", "anchors": ["src/hilev/MESH_DelInterior.c: MESH_DelInterior", "src/base/MRegion.c: MR_Delete", "src/base/MFace.c: MF_Delete", "src/base/MEdge.c: ME_Delete"]}
{"id": "C70", "title": "Quadrilaterals made from triangles form the refined mesh", "statement": "MESH_Tri2Quad applied to a mesh of triangles gives a new mesh with one vertex for each vertex, edge and face of the old one, placed at the vertex, at the middle of the edge and at the centre of the face and classified like it. Each triangle gives three quadrilaterals, one at each corner, that go round in the direction of the triangle and are classified like it. Neighbouring triangles share the halves of their common edge: two new vertices are joined by an edge exactly if one is an end and the other the middle of an old edge of a face, or one is the middle of an edge and the other the centre of its face, and no two vertices are joined twice. A mesh with a face that is not a triangle is refused.", "quantifier": "all consistent meshes of triangles, all orders of the entity lists, all classifications", "why_tests_cant": "A test converts a few small meshes and counts entities; that the new faces share their sides whatever the order and orientation of the triangles needs an argument over all meshes.", "anchors": ["src/hilev/MESH_Tri2Quad.c: MESH_Tri2Quad", "src/hilev/MF_Coords.c: MF_Coords", "src/base/MFace.c: MF_Set_Vertices"]}
{"id": "C71", "title": "Hexahedra made from tetrahedra form the refined mesh", "statement": "MESH_Tet2Hex applied to a mesh of tetrahedra gives a new mesh with one vertex for each vertex, edge, face and region of the old one, placed at the mean of its vertices and classified like it. Each tetrahedron gives four hexahedra, one at each vertex, correctly oriented and classified like it, and there are no other regions. Neighbouring tetrahedra share the quadrilaterals on their common face: no two faces have the same vertices, no two edges the same ends, every face belongs to a hexahedron, and two new vertices are joined exactly if one is an end and the other the middle of an edge, or the middle of an edge and the centre of its face, or the centre of a face and the centre of its region. A mesh with a face that is not a triangle is refused.", "quantifier": "all consistent meshes of tetrahedra without doubled edges or faces, all orders of the entity lists, all classifications", "why_tests_cant": "A test converts a few meshes; a wrong entry in the table of corners shows only for some orders of the vertices of neighbouring tetrahedra.", "anchors": ["src/hilev/MESH_Tet2Hex.c MESH_Tet2Hex", "src/hilev/MR_Coords.c MR_Coords", "src/hilev/MF_Coords.c MF_Coords"]}
{"id": "C72", "title": "Classification worked out from the model regions", "statement": "MESH_BuildClassfn without geometry gives every region a model region and puts every other entity on a model entity as its neighbours demand: a face with one model region on both sides is inside it; every other face not yet on a model face is on one, two such faces on the same exactly when the same two model regions are on their sides, and a model face known before between the same regions is used again; an edge none of whose faces is on a model face is inside, an edge between two faces of one model face is on it, every other edge is on a model edge, two of them on the same exactly when the same model faces (each once) meet there; vertices likewise from the model edges and faces around them, and vertices without neighbours or where only model faces touch have a model vertex of their own. New IDs are larger than all known ones. What is inside the model bounds only what is inside.", "quantifier": "every mesh, every order of its entities, every classification of its regions and every classification of the other entities known before", "why_tests_cant": "The IDs given depend on the order of all entities and on a table that grows during the run; tests look at a few meshes with one or two model regions.", "anchors": ["src/hilev/MESH_BuildClassfn.c:MESH_BuildClassfn", "src/hilev/MESH_BuildFaceClassfn.c:MESH_BuildFaceClassfn", "src/hilev/MESH_BuildEdgeClassfn.c:MESH_BuildEdgeClassfn", "src/hilev/MESH_BuildVertexClassfn.c:MESH_BuildVertexClassfn"]}
{"id": "C73", "title": "Mesh from a general description", "statement": "MESH_InitFromGenDesc on a new mesh, given points and either faces or regions (standard elements, or polyhedra with lists of faces), returns 1 and leaves exactly the mesh described: a vertex for every point with its coordinates, the faces or regions in the order of the list with IDs 1, 2, ..., every region with the given faces seen from the given side, edges and faces that several elements use once and no others. With faces and regions or with neither it returns 0 and leaves the vertices; without a template, a region with 7 or more than 8 vertices makes it return 0 with the regions before it in the mesh, and a region with fewer than 4 vertices stops the program.", "quantifier": "all lists of points; all lists of faces of 3 to 30 distinct existing vertices without repetition; all lists of regions with distinct existing vertices, with or without template, in which no side of a face is used twice and common faces are traversed alike", "why_tests_cant": "A mesh reader is tested with a few files; that the edges and faces shared by elements are found for every list and every order of the elements needs a proof.", "anchors": ["src/hilev/MESH_InitFromGenDesc.c: MESH_InitFromGenDesc", "src/base/MR_Face_Funcs_FNR3R4.c: MR_Set_Vertices_FNR3R4", "src/base/MF_Vertex_Funcs_F1F3.c: MF_Set_Vertices_F1F3"]}
{"id": "C74", "title": "Splitting an edge of a mesh of triangles and tetrahedra", "statement": "ME_Split_SimplexMesh on an edge replaces it by two with a new vertex between its ends, and every triangle and every tetrahedron of the edge by two, each with the new vertex in the place of one end and the same orientation as before, on the same model face or in the same model region. Apart from these there are only the triangles between the two halves of a tetrahedron; no two edges have the same ends and no two faces the same vertices; two vertices are joined by an edge exactly if they were before and are not the ends, or one is the new vertex and the other an end or the third vertex of a triangle of the edge. Everything that was not at the edge is as it was.", "quantifier": "every consistent mesh without doubled edges or faces, every edge whose faces are triangles and whose regions are tetrahedra, no two of them on the same four vertices", "why_tests_cant": "The order in which the vertices of each tetrahedron are read depends on which of its faces comes first and which way it points; a test with one or two tetrahedra sees one of the orders.", "anchors": ["src/mod/ME_Split_SimplexMesh.c: ME_Split_SimplexMesh", "src/mod/ME_Split.c: ME_Split"]}
{"id": "C75", "title": "Splitting a face of a mesh of triangles and tetrahedra", "statement": "MF_Split_SimplexMesh on a triangle replaces it by three, and each of the tetrahedra on its sides by three, each with the new vertex in the place of one vertex of the triangle and the same orientation as before, the triangles on the same model entity and the tetrahedra in the same model region. Apart from these there are only the triangles between the parts of a tetrahedron; no two edges have the same ends and no two faces the same vertices; the new vertex is joined by an edge exactly to the vertices of the triangle and of its tetrahedra. Everything that was not at the face, and every edge, is as it was.", "quantifier": "every consistent mesh without doubled edges or faces, every triangle whose regions are tetrahedra, not both of them on the same four vertices", "why_tests_cant": "The order in which the vertices of a tetrahedron are read depends on which of its faces is split, at which place of its list it is and which way it points; a test with one or two tetrahedra sees one of the orders.", "anchors": ["src/mod/MF_Split_SimplexMesh.c: MF_Split_SimplexMesh", "src/mod/MF_Split.c: MF_Split"]}
{"id": "C76", "title": "Partitioning a mesh", "statement": "MESH_Partition makes one mesh per part: the piece of the mesh that the elements of the part consist of (the elements, their faces, edges and vertices, each once), with the same coordinates, classification and boundaries in the same directions; the links Local2Global and Global2Local lead from each entity to its copies and back. The owner of every entity, in the mesh and in all pieces, is the lowest-numbered part that has it; global IDs that are there are kept, and entities without one are given different ones.", "quantifier": "every surface or volume mesh, every number of parts and every assignment of the elements to them", "why_tests_cant": "the pieces share entities in any number of ways, and which copy is made first depends on the order of all elements", "anchors": ["src/par/MESH_Partition.c:MESH_Partition", "src/par/MESH_Partition.c:MESH_Surf_Partition_FN", "src/par/MESH_Partition.c:MESH_Vol_Partition_FN"]}
{"id": "C77", "title": "The boundary between parts", "statement": "After MESH_Partition, MESH_BuildPBoundary flags an entity of a piece as being on the boundary between parts exactly when another part has that entity too; it changes nothing else of the entities of the piece.", "quantifier": "every surface or volume mesh, every number of parts and every assignment of the elements to them, every piece", "why_tests_cant": "the code compares numbers of neighbours in the piece and in the mesh, face by face, edge by edge and vertex by vertex; that this finds what is shared in all configurations is not seen in examples", "anchors": ["src/par/MESH_BuildPBoundary.c:MESH_BuildPBoundary", "src/par/MESH_BuildPBoundary.c:MESH_Surf_BuildPBoundary", "src/par/MESH_BuildPBoundary.c:MESH_Vol_BuildPBoundary"]}
{"id": "C78", "title": "Ghosts, overlap and owners of a distributed mesh", "statement": "When a mesh is partitioned and the boundaries and ghost layers of the pieces are built, as is done before the pieces are sent out: piece p consists of exactly the elements of part p and ring layers of elements around them (elements with a common vertex), with everything they consist of; every entity has one owner, the first part that has it, and all its copies have that owner and one global ID; a copy outside the owner is a ghost, the copy in the owner is overlap if another piece has a copy and interior if none has. Adding ghosts to one piece changes no other piece.", "quantifier": "every surface or volume mesh, every number of parts and every assignment of the elements to them, every number of layers", "why_tests_cant": "layers are found by marking vertices inwards and outwards and by looking up copies made for other pieces; that the two sides agree, so that every ghost has an overlap entity with the same global ID, depends on all pieces and all layers together", "anchors": ["src/par/MESH_AddGhost.c:MESH_AddGhost", "src/par/MESH_AddGhost.c:MESH_Surf_AddGhost_FN", "src/par/MESH_AddGhost.c:MESH_Vol_AddGhost_FN", "src/par/MESH_Partition_and_Send.c:MESH_Partition_and_Send"]}
{"id": "C79", "title": "The mesh sent to other processors for ghosts", "statement": "The mesh built for sending to other processors consists of exactly the elements labelled overlap and the vertices, edges and faces these consist of, each once, put together in the same way and in the same direction as in the mesh it is taken from, with the same classification, coordinates, label, owner and global ID. The mesh it is taken from is not changed and nothing outside the arrays used is read or written.", "quantifier": "every surface or volume mesh and every labelling of its elements", "why_tests_cant": "what has been copied is remembered in arrays that are indexed by entity IDs; whether every lookup finds the right copy depends on all entities copied before and on how the mesh was numbered", "anchors": ["src/par/MESH_BuildSubMesh.c:MESH_BuildSubMesh", "src/par/MESH_BuildSubMesh.c:MESH_BuildSubMesh_Face", "src/par/MESH_BuildSubMesh.c:MESH_BuildSubMesh_Region"]}
{"id": "C80", "title": "Adding the ghost faces that were received", "statement": "Adding received surface meshes to a part makes ghosts of exactly those received faces that touch the boundary of the part, one for each, with the classification, owner and global ID of the original and the same boundary in terms of global IDs, in the same direction; vertices and edges that are in the part already or in a mesh received before are used and not made again, so that no two have the same global ID. What was in the part stays as it was, but for the classification of ghosts it had, and the result is a valid mesh.", "quantifier": "every mesh of a part and every list of received meshes", "why_tests_cant": "corresponding entities are found by sorted arrays of global IDs and by temporary attributes that are set while ghosts are being made; what is found depends on everything that was added before, for all the meshes received", "anchors": ["src/par/MESH_ConcatSubMesh.c:MESH_ConcatSubMesh", "src/par/MESH_ConcatSubMesh.c:MESH_ConcatSubMesh_Face"]}
{"id": "C81", "title": "Adding the ghost regions that were received", "statement": "Adding received volume meshes to a part makes ghosts of exactly those received regions that touch the boundary of the part, one for each, with the classification, owner and global ID of the original; its faces are, by global ID, those of the original, each with the same vertices round it in the direction in which the region has it, whichever direction the face itself has where it was found. Vertices, edges and faces that are in the part already or in a mesh received before are used and not made again, so that no two have the same global ID. What was in the part stays as it was, but for the classification of ghosts it had, and the result is a valid mesh.", "quantifier": "every mesh of a part and every list of received meshes", "why_tests_cant": "faces that are shared with the part or with meshes received before may go round in either direction and begin anywhere; what is found depends on everything that was added before, for all the meshes received", "anchors": ["src/par/MESH_ConcatSubMesh.c:MESH_ConcatSubMesh", "src/par/MESH_ConcatSubMesh.c:MESH_ConcatSubMesh_Region"]}
{"id": "C82", "title": "Combining the values on an entity and on its ghosts", "statement": "After the gather and scatter operation with maximum, minimum, sum or average, an entity that has ghosts on other partitions has, on its owner, the maximum, minimum, sum or average of the numbers on it and on all of its ghosts, and its ghosts get the same number. No execution deadlocks, whichever messages MPI buffers, and the result does not depend on the schedule.", "quantifier": "every number of partitions, every distribution of ghosts, all values, every schedule and every choice of MPI to buffer messages or not", "why_tests_cant": "the number of interleavings and of buffering decisions is unbounded, and the ghosts of an entity may be on any number of partitions; a test sees one schedule and few values", "anchors": ["src/par/MESH_GathScat1Attribute.c:MESH_GathScat1Attribute", "src/par/MESH_Update1Attribute.c:MESH_Update1Attribute"]}
{"id": "C83", "title": "Exchanging values across the boundary of partitions", "statement": "After the exchange of an attribute on edges of a surface mesh or faces of a volume mesh, an entity on the boundary of its partition has the value that its ghost on the boundary of the other partition had, and that ghost has the value the entity had; other ghosts get the value of their owner and other owners keep theirs. No execution deadlocks, whichever messages MPI buffers, and the result does not depend on the schedule.", "quantifier": "every number of partitions, every distribution of ghosts, all values and types of attributes, every schedule and every choice of MPI to buffer messages or not", "why_tests_cant": "the two communications use the same entities in opposite directions, so that an error in the order gives back a value to where it came from; interleavings and buffering decisions are unbounded", "anchors": ["src/par/MESH_XchngEdgeFaceAttrib.c:MESH_XchngEdgeFaceAttrib", "src/par/MESH_Update1Attribute.c:MESH_Update1Attribute"]}
{"id": "C84", "title": "Updating the coordinates of ghost vertices", "statement": "After the update of vertex coordinates every ghost vertex has exactly the coordinates of the vertex on its owner (also where they are zero), and nothing else about it changes. No execution deadlocks, whichever messages MPI buffers, and the result does not depend on the schedule.", "quantifier": "every number of partitions, every distribution of ghosts, all coordinates, every schedule and every choice of MPI to buffer messages or not", "why_tests_cant": "interleavings and buffering decisions are unbounded, and offsets into the received lists depend on all the counts of all partitions", "anchors": ["src/par/MESH_UpdateVertexCoords.c:MESH_UpdateVertexCoords"]}
{"id": "C85", "title": "Attribute values of a distributed mesh", "statement": "When a mesh with attributes is cut into pieces with ghost layers, every piece has the attribute with the same type and number of components, and every entity of every piece, own or ghost, reports the value that the entity it is a copy of has in the mesh (unset numbers are reported as zero); the values of other attributes and of entities the attribute is not for are not touched.", "quantifier": "all meshes, partitions, numbers of ghost layers, attributes of numbers or arrays for one kind of entity or all, all values set or not", "why_tests_cant": "which copies exist depends on mesh, partition and layers; values not set and arrays with one component are rarely tested", "anchors": ["src/par/MESH_CopyAttr.c:MESH_CopyAttr", "src/par/MESH_Partition.c:MESH_Partition", "src/base/MEntity.c:MEnt_Set_AttVal"]}
{"id": "C86", "title": "Mesh sets of a distributed mesh", "statement": "When a mesh with mesh sets is cut into pieces with ghost layers, every piece has a set of each name, and its members are exactly the copies in that piece of the members of the set of the mesh; other sets and the pieces themselves do not change.", "quantifier": "all meshes, partitions, numbers of ghost layers, all mesh sets including mixed ones and members that were removed", "why_tests_cant": "members on partition boundaries have copies in any number of pieces; sets with members that go to no piece are rarely tested", "anchors": ["src/par/MESH_CopySet.c:MESH_CopySet", "src/base/Mesh.c:MESH_MSetByName"]}
{"id": "C87", "title": "Splitting a region with a loop of edges", "statement": "Splitting a region with a loop of its edges that divides its boundary replaces it by two regions: a new face with the edges of the loop is between them, each has the faces of one half in the directions in which the old region used them, the boundaries of both are closed, and nothing else changes.", "quantifier": "all consistent meshes, all regions with closed boundary, all loops that divide the boundary", "why_tests_cant": "polyhedra and loops are unbounded in number and shape; a face put to the wrong half or used in the wrong direction shows only in later operations; the source says that a unit test is missing", "anchors": ["src/mod/MR_Split_with_EdgeLoop.c:MR_Split_with_EdgeLoop"]}
{"id": "C88", "title": "Finding the neighbours of a partition", "statement": "After the partitions have compared the global IDs of their boundary vertices, each plans to receive vertices and edges, and faces if it has regions, from exactly those other partitions with which it shares a boundary vertex, in addition to what it planned before; what it plans to send and the numbers it expects do not change. Partitions of the same kind plan alike in both directions.", "quantifier": "all numbers of partitions, all meshes on them with distinct global IDs, all earlier histories of plans", "why_tests_cant": "numbers of partitions and shared vertices are unbounded; a wrong offset into the gathered IDs shows only for certain sizes of the boundaries of the partitions", "anchors": ["src/par/MESH_BuildConnection.c:MESH_BuildConnection"]}
{"id": "C89", "title": "Adjacency in the representation F4", "statement": "In a mesh whose edges store the faces and regions at them (representation F4), after any history of creation, deletion and restoration the edges and faces and regions of a vertex, the faces and regions of an edge and the regions of a face are exactly the existing ones that use the entity, each once, and the region of a face on a given side is the one on that side.", "quantifier": "all histories of creating vertices, edges, faces and regions, deleting and restoring faces and regions", "why_tests_cant": "histories and meshes are unbounded; what an edge stores depends on every earlier creation, deletion and restoration of the faces and regions at it", "anchors": ["src/base/MVertex_F4.c:MV_Regions_F4", "src/base/MEdge_F4.c:ME_Faces_F4", "src/base/MFace_F4.c:MF_Delete_F4", "src/base/MRegion_F4.c:MR_Restore_F4", "src/base/MF_Region_Funcs_F2F4.c:MF_Regions_F2F4"]}
{"id": "C90", "title": "Export to OFF and STL", "statement": "Exporting a surface mesh to OFF or STL gives a file which a reader of the format takes to describe exactly the points and faces of the mesh, with corners in order and, for STL, unit normals on the side from which corners are seen counterclockwise. A mesh the format cannot hold is refused and no file is changed.", "quantifier": "all surface meshes, all coordinates, all ways of printing numbers", "why_tests_cant": "the files are of unbounded length; whether a reader finds the same faces depends on how indices and keywords of all faces are laid out in the text", "anchors": ["src/io/MESH_ExportToOFF.c:MESH_ExportToOFF", "src/io/MESH_ExportToSTL.c:MESH_ExportToSTL"]}
{"id": "C91", "title": "Partitioning with METIS", "statement": "When the processes of a run ask for a partitioning of a mesh with METIS, METIS is handed the dual graph of the mesh: for every cell exactly the cells it shares a side with, once per side, symmetric and without loops. The first process gets a part below the number of processes for every cell, the others no table; with one process all cells are in part 0. Nothing outside the arrays is written.", "quantifier": "all meshes, all numbers of processes, all answers METIS may give to a proper graph", "why_tests_cant": "the size of the array for the neighbours is guessed from the number of sides; whether it is enough and whether the graph is symmetric depends on all cells of meshes of any size", "anchors": ["src/par/MESH_PartitionWithMetis.c:MESH_PartitionWithMetis", "src/par/MESH_Get_Partitioning.c:MESH_Get_Partitioning"]}
{"id": "C92", "title": "Adjacency in the reduced representation R1", "statement": "In a mesh with the representation R1 after every legal history: the regions of a vertex are exactly the existing regions with that vertex, each once, and their number agrees; the vertices of a region are those it was given; the vertices of a face come in the order they were given, from the asked vertex on and backwards when asked; the regions of a face are the existing regions next to it; a region uses a face with direction 1 if the face goes around one of the faces of the element with its normal pointing out, with 0 if the other way around, and otherwise not at all; the region on a side of a face is the one that uses it in that direction.", "quantifier": "all histories of creating vertices, faces and regions, giving them their vertices, deleting and restoring regions; all starting vertices, directions and sides", "why_tests_cant": "faces and upward adjacency are not stored but searched for in what vertices and regions know, which must stay in step through every history, and the search compares cyclic orders of all element types from any start", "anchors": ["src/base/MVertex_R1.c:MV_Regions_R1", "src/base/MRegion_R1.c:MR_Delete_R1", "src/base/MR_Vertex_Funcs_R1.c:MR_Set_Vertices_R1", "src/base/MF_Vertex_Funcs_R1.c:MF_Vertices_R1", "src/base/MF_Region_Funcs_R1.c:MF_Regions_R1", "src/base/MR_Face_Funcs_R1.c:MR_FaceDir_R1"]}
{"id": "C93", "title": "Check of the parallel information", "statement": "MESH_Parallel_Check, called by all processes on a distributed mesh, returns on every process, however messages are delayed. It returns 1 on a process exactly if, on that process, ghosts and only ghosts belong to another partition, and every ghost of its entities on other processes has an original here that is marked as overlap entity, has the same global ID and classification and the same coordinates (vertices), end points (edges), edges (faces) or faces (regions).", "quantifier": "all distributed meshes with any number of processes and any errors in their parallel information; all schedules of the processes and delays of messages", "why_tests_cant": "the function is the tool by which users find errors in distributed meshes, so it must come back and be right for every erroneous mesh; deadlocks and endless loops depend on which process has which error", "anchors": ["src/par/MESH_Parallel_Check.c:MESH_Parallel_Check", "src/par/MESH_Parallel_Check.c:MESH_Parallel_Check_GlobalID", "src/par/MESH_Parallel_Check.c:MESH_Parallel_Check_Ghost"]}
{"id": "C94", "title": "In a mesh that stores only vertices and regions, the edges and faces made on request are the right ones", "statement": "In a mesh with the reduced representation R1, which stores vertices and regions only, the edges and faces that queries make are those of the mesh: the edges of a region are new edges, one for each pair of neighbouring vertices on a face of the element, the faces of a region are its faces with normals pointing out, the edges of a face go around it from the vertex and in the direction asked for, a region or face is said to use an edge (in the direction said) exactly if it does, the edges, neighbouring vertices and faces at a vertex and the faces and regions of an edge are exactly those of the regions that are there, each once although several regions share them; and no query changes an entity that was there.", "quantifier": "all histories that build, delete and restore regions, followed by any sequence of queries that make edges and faces; all regions, faces, vertices and edges", "why_tests_cant": "shared edges and faces are made once per region and told apart by comparing cycles of vertices in both directions; tests look at one element or a small grid and count", "anchors": ["src/base/MR_Edge_Funcs_R1.c:MR_Edges_R1", "src/base/MR_Edge_Funcs_R1.c:MR_UsesEdge_R1", "src/base/MR_Face_Funcs_R1.c:MR_Faces_R1", "src/base/MF_Edge_Funcs_R1.c:MF_Edges_R1", "src/base/MF_Edge_Funcs_R1.c:MF_EdgeDir_R1", "src/base/MF_Edge_Funcs_R1.c:MF_UsesEdge_R1", "src/base/MF_Vertex_Funcs_R1.c:MFs_AreSame_R1", "src/base/MVertex_R1.c:MV_Edges_R1", "src/base/MVertex_R1.c:MV_AdjVertices_R1", "src/base/MVertex_R1.c:MV_Faces_R1", "src/base/ME_Face_Funcs_R1R2.c:ME_Faces_R1R2", "src/base/ME_Region_Funcs_RN.c:ME_Regions_RN"]}
{"id": "C95", "title": "In a mesh that stores vertices, faces and regions but no edges, every query answers what the mesh is", "statement": "In a mesh with the reduced representation R4, whose regions know their faces and whose faces know their vertices and the regions on their two sides, all queries answer what the caller has built: the vertices of a face from a given vertex on and in either direction, whether and in which direction a face uses an edge, the faces of a region with their directions and its vertices and type, the regions on the two sides of a face, the regions next to a region, and the faces and regions at a vertex.  This stays so when faces and regions are deleted and restored, and regions may be given by their faces or by their vertices.", "quantifier": "all histories that make vertices, faces and regions and delete and restore faces and regions in any order; all entities", "why_tests_cant": "the lists are kept in two places and changed by five functions; a test sees one history and mostly asks regions and faces, not vertices", "anchors": ["src/base/MVertex_R4.c:MV_Faces_R4", "src/base/MVertex_R4.c:MV_Regions_R4", "src/base/MFace_R4.c:MF_Delete_R4", "src/base/MFace_R4.c:MF_Restore_R4", "src/base/MF_Vertex_Funcs_R4.c:MF_Vertices_R4", "src/base/MF_Vertex_Funcs_R4.c:MF_Set_Vertices_R4", "src/base/MF_Edge_Funcs_R4.c:MF_EdgeDir_R4", "src/base/MF_Region_Funcs_R4.c:MF_Add_Region_R4", "src/base/MRegion_FNR3R4.c:MR_Restore_F1F3R3R4", "src/base/MR_Face_Funcs_FNR3R4.c:MR_Set_Faces_FNR3R4", "src/base/MR_Face_Funcs_FNR3R4.c:MR_AdjRegions_FNR3R4", "src/base/MR_Face_Funcs_FNR3R4.c:MR_Set_Vertices_FNR3R4"]}
{"id": "C96", "title": "Lengths of edges and the angles between edges and between faces are those of the geometry", "statement": "The vector and the length of an edge are those from its first to its second vertex.  For two edges with a common vertex the library returns the cosine of the angle between the two directions away from that vertex, whichever way the edges point; for edges that do not meet it reports an error.  For two flat faces with a common edge it returns the cosine of the dihedral angle, that is of the angle between the directions perpendicular to the edge in which the two faces extend, whatever the order of the faces, the direction of the edge in each of them and the numbers of their vertices; without an edge given it uses one that both faces have, and reports an error when there is none.", "quantifier": "all meshes, all coordinates (exact arithmetic with a square root), all pairs of edges and faces", "why_tests_cant": "the value depends on which vertex comes first in an edge and a face and on whether faces are triangles; tests use a few triangles and squares", "anchors": ["src/hilev/MEs_Angle.c:MEs_Angle", "src/hilev/MFs_DihedralAngle.c:MFs_DihedralAngle", "src/base/ME_Geometry.c:ME_Len", "src/base/ME_Geometry.c:ME_LenSqr", "src/base/ME_Geometry.c:ME_Vec", "src/misc/MSTK_VecFuncs.c:MSTK_VNormalize3", "src/misc/MSTK_VecFuncs.c:MSTK_VCross3"]}
{"id": "C97", "title": "The condition numbers of the corners of a face measure the corners", "statement": "For a face the library returns one number per vertex, in the order of the vertices of the face: the sum of the squares of the two sides of the corner divided by twice the area of the parallelogram they span.  It is at least 1, and 1 exactly for a right angle between sides of equal length.", "quantifier": "all faces with at least three vertices, all coordinates (exact arithmetic with a square root)", "why_tests_cant": "the formula is written with the three lengths of a triangle and guarded by thresholds; tests look at a few shapes", "anchors": ["src/misc/MF_CondNums.c:MF_CondNums"]}
{"id": "C98", "title": "The format of a file is the one its name or the caller gives", "statement": "Writing or reading a mesh without naming a format uses the format the extension of the file name stands for, and refuses a name whose extension stands for none; a format the caller names is the one used.  No file is ever written or read in another format, what was written under a name is read back in the same format under that name, and no name or format leads to undefined behaviour.", "quantifier": "all file names, all format names, builds with and without Exodus", "why_tests_cant": "the names are unbounded strings: paths, dots in directories, several dots, long format names; tests use a few plain names", "anchors": ["src/io/MESH_ExportToFile.c:MESH_ExportToFile", "src/io/MESH_ImportFromFile.c:MESH_ImportFromFile"]}
{"id": "C99", "title": "Merging two vertices in the reduced representations redirects every use of the second one", "statement": "After two vertices of a mesh in a reduced representation are merged, every region and face that used the second vertex uses the first one in its place, the mesh sets have the first one in place of the second, the first vertex answers the entities of both, and the second one is deleted; nothing else changes.  When the caller asks to respect the geometric model, vertices of different model entities are not merged and nothing changes.", "quantifier": "all meshes made through the interface in the representations R1 and R4, all pairs of vertices, all mesh sets", "why_tests_cant": "which entities are told depends on how the mesh was made; tests merge vertices in the full representation only", "anchors": ["src/mod/MVs_Merge.c:MVs_Merge", "src/mod/MVs_Merge_R1R2.c:MVs_Merge_R1R2", "src/mod/MVs_Merge_R3R4.c:MVs_Merge_R3R4"]}
{"id": "C100", "title": "Merging two faces in a reduced representation puts the first in place of the second", "statement": "After two faces of a mesh in the representation R4 are merged, every region that had the second face has the first one in its place, seen from the region with the same vertices in the same order; the first face has the regions of both on its sides, so that regions that met at the two faces are neighbours; the mesh sets have the first face in place of the second, which is deleted; nothing else changes.  When the caller asks to respect the geometric model, faces of different model entities are not merged and nothing changes.", "quantifier": "all histories of an R4 mesh, all pairs of faces, all mesh sets", "why_tests_cant": "regions, faces and directions are kept in three places that must agree after the call, for every arrangement of the faces; tests merge faces in the full representation only", "anchors": ["src/mod/MFs_Merge_R3R4.c:MFs_Merge_R3R4", "src/base/MR_Face_Funcs_FNR3R4.c:MR_Replace_Faces_FNR3R4", "src/base/MR_Face_Funcs_FNR3R4.c:MR_Set_FaceDir_i_FNR3R4", "src/base/MF_Region_Funcs_R4.c:MF_Rem_Region_R4"]}
{"id": "C101", "title": "The edges of a region are the sides of its faces", "statement": "Asked for the edges of a region, a mesh in the representation R4 answers edges whose end points are the vertices of the region, one and only one for any two vertices that are next to each other in one of its faces; for a tet these are six edges, one for any two corners.  A region uses an edge exactly if the two vertices of the edge are next to each other in one of its faces.", "quantifier": "all histories of an R4 mesh, all regions, with their faces and the vertices of the faces in any order and direction", "why_tests_cant": "the edges are not stored but put together from the faces, with limits that hold only for some shapes; tests look at the edges of regions in the full representation only", "anchors": ["src/base/MR_Edge_Funcs_R3R4.c:MR_Edges_R3R4", "src/base/MR_Edge_Funcs_R3R4.c:MR_UsesEdge_R3R4", "src/base/MF_Edge_Funcs_R4.c:MF_Edges_R4", "src/base/MF_Edge_Funcs_R4.c:MF_UsesEdge_R4"]}
{"id": "C102", "title": "Updating all attributes gives every ghost the values of its owner", "statement": "After all partitions have called the update of all attributes, every ghost entity has, for every attribute that is no pointer and is of its type of entity, the value its owner has for the attribute of that name; pointers and all other values are as they were; all partitions return, whatever the order of messages and whatever other attributes a partition has.", "quantifier": "all numbers of partitions, all attributes on each, all values, all schedules of messages", "why_tests_cant": "whether the call ends, and which values meet, depends on the attributes of all partitions and on the order of messages, of which a test shows one; tests have the same attributes in the same order everywhere", "anchors": ["src/par/MESH_UpdateAttributes.c:MESH_UpdateAttributes", "src/par/MESH_UpdateAttributes.c:MSTK_UpdateAttr", "src/par/MESH_Update1Attribute.c:MESH_Update1Attribute"]}
{"id": "C103", "title": "Merging two faces of a mesh that stores vertices and regions only", "statement": "Merging two faces of a mesh in the representation R1 answers the first face; afterwards the second face is not in the mesh and in none of its sets, where the first one stands for it, and all questions about vertices, regions and the other faces are answered as before.  If the caller asks to respect the geometric model, faces on different model entities are not merged.", "quantifier": "all histories of an R1 mesh, all pairs of faces, all sets and classifications", "why_tests_cant": "what is left behind of a deleted face shows only when the list of faces or a set is walked afterwards, and then memory that was given back is read; tests of merging use the full representation", "anchors": ["src/mod/MFs_Merge.c:MFs_Merge", "src/mod/MFs_Merge_R1R2.c:MFs_Merge_R1R2", "src/base/MFace.c:MF_Delete", "src/base/MFace_R1.c:MF_Delete_R1"]}
