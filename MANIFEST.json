{
 "claims": [
  {
   "property": "C01",
   "status": "proved",
   "theorems": [
    "MSTK.C01_list_is_sequence"
   ],
   "note": "Refinement of List.c storage model to sequences, all histories."
  },
  {
   "property": "C02",
   "status": "partial",
   "theorems": [
    "MSTK.C02_list_cat_negation",
    "MSTK.C02_list_cat_partial"
   ],
   "note": "Code violates the property when dest has no gaps and src has some (List.c:972-974); proved otherwise."
  },
  {
   "property": "C03",
   "status": "partial",
   "theorems": [
    "MSTK.C03_list_insert_negation",
    "MSTK.C03_list_insert_partial"
   ],
   "note": "Code violates the property (inverted comparison, List.c:511); append case proved."
  },
  {
   "property": "C04",
   "status": "proved",
   "theorems": [
    "MSTK.C04_iteration_visits_all_once",
    "MSTK.C04_iteration_with_removal"
   ],
   "note": ""
  },
  {
   "property": "C05",
   "status": "proved",
   "theorems": [
    "MSTK.C05_list_storage_safe"
   ],
   "note": ""
  },
  {
   "property": "C06",
   "status": "proved",
   "theorems": [
    "MSTK.C06_list_as_set",
    "MSTK.C06_list_rem_first"
   ],
   "note": ""
  },
  {
   "property": "C07",
   "status": "partial",
   "theorems": [
    "MSTK.C07_remSorted_partial",
    "MSTK.C07_remSorted_absent_negation",
    "MSTK.C07_remSorted_absent_ub"
   ],
   "note": "Proved for entries in the list; for absent entries the code hangs or reads an uninitialised variable."
  },
  {
   "property": "C08",
   "status": "proved",
   "theorems": [
    "MSTK.HashT.C08_hash_is_map"
   ],
   "note": ""
  },
  {
   "property": "C09",
   "status": "partial",
   "theorems": [
    "MSTK.HashT.C09_hash_chknAdd_negation",
    "MSTK.HashT.C09_hash_chknAdd_negation_witness",
    "MSTK.HashT.C09_hash_chknAdd_partial"
   ],
   "note": "Code violates the property when the key is present (returns the entry instead of the table); proved for absent keys."
  },
  {
   "property": "C10",
   "status": "proved",
   "theorems": [
    "MSTK.HashT.C10_locked_entities_survive",
    "MSTK.HashT.C10_reachable",
    "MSTK.HashT.C10_lock_counter",
    "MSTK.HashT.C10_lock_counter_exact"
   ],
   "note": ""
  },
  {
   "property": "C100",
   "status": "partial",
   "theorems": [
    "MSTK.R4M.C100_merge_partial",
    "MSTK.R4M.C100_refused",
    "MSTK.R4M.C100_negation_reversed",
    "MSTK.R4M.C100_negation_lost"
   ],
   "note": "Proved for all legal histories and all pairs of faces that no region has both of and no two regions use in the same direction: every query of C95 answers as if the regions had been given the first face. The code violates the rest: the direction is kept although the first face goes around the other way, so the region has it inside out (for all such faces), and a region that uses the first face in the same direction is overwritten and forgotten by the face (for all histories)."
  },
  {
   "property": "C101",
   "status": "partial",
   "theorems": [
    "MSTK.R4M.C101_tet_partial",
    "MSTK.R4M.C101_uses",
    "MSTK.R4M.C101_negation_hex",
    "MSTK.R4M.C101_negation_other"
   ],
   "note": "Proved for all legal histories and all tets, with faces and vertices in any order and direction; whether a region uses an edge is proved for all regions. The code violates the rest, for all regions: for a hex only four of the twelve edges, and for other regions only those of the first face, have vertices at their ends, the others have edges there; for other regions edges are also counted once for each face."
  },
  {
   "property": "C102",
   "status": "partial",
   "theorems": [
    "MSTK.Par.C102_update_partial",
    "MSTK.Par.C102_rounds",
    "MSTK.Par.C102_negation_hang",
    "MSTK.Par.C102_negation_order"
   ],
   "note": "Proved for all partitions, all attributes and all schedules of the messages, if all partitions have the same attributes in the same order, pointers aside; values that are zero are not passed on (C34). The code violates the rest: attributes are brought together by their position and not by their name, so that two partitions with the same attributes in another order exchange the values of different ones, and partitions with different numbers of attributes wait for ever (for all of them)."
  },
  {
   "property": "C103",
   "status": "partial",
   "theorems": [
    "MSTK.R1M.C103_faces_partial",
    "MSTK.R1M.C103_negation_list",
    "MSTK.R1M.C103_negation_class",
    "MSTK.R1M.C103_negation_self"
   ],
   "note": "Proved for all legal histories and all pairs of different faces: the first face is answered, and all questions about vertices, regions and the other faces are answered as if the second face had not been made. The code violates the rest, for all histories: the second face is freed but stays in every set and on the list of faces, which a mesh without regions has, the model entities are not looked at, and a face merged with itself is answered although it is gone."
  },
  {
   "property": "C11",
   "status": "proved",
   "theorems": [
    "MSTK.C11_quicksort_sorts",
    "MSTK.C11_quicksort_subrange"
   ],
   "note": ""
  },
  {
   "property": "C12",
   "status": "proved",
   "theorems": [
    "MSTK.C12_compare_ids",
    "MSTK.C12_compareINT_negation",
    "MSTK.C12_compare_edges",
    "MSTK.C12_compare_faces"
   ],
   "note": "compareINT subtracts and overflows for arbitrary ints (negation recorded); the property holds for IDs, edges and faces."
  },
  {
   "property": "C13",
   "status": "proved",
   "theorems": [
    "MSTK.MarkAlloc.C13_marker_never_shared",
    "MSTK.MarkAlloc.C13_marker_progress"
   ],
   "note": ""
  },
  {
   "property": "C14",
   "status": "proved",
   "theorems": [
    "MSTK.C14_marks_independent"
   ],
   "note": ""
  },
  {
   "property": "C15",
   "status": "proved",
   "theorems": [
    "MSTK.C15_header_fields_independent",
    "MSTK.C15_out_of_range"
   ],
   "note": ""
  },
  {
   "property": "C16",
   "status": "proved",
   "theorems": [
    "MSTK.Att.C16_attributes_are_a_map"
   ],
   "note": "Clearing vector/tensor attributes excluded (see C17)."
  },
  {
   "property": "C17",
   "status": "partial",
   "theorems": [
    "MSTK.Att.C17_clear_negation",
    "MSTK.Att.C17_clear_negation_witness",
    "MSTK.Att.C17_clear_partial"
   ],
   "note": "Code violates the property for vector/tensor attributes (memcpy from NULL)."
  },
  {
   "property": "C18",
   "status": "proved",
   "theorems": [
    "MSTK.MSetM.C18_mset_algebra"
   ],
   "note": ""
  },
  {
   "property": "C19",
   "status": "partial",
   "theorems": [
    "MSTK.MeshL.C19_ids_unique",
    "MSTK.MeshL.C19_lookup_partial",
    "MSTK.MeshL.C19_lookup_crash",
    "MSTK.MeshL.C19_lookup_negation"
   ],
   "note": "Uniqueness proved; lookup proved except when sorted search is requested with no live entities (crash) or entities are restored (missed)."
  },
  {
   "property": "C20",
   "status": "proved",
   "theorems": [
    "MSTK.MeshL.C20_count_and_traversal"
   ],
   "note": ""
  },
  {
   "property": "C21",
   "status": "proved",
   "theorems": [
    "MSTK.Topo.C21_history",
    "MSTK.Topo.C21_sides_differ",
    "MSTK.Topo.C21_negation_reset_vertex",
    "MSTK.Topo.C21_negation_replace_same",
    "MSTK.Topo.C21_negation_reset_edges",
    "MSTK.Topo.C21_negation_repeated_edge"
   ],
   "note": "For legal histories; the negation theorems show concrete histories outside the class (redefining an edge end, replacing by the same vertex, redefining a face, an edge twice in a face) after which the answers disagree."
  },
  {
   "property": "C22",
   "status": "partial",
   "theorems": [
    "MSTK.Topo.C22_vertex_faces",
    "MSTK.Topo.C22_vertex_regions",
    "MSTK.Topo.C22_edge_regions",
    "MSTK.Topo.C22_face_regions",
    "MSTK.Topo.C22_adjacent_vertices",
    "MSTK.Topo.C22_adjacent_faces",
    "MSTK.Topo.C22_adjacent_regions",
    "MSTK.Topo.C22_negation_num_regions",
    "MSTK.Topo.C22_negation_adjacent_twice",
    "MSTK.Topo.C22_negation_adjacent_faces_twice"
   ],
   "note": "All list queries are exact. The code violates the counting part: MV_Num_Regions of a vertex without regions dereferences NULL."
  },
  {
   "property": "C23",
   "status": "proved",
   "theorems": [
    "MSTK.Topo.C23_vertices",
    "MSTK.Topo.C23_vertices_from",
    "MSTK.Topo.C23_edges",
    "MSTK.Topo.C23_edges_from",
    "MSTK.Topo.C23_together"
   ],
   "note": "For faces with a closed loop of distinct vertices; a start vertex that is not on the face is a fatal error."
  },
  {
   "property": "C24",
   "status": "proved",
   "theorems": [
    "MSTK.Topo.C24_set_vertices",
    "MSTK.Topo.C24_too_many",
    "MSTK.Topo.C24_negation_repeated"
   ],
   "note": "For up to 30 vertices, consecutive ones distinct; more than 30 write outside the fixed array, and a repeated consecutive vertex gives a face without a closed loop."
  },
  {
   "property": "C25",
   "status": "partial",
   "theorems": [
    "MSTK.Topo.C25_rem_edge",
    "MSTK.Topo.C25_replace_at_partial",
    "MSTK.Topo.C25_loop_stays_closed_partial",
    "MSTK.Topo.C25_replace_named_partial",
    "MSTK.Topo.C25_negation_shrink",
    "MSTK.Topo.C25_negation_wrap",
    "MSTK.Topo.C25_negation_named_backwards"
   ],
   "note": "The code does not satisfy the full property: replacing edges by two or more fewer, by more across the end of the list, or naming three or more old edges backwards are wrong (negations). The theorems cover all other cases."
  },
  {
   "property": "C26",
   "status": "partial",
   "theorems": [
    "MSTK.Topo.C26_replace_faces_partial",
    "MSTK.Topo.C26_negation"
   ],
   "note": "When at least as many new faces as old ones are given; with fewer the directions are shifted wrongly (negation)."
  },
  {
   "property": "C27",
   "status": "proved",
   "theorems": [
    "MSTK.Topo.C27_vertex",
    "MSTK.Topo.C27_edge",
    "MSTK.Topo.C27_face",
    "MSTK.Topo.C27_region",
    "MSTK.Topo.C27_negation_edge_without_vertex"
   ],
   "note": "For entities that are fully defined (edges with both vertices, faces and regions with a list); restoring an edge with a missing vertex dereferences NULL (negation)."
  },
  {
   "property": "C28",
   "status": "proved",
   "theorems": [
    "MSTK.C28_tables_consistent",
    "MSTK.C28_which",
    "MSTK.C28_positions"
   ],
   "note": "Tables copied literally; decided over the complete tables. Edge row of tet face 4 is rotated by one against its vertex row (C28_positions)."
  },
  {
   "property": "C29",
   "status": "partial",
   "theorems": [
    "MSTK.Topo.C29_multisplit_partial",
    "MSTK.Topo.C29_split_partial",
    "MSTK.Topo.C29_negation_too_many"
   ],
   "note": "For edges between two different vertices whose faces use them once and keep at most 32 edges; beyond 32 edges the code shifts out of range (negation)."
  },
  {
   "property": "C30",
   "status": "partial",
   "theorems": [
    "MSTK.Topo.C30_merge_partial",
    "MSTK.Topo.C30_sets",
    "MSTK.Topo.C30_negation_same_vertex",
    "MSTK.Topo.C30_negation_edge_to_itself"
   ],
   "note": "For two different vertices, the second without an edge to itself; the other cases fail (negations)."
  },
  {
   "property": "C31",
   "status": "proved",
   "theorems": [
    "MSTK.Par.C31_flags_independent",
    "MSTK.Par.C31_spec_meaning",
    "MSTK.Par.C31_set_prtn_again_negation"
   ],
   "note": "For one MESH_Set_Prtn call; a second call with more partitions overruns the array (negation)."
  },
  {
   "property": "C32",
   "status": "proved",
   "theorems": [
    "MSTK.Par.C32_partitions_agree",
    "MSTK.Par.C32_again"
   ],
   "note": "For two or more partitions; plans made earlier persist, since flags are never cleared."
  },
  {
   "property": "C33",
   "status": "proved",
   "theorems": [
    "MSTK.Par.C33_no_deadlock",
    "MSTK.Par.C33_completes",
    "MSTK.Par.C33_plans_match"
   ],
   "note": "Every interleaving, with any choice of which sends are buffered; the plans after MESH_Update_ParallelAdj match."
  },
  {
   "property": "C34",
   "status": "partial",
   "theorems": [
    "MSTK.Par.C34_update_partial",
    "MSTK.Par.C34_negation_zero",
    "MSTK.Par.C34_negation_one_component",
    "MSTK.Par.C34_negation_no_vector"
   ],
   "note": "Ghosts get the owner's value unless it is zero, for every schedule of the exchange; zero values are never passed on, one-component vectors are never updated, and an unset vector on an overlap entity reads a null pointer (negations)."
  },
  {
   "property": "C35",
   "status": "partial",
   "theorems": [
    "MSTK.Par.C35_global_ids",
    "MSTK.Par.C35_coordinates_partial",
    "MSTK.Par.C35_negation_tolerance"
   ],
   "note": "Proved for every consistent comparison of points; the code's comparison of coordinates has a tolerance and is one when coordinates are equal or further apart than it (C43); without that IDs are lost (negation)."
  },
  {
   "property": "C36",
   "status": "partial",
   "theorems": [
    "MSTK.Par.C36_owned_partial",
    "MSTK.Par.C36_ghosts",
    "MSTK.Par.C36_negation_empty_partition"
   ],
   "note": "When all partitions have entities of the type, or none; otherwise the call hangs (negation). Two or more partitions for the ghosts."
  },
  {
   "property": "C37",
   "status": "proved",
   "theorems": [
    "MSTK.Column.C37_columns_together",
    "MSTK.Column.C37_any_mesh",
    "MSTK.Column.C37_terminates"
   ],
   "note": "Geometry (which face is up/down) is an input of the model."
  },
  {
   "property": "C38",
   "status": "proved",
   "theorems": [
    "MSTK.Gen.C38_entities",
    "MSTK.Gen.C38_sides",
    "MSTK.Gen.C38_mesh",
    "MSTK.Gen.C38_boundary",
    "MSTK.Gen.C38_plane",
    "MSTK.Gen.C38_plane_mesh",
    "MSTK.Gen.C38_degenerate"
   ],
   "note": "For all sizes, 2D and 3D: entities, counts and classification; the calls succeed on an empty mesh and the resulting mesh has exactly these entities with the right definitions and incidences; a face has two regions exactly if it is classified inside. Coordinates (floating point) are not modelled."
  },
  {
   "property": "C39",
   "status": "partial",
   "theorems": [
    "MSTK.C39_fatal_negation",
    "MSTK.C39_fatal_partial",
    "MSTK.C39_nonfatal_returns",
    "MSTK.C39_long_message_ub"
   ],
   "note": "Code violates the property when the message repeats the previous one."
  },
  {
   "property": "C40",
   "status": "proved",
   "theorems": [
    "MSTK.MeshL.C40_sequential_renumber"
   ],
   "note": "For histories in which sorted search is not requested on an emptied mesh."
  },
  {
   "property": "C41",
   "status": "proved",
   "theorems": [
    "MSTK.C41_element_type",
    "MSTK.C41_tables",
    "MSTK.Topo.C41_after_set_faces",
    "MSTK.Topo.C41_after_replace_faces",
    "MSTK.Topo.C41_negation_rem_face"
   ],
   "note": "The decision for any face list, and the stored type after MR_Set_Faces and MR_Replace_Faces. MR_Rem_Face does not update the stored type: proved as a negation."
  },
  {
   "property": "C42",
   "status": "partial",
   "theorems": [
    "MSTK.Topo.C42_common_edge",
    "MSTK.Topo.C42_common_face_of_edges",
    "MSTK.Topo.C42_common_face_sound",
    "MSTK.Topo.C42_common_face_partial",
    "MSTK.Topo.C42_negation_same_vertex",
    "MSTK.Topo.C42_negation_diagonal",
    "MSTK.Topo.C42_negation_parallel_edges",
    "MSTK.Topo.C42_negation_too_few"
   ],
   "note": "MVs_CommonEdge and MEs_CommonFace in full for different entities; MVs_CommonFace is sound, and complete when consecutive vertices are joined by the face's edges; negations for the rest."
  },
  {
   "property": "C43",
   "status": "partial",
   "theorems": [
    "MSTK.C43_compare_coords_negation",
    "MSTK.C43_compare_coords_partial"
   ],
   "note": "Not transitive for any positive tolerance."
  },
  {
   "property": "C44",
   "status": "partial",
   "theorems": [
    "MSTK.C44_list_header",
    "MSTK.C44_hash_header_partial",
    "MSTK.C44_hash_header_negation"
   ],
   "note": "Lists proved; hash counts from 2^25 to the documented maximum 2^26-1 are misread."
  },
  {
   "property": "C45",
   "status": "partial",
   "theorems": [
    "MSTK.MSetM.C45_mset_add_negation",
    "MSTK.MSetM.C45_mset_add_partial"
   ],
   "note": "Code returns the internal list."
  },
  {
   "property": "C46",
   "status": "partial",
   "theorems": [
    "MSTK.C46_rename_negation",
    "MSTK.C46_rename_partial"
   ],
   "note": "Code overruns the name buffer for longer names."
  },
  {
   "property": "C47",
   "status": "partial",
   "theorems": [
    "MSTK.MeshL.C47_delete_restored_negation",
    "MSTK.MeshL.C47_delete_restored_partial"
   ],
   "note": "Code has undefined behaviour when deleting a restored entity whose ID is not the largest."
  },
  {
   "property": "C48",
   "status": "proved",
   "theorems": [
    "MSTK.Topo.C48_standard",
    "MSTK.Topo.C48_no_duplicates",
    "MSTK.Topo.C48_polyhedron",
    "MSTK.Topo.C48_other_numbers",
    "MSTK.Topo.C48_negation_side_taken",
    "MSTK.Topo.C48_negation_twisted"
   ],
   "note": "Classification of created edges and faces is not part of this model. When a side is taken the code builds the region with the face turned round; a face on the same vertices in another order is taken for the face of the polyhedron (the two negation theorems)."
  },
  {
   "property": "C49",
   "status": "proved",
   "theorems": [
    "MSTK.Topo.C49_effect",
    "MSTK.Topo.C49_history",
    "MSTK.Topo.C49_view"
   ],
   "note": "What may be asked of each call is Legal (TopoSpec.lean): for instance at most 32 edges per face and 512 faces per region, MR_Replace_Faces with at least as many new faces as old ones; the cycle after MF_Replace_Edges is given when at most one edge fewer comes in (otherwise only which edges the face has, see C25). MR_Set_FaceDir_i at a position from 512 on changes nothing, as the code does."
  },
  {
   "property": "C50",
   "status": "proved",
   "theorems": [
    "MSTK.Topo.C50_split_with_edge",
    "MSTK.Topo.C50_joined_already",
    "MSTK.Topo.C50_not_on_face"
   ],
   "note": "Faces with up to 32 edges whose regions have room for one more face; coordinates and classification of the new entities are not modelled."
  },
  {
   "property": "C51",
   "status": "proved",
   "theorems": [
    "MSTK.Topo.C51_split"
   ],
   "note": "Faces with up to 30 vertices (MAXPV2, the code does not check it) whose regions have room."
  },
  {
   "property": "C52",
   "status": "partial",
   "theorems": [
    "MSTK.Topo.C52_join_partial",
    "MSTK.Topo.C52_join_in_regions_partial",
    "MSTK.Topo.C52_refused",
    "MSTK.Topo.C52_refused_regions",
    "MSTK.Topo.C52_negation_class",
    "MSTK.Topo.C52_negation_region"
   ],
   "note": "Proved for each vertex once in each face and at most 32 edges in the result: for faces without regions, and for faces between the same regions when each region uses the faces listed behind the second one in the same direction. Faces on different model entities are joined all the same (the code compares the first face with itself), and when the region uses a later face in the other direction, that face is told the region is on its other side (negations)."
  },
  {
   "property": "C53",
   "status": "partial",
   "theorems": [
    "MSTK.Topo.C53_join",
    "MSTK.Topo.C53_refused",
    "MSTK.Topo.C53_negation_two_faces",
    "MSTK.Topo.C53_negation_itself"
   ],
   "note": "Proved for regions with exactly one common face; with two common faces the joined region has one of them twice, and joining a region with itself is a use after free (negations)."
  },
  {
   "property": "C54",
   "status": "partial",
   "theorems": [
    "MSTK.Topo.C54_swap_partial",
    "MSTK.Topo.C54_refused",
    "MSTK.Topo.C54_not_triangles",
    "MSTK.Topo.C54_negation_folded",
    "MSTK.Topo.C54_negation_region"
   ],
   "note": "Proved when no region has the triangles and they go round the same way; otherwise the code reads the deleted edge, or leaves a region with deleted faces (negations). Classification is not modelled (the code gives the new entities model ID 0)."
  },
  {
   "property": "C55",
   "status": "partial",
   "theorems": [
    "MSTK.Topo.C55_merge_partial",
    "MSTK.Topo.C55_refused",
    "MSTK.Topo.C55_negation_itself"
   ],
   "note": "Proved for different edges that no face has both of, faces with up to 32 edges; an edge merged with itself is deleted while faces have it (negation)."
  },
  {
   "property": "C56",
   "status": "partial",
   "theorems": [
    "MSTK.Topo.C56_merge_partial",
    "MSTK.Topo.C56_refused",
    "MSTK.Topo.C56_negation_one_edge",
    "MSTK.Topo.C56_negation_itself"
   ],
   "note": "Proved for faces going round the same edges when the side needed is free; the code compares too few edges and so merges faces which share only part of them, and a face merged with itself is deleted (negations)."
  },
  {
   "property": "C57",
   "status": "proved",
   "theorems": [
    "MSTK.Topo.C57_standard",
    "MSTK.Topo.C57_after_set_vertices",
    "MSTK.Topo.C57_polyhedron",
    "MSTK.Topo.C57_negation_diagonal",
    "MSTK.Topo.C57_negation_open"
   ],
   "note": "Full representations. Needs that no two edges join the same vertices, and that the stored type is that of the element. Negations: a prism crossed by an edge of the mesh gets a wrong numbering; the last face of an open polyhedron is not looked at."
  },
  {
   "property": "C58",
   "status": "proved",
   "theorems": [
    "MSTK.Topo.C58_standard",
    "MSTK.Topo.C58_polyhedron",
    "MSTK.Topo.C58_uses_edge",
    "MSTK.Topo.C58_uses_vertex",
    "MSTK.Topo.C58_negation_diagonal",
    "MSTK.Topo.C58_negation_open"
   ],
   "note": "Full representations. Needs that no two edges join the same vertices; the stored type is not used. Negations: for a prism crossed by an edge of the mesh the diagonal is answered and edges are missing; the last face of an open polyhedron is not looked at."
  },
  {
   "property": "C59",
   "status": "proved",
   "theorems": [
    "MSTK.File.C59_round_trip",
    "MSTK.File.C59_exact",
    "MSTK.File.C59_again",
    "MSTK.File.C59_negation_no_edges",
    "MSTK.File.C59_negation_precision",
    "MSTK.File.C59_negation_blank_name",
    "MSTK.File.C59_negation_empty_file"
   ],
   "note": "One process, representations F1 and F4, release build. Numbers are any type with a printing and a scanning whose output is a word that can be scanned. Negations: a mesh without edges is written but cannot be read; digits after the 16th or 6th decimal are lost; a blank in a name makes the file unreadable; an empty file is undefined behaviour. Writing the extra data of parallel runs and reading R1, R2, R4 files is not modelled."
  },
  {
   "property": "C60",
   "status": "partial",
   "theorems": [
    "MSTK.Copy.C60_copy_partial",
    "MSTK.Copy.C60_negation_edges",
    "MSTK.Copy.C60_negation_zero",
    "MSTK.Copy.C60_negation_id"
   ],
   "note": "Full representation F1, source and destination different meshes, release build. Proved for faces of at most 30 edges and regions of at most 512 faces. Negations: a face with 31 or 32 edges overruns an array; an attribute value that is zero is not set on the copy; the IDs of the source are set but the largest ID is not kept up, so a vertex made later has an ID in use. An attribute called copyatt is not copied, pointers are not copied."
  },
  {
   "property": "C61",
   "status": "partial",
   "theorems": [
    "MSTK.Send.C61_send_partial",
    "MSTK.Send.C61_negation_zero",
    "MSTK.Send.C61_negation_all",
    "MSTK.Send.C61_negation_gid",
    "MSTK.Send.C61_negation_id",
    "MSTK.Send.C61_negation_edges",
    "MSTK.Send.C61_negation_faces",
    "MSTK.Send.C61_negation_set",
    "MSTK.Send.C61_negation_vector"
   ],
   "note": "Full representation F1, release build, receiver's mesh new. Proved for meshes with faces, IDs that are 1, 2, ... in list order, at most 30 edges to a face, global IDs that are distinct, sets that are not empty, vectors that every entity has. Negations show each is needed: gaps in the IDs make receiving undefined, a face with 31 edges overflows the receive buffer, without faces a message is left over and taken for another, without global IDs sets arrive with other entries, an empty set or a vector missing on an entity makes sending undefined; values that are zero and values of attributes for all kinds of entities do not arrive."
  },
  {
   "property": "C62",
   "status": "partial",
   "theorems": [
    "MSTK.Topo.C62_region_graph_partial",
    "MSTK.Topo.C62_face_graph_partial",
    "MSTK.Topo.C62_symmetric_partial",
    "MSTK.Topo.C62_face_symmetric_partial",
    "MSTK.Topo.C62_negation_realloc",
    "MSTK.Topo.C62_negation_ids",
    "MSTK.Topo.C62_negation_symmetric"
   ],
   "note": "Full representation F1. Proved for meshes whose element IDs count the elements and, in a mesh with regions, at most four neighbours per region on average. Negations: with more neighbours (any mesh of hexahedra of some size) growing the array is undefined because realloc is given the address of the caller's pointer; after deletions the graph names elements that do not exist; a face that uses an edge twice breaks symmetry."
  },
  {
   "property": "C63",
   "status": "partial",
   "theorems": [
    "MSTK.Topo.C63_accepts",
    "MSTK.Topo.C63_sound_partial",
    "MSTK.Topo.C63_negation_second_vertex",
    "MSTK.Topo.C63_negation_same_dimension",
    "MSTK.Topo.C63_negation_degenerate_edge",
    "MSTK.Topo.C63_negation_flipped_face",
    "MSTK.Topo.C63_negation_no_face",
    "MSTK.Topo.C63_negation_open_region"
   ],
   "note": "Full representation F1. Proved: every well formed mesh is accepted; an accepted mesh has the properties in `Checked`. The rest of the other direction is false: the second vertex of an edge on a model face is not checked when there are regions, edges and faces on different model entities of one dimension and edges with equal vertices are accepted, and a surface with a turned face, a vertex without a face on its model face and an open region crash the routine or stop the program instead of giving 0."
  },
  {
   "property": "C64",
   "status": "partial",
   "theorems": [
    "MSTK.Num.C64_levels",
    "MSTK.Num.C64_ends",
    "MSTK.Num.C64_disconnected",
    "MSTK.Num.C64_numbers_partial",
    "MSTK.Num.C64_permutation_partial",
    "MSTK.Num.C64_overflow",
    "MSTK.Num.C64_quad_not",
    "MSTK.Num.C64_graph",
    "MSTK.Num.C64_graph_default_not",
    "MSTK.Num.C64_pieces",
    "MSTK.Num.C64_ids_partial",
    "MSTK.Num.C64_ids_permutation_partial",
    "MSTK.Num.C64_ids_not",
    "MSTK.Num.C64_ids_quad_not",
    "MSTK.Num.C64_ids_default_not"
   ],
   "note": "Vertices only; integer coordinates. Proved: levels and ends for every connected graph; the call ends for every graph; IDs other than 0 are distinct and the bandwidth is not larger; all IDs are given when every vertex is on a shortest walk between the two ends. The full statement is false: with the code as it is two vertices of an L of three quadrilaterals get ID 0, one quadrilateral overflows an array (and so does every graph in which the vertices on no shortest walk hang together), a mesh in several pieces is undefined behaviour, and in the default build without markers the graph is wrong for every mesh."
  },
  {
   "property": "C65",
   "status": "partial",
   "theorems": [
    "MSTK.Topo.C65_asked_partial",
    "MSTK.Topo.C65_conforming_partial",
    "MSTK.Topo.C65_refused",
    "MSTK.Topo.C65_boundary_partial",
    "MSTK.Topo.C65_asked_for_goes",
    "MSTK.Topo.C65_negation_unclassified",
    "MSTK.Topo.C65_negation_refused_merge",
    "MSTK.Topo.C65_negation_outer"
   ],
   "note": "The whole routine is modelled; the effect is proved for edges of surface meshes (triangles and polygons up to 32 vertices) at which the collapse does not make two faces coincide. The full statement is false: with topoflag 1 a vertex that was asked for is deleted when the other one is on the same model entity and has a smaller global ID; an unclassified mesh crashes when an edge to be merged has no face left; a merge refused by MEs_Merge is returned as done and leaves two edges with the same ends; in a mesh with regions the outer vertex is not preferred. Missing: the effect on regions."
  },
  {
   "property": "C66",
   "status": "partial",
   "theorems": [
    "MSTK.Ghost.C66_lists",
    "MSTK.Ghost.C66_num_interior_partial",
    "MSTK.Ghost.C66_next_interior_partial",
    "MSTK.Ghost.C66_shared_by_global_id",
    "MSTK.Ghost.C66_negation_next_interior",
    "MSTK.Ghost.C66_negation_num_interior",
    "MSTK.Ghost.C66_negation_restored_ghost",
    "MSTK.Ghost.C66_negation_restored_overlap",
    "MSTK.Ghost.C66_negation_delete_unlisted",
    "MSTK.Ghost.C66_negation_id_search"
   ],
   "note": "Proved for every history: the ghost and overlap lists, their order and number, the search among shared entities, the number of interior entities when there are ghost and overlap ones, and the interior entities themselves. The full statement is false: the loop over interior entities never ends well (it reads through NULL), their number cannot be asked for without ghost entities, a deleted ghost or overlap entity is not properly restored, and a ghost deleted before the lists exist stays in the mesh. The statement leaves nothing else open."
  },
  {
   "property": "C67",
   "status": "partial",
   "theorems": [
    "MSTK.Ghost.C67_lookup_partial",
    "MSTK.Ghost.C67_negation_empty",
    "MSTK.Ghost.C67_negation_no_faces",
    "MSTK.Ghost.C67_negation_created",
    "MSTK.Ghost.C67_negation_deleted",
    "MSTK.Ghost.C67_negation_changed",
    "MSTK.Ghost.C67_negation_enable_again"
   ],
   "note": "Proved for every history that made and sorted the search lists after the last change, with different global IDs. The full statement is false: a mesh without entities of the kind ends the process or reads NULL, entities created, deleted or renumbered while the search is enabled are missed or read after release, and enabling again does not make new lists."
  },
  {
   "property": "C68",
   "status": "partial",
   "theorems": [
    "MSTK.Topo.C68_faces",
    "MSTK.Topo.C68_regions",
    "MSTK.Topo.C68_other_dimensions",
    "MSTK.Topo.C68_negation_ghost_element",
    "MSTK.Topo.C68_negation_again"
   ],
   "note": "The labels after the call are proved exactly, for surface and volume meshes. Two clauses of the statement are false: a ghost element becomes an overlap element, and labelling again makes the layer grow by one ring of elements."
  },
  {
   "property": "C69",
   "status": "proved",
   "theorems": [
    "MSTK.Topo.C69_boundary",
    "MSTK.Topo.C69_vertices_only",
    "MSTK.Topo.C69_negation_unclassified",
    "MSTK.Topo.C69_negation_misclassified"
   ],
   "note": "For every consistent mesh and every classification in which interior entities bound only interior entities. The two negations show that the condition is needed: without classification the interior faces stay, and a wrong one leaves a face with a deleted edge."
  },
  {
   "property": "C70",
   "status": "proved",
   "theorems": [
    "MSTK.Topo.C70_quads",
    "MSTK.Topo.C70_refused"
   ],
   "note": "For every consistent mesh of triangles whose edges have two ends; the lists of entities are any orders of the live ones. Points are given by the vertices they average, so that the rounding of the coordinates is not part of the statement."
  },
  {
   "property": "C71",
   "status": "proved",
   "theorems": [
    "MSTK.Topo.C71_hexes",
    "MSTK.Topo.C71_refused",
    "MSTK.Topo.C71_negation_polyhedron"
   ],
   "note": "For every consistent mesh of tetrahedra without doubled edges or faces; the lists of entities are any orders of the live ones. Points are given by the vertices they average. The negation theorem shows that a region with triangles only that is not a tetrahedron is not refused but runs into undefined behaviour; the statement is about meshes of tetrahedra and meshes with other faces."
  },
  {
   "property": "C72",
   "status": "proved",
   "theorems": [
    "MSTK.Topo.C72_build",
    "MSTK.Topo.C72_classified",
    "MSTK.Topo.C72_negation_corners",
    "MSTK.Topo.C72_negation_given",
    "MSTK.Topo.C72_negation_repeated",
    "MSTK.Topo.C72_negation_alone",
    "MSTK.Topo.C72_negation_region"
   ],
   "note": "For any topology and any lists of all its entities, and any classification known before except an edge without faces that is given on a model edge (undefined behaviour, negation theorem). The statement about edges and vertices on the same model entity is for places where every model face or edge is met once; C72_negation_repeated shows that it fails otherwise. Further negation theorems: the two ends of a model edge between the same faces share a model vertex, model edges given by the user are merged when the same model faces meet there, and a negative region ID stays when no region has ID 0. The refinement by angles (use_geometry = 1) is not modelled; IDs are unbounded integers."
  },
  {
   "property": "C73",
   "status": "proved",
   "theorems": [
    "MSTK.Topo.C73_faces",
    "MSTK.Topo.C73_regions",
    "MSTK.Topo.C73_refused",
    "MSTK.Topo.C73_no_shape",
    "MSTK.Topo.C73_negation_few"
   ],
   "note": "For a mesh without entities and any number of points, faces and regions. The conditions on the lists are those of MF_Set_Vertices and MR_Set_Vertices (C48): distinct vertices, at most 30 per face, 200 and 512 per polyhedron, no side of a face used twice. The call does not undo what it did when it refuses (C73_refused, C73_no_shape), and the test of the number of vertices lets regions with fewer than four vertices through (C73_negation_few)."
  },
  {
   "property": "C74",
   "status": "partial",
   "theorems": [
    "MSTK.Topo.C74_split_partial",
    "MSTK.Topo.C74_negation_region_classification"
   ],
   "note": "Everything of the statement but the model region of the new tetrahedra: their IDs are copied from an array that is allocated and never filled (C74_negation_region_classification). For every consistent mesh without doubled edges or faces in which the edge bounds triangles and tetrahedra only, no two of the tetrahedra on the same four vertices; the rest of the mesh may have any elements."
  },
  {
   "property": "C75",
   "status": "partial",
   "theorems": [
    "MSTK.Topo.C75_split_partial",
    "MSTK.Topo.C75_negation_region_classification"
   ],
   "note": "Everything of the statement but the model region of the new tetrahedra: their IDs are copied from an array that is allocated and never filled (C75_negation_region_classification). For every consistent mesh without doubled edges or faces and every triangle whose regions are tetrahedra, not both on the same four vertices; the rest of the mesh may have any elements."
  },
  {
   "property": "C76",
   "status": "partial",
   "theorems": [
    "MSTK.Prt.C76_partition_partial",
    "MSTK.Prt.C76_none",
    "MSTK.Prt.C76_negation_unused",
    "MSTK.Prt.C76_negation_again",
    "MSTK.Prt.C76_negation_ids"
   ],
   "note": "The pieces and the links are as stated for every mesh with at most 30 edges to a face and 512 faces to a region (the arrays of the function) and every assignment; owners and global IDs for every entity that is in a part, when no entity but elements has an owner before and, for the different global IDs, when the entities of the kind have none. What fails otherwise: an entity that is in no element is noted as owned by part 2^29-1; a mesh partitioned a second time gets wrong owners, since the owners noted before are taken for marks; an ID given can be one that is there already. Attributes of the pieces without values and the IDs (numbers) of the copies are not in the statement."
  },
  {
   "property": "C77",
   "status": "partial",
   "theorems": [
    "MSTK.Prt.C77_boundary_partial",
    "MSTK.Prt.C77_shared_partial",
    "MSTK.Prt.C77_negation_edge",
    "MSTK.Prt.C77_negation_again"
   ],
   "note": "Proved for every mesh in which everything is in an element, and pieces on which nothing is flagged yet (those MESH_Partition makes). Otherwise it fails: where an edge is in no element, its vertex is flagged though no other part has it; flags from before are not taken back."
  },
  {
   "property": "C78",
   "status": "partial",
   "theorems": [
    "MSTK.Prt.C78_ghosts_partial",
    "MSTK.Prt.C78_distribute_partial",
    "MSTK.Prt.C78_negation_empty",
    "MSTK.Prt.C78_negation_edge"
   ],
   "note": "Proved for every mesh in which everything is in an element and every part has an element (or no layer is asked for), full representation F1. Otherwise it fails: with a part without elements the program ends; an edge that is in no element makes everything around it overlap although no other piece has it."
  },
  {
   "property": "C79",
   "status": "partial",
   "theorems": [
    "MSTK.Prt.C79_submesh_partial",
    "MSTK.Prt.C79_negation_gap"
   ],
   "note": "Proved for every mesh whose vertex, edge and face IDs have no gaps, full representation F1. With gaps, as after a deletion without renumbering, the arrays are written outside their bounds."
  },
  {
   "property": "C80",
   "status": "partial",
   "theorems": [
    "MSTK.Cat.C80_concat_partial",
    "MSTK.Cat.C80_negation_twice",
    "MSTK.Cat.C80_negation_interior"
   ],
   "note": "Proved for surface meshes (F1) when what a received mesh has in common with the part is not interior there, global IDs of vertices and of edges are different within each mesh and edges with the same global ID join the same vertices. Otherwise it fails: a face received twice is made twice; an interior vertex is not found and made again."
  },
  {
   "property": "C81",
   "status": "partial",
   "theorems": [
    "MSTK.Cat.C81_concat_partial",
    "MSTK.Cat.C81_negation_twice"
   ],
   "note": "Proved for F1 when what a received mesh has in common with the part, regions aside, is not interior there, global IDs of vertices, edges and faces are different within each mesh, edges and faces with the same global ID have the same vertices, received regions are standard elements or closed polyhedra and no two regions are in the same place (the source assumes that, too). Otherwise it fails: a region received twice is made twice, and its faces know only the second one."
  },
  {
   "property": "C82",
   "status": "partial",
   "theorems": [
    "MSTK.Par.C82_gather_partial",
    "MSTK.Par.C82_scatter_partial",
    "MSTK.Par.C82_negation_zero",
    "MSTK.Par.C82_negation_arrays"
   ],
   "note": "Proved for INT and DOUBLE attributes when the combined number is not zero: zero is neither stored on the owner nor passed on to ghosts. For VECTOR and TENSOR attributes it fails: the sums and extrema use values that were never set. Overflow of the sums is excluded."
  },
  {
   "property": "C83",
   "status": "partial",
   "theorems": [
    "MSTK.Par.C83_owners_partial",
    "MSTK.Par.C83_exchange_partial",
    "MSTK.Par.C83_negation_zero",
    "MSTK.Par.C83_negation_one_component"
   ],
   "note": "Proved for values that are not zero, for INT and DOUBLE attributes and for VECTOR and TENSOR attributes with at least two components that are set. A zero is not passed on, and VECTOR attributes with one component never change."
  },
  {
   "property": "C84",
   "status": "proved",
   "theorems": [
    "MSTK.Par.C84_coords"
   ],
   "note": "For any partitions with sorted lists of overlap vertices where every ghost vertex is a copy of an overlap vertex of its owner, and all schedules."
  },
  {
   "property": "C85",
   "status": "partial",
   "theorems": [
    "MSTK.Prt.C85_attributes_partial",
    "MSTK.Prt.C85_new_attribute_partial",
    "MSTK.Prt.C85_negation_unset",
    "MSTK.Prt.C85_negation_one_component"
   ],
   "note": "Proved for INT and DOUBLE attributes, and for VECTOR and TENSOR attributes with at least two components that are set on all entities the attribute is for. An array attribute that is not set on some entity is read through NULL when it is copied, and one with a single component is made with a missing argument and written through NULL. Attributes of type POINTER are not passed on, as documented in the code. All zeros count as the same number."
  },
  {
   "property": "C86",
   "status": "partial",
   "theorems": [
    "MSTK.Prt.C86_sets_partial",
    "MSTK.Prt.C86_negation_edge"
   ],
   "note": "Proved for all sets with names of at most 255 characters when every entity of the mesh is part of an element (the conclusion of C78). A set with a member that is part of no element, such as a lone edge, is copied with a read through NULL."
  },
  {
   "property": "C87",
   "status": "partial",
   "theorems": [
    "MSTK.Topo.C87_split_partial",
    "MSTK.Topo.C87_sealed",
    "MSTK.Topo.C87_negation_first_edge"
   ],
   "note": "Proved for all consistent meshes and all loops of at most 30 edges (the size of the array of directions) that divide the closed boundary of the region, for at most 511 faces (the array of faces) and loops listed along their first edge. A loop listed against the direction of its first edge ends the program."
  },
  {
   "property": "C88",
   "status": "proved",
   "theorems": [
    "MSTK.Par.C88_connection",
    "MSTK.Par.C88_symmetric"
   ],
   "note": "For all partitions with distinct global IDs of boundary vertices and any legal history of flag calls. The gather is modelled as the concatenation of the blocks in rank order (the contract of MPI), bsearch by the loop of glibc, and reading an entry that was not set is undefined behaviour in the model."
  },
  {
   "property": "C89",
   "status": "partial",
   "theorems": [
    "MSTK.F4M.C89_answers_partial",
    "MSTK.F4M.C89_negation_regions",
    "MSTK.F4M.C89_negation_free",
    "MSTK.F4M.C89_negation_side"
   ],
   "note": "Proved for all legal histories with the regions that were restored after a temporary deletion and with temporary deletion of faces; the faces of a vertex are exact if at each of its edges there are no known regions or all faces belong to known regions. A region that was only created is recorded nowhere, so the queries for regions are empty and the number of regions of a vertex reads through NULL; a face deleted for good stays in the lists of its edges; the region on a side of a face is that of the other side."
  },
  {
   "property": "C90",
   "status": "partial",
   "theorems": [
    "MSTK.File.C90_off_partial",
    "MSTK.File.C90_negation_off",
    "MSTK.File.C90_stl_partial",
    "MSTK.File.C90_negation_stl",
    "MSTK.File.C90_negation_emptied",
    "MSTK.File.C90_normal"
   ],
   "note": "Proved for all surface meshes numbered in order and all ways to print numbers as words. The OFF file counts points from 1, while the format counts from 0: read by the format it is malformed or describes other faces. The STL file runs endloop and endfacet together, so a reader of the format refuses every file with a triangle. A refused STL export has emptied the file. The OFF code does not close the file; the theorems are about what was printed."
  },
  {
   "property": "C91",
   "status": "partial",
   "theorems": [
    "MSTK.Topo.C91_volume_partial",
    "MSTK.Topo.C91_surface_partial",
    "MSTK.Topo.C91_manifold_partial",
    "MSTK.Topo.C91_negation_overflow",
    "MSTK.Topo.C91_negation_wire",
    "MSTK.Topo.C91_negation_ids"
   ],
   "note": "Proved for all volume meshes whose IDs count the regions and for all surface meshes whose IDs count the faces and whose neighbours fit an array of twice the number of edges, in particular when no edge has more than two faces. With more neighbours the array overflows (six triangles on one edge); IDs with gaps give a graph METIS must not be handed; meshes without faces end the program. What METIS answers to a proper graph is a hypothesis; Zoltan is not modelled."
  },
  {
   "property": "C92",
   "status": "partial",
   "theorems": [
    "MSTK.R1M.C92_answers_partial",
    "MSTK.R1M.C92_negation_delete",
    "MSTK.R1M.C92_negation_faces",
    "MSTK.R1M.C92_negation_template",
    "MSTK.R1M.C92_negation_type",
    "MSTK.R1M.C92_negation_across",
    "MSTK.R1M.C92_negation_third",
    "MSTK.R1M.C92_negation_replace",
    "MSTK.R1M.C92_negation_again"
   ],
   "note": "Proved for all legal histories in which regions get their vertices once and are deleted temporarily and restored; directions and sides for standard elements given without a template. Deleting a region for good always reads freed storage; a face deleted for good stays in the list of the mesh; a region given with a template has the wrong number of faces and may get the wrong type; a face across a region counts as next to it, a third candidate is not looked at; replacing a vertex and setting the vertices again leave the vertices with stale answers."
  },
  {
   "property": "C93",
   "status": "partial",
   "theorems": [
    "MSTK.Par.C93_marks",
    "MSTK.Par.C93_check_partial",
    "MSTK.Par.C93_negation_alone",
    "MSTK.Par.C93_negation_faces",
    "MSTK.Par.C93_negation_missing",
    "MSTK.Par.C93_negation_regions",
    "MSTK.Par.C93_negation_twice",
    "MSTK.Par.C93_negation_stray",
    "MSTK.Par.C93_negation_many"
   ],
   "note": "Proved for any number of partitions and every schedule: the check ends and answers exactly for vertices, edges and the classification of faces and regions, when all partitions pass the check of ghost marks, have regions or none has, ghost faces and regions have originals, and flags fit. A partition that fails the first check leaves the others waiting for ever (for all such meshes); a ghost face without original puts the owner in an endless loop; a partition without regions leaves the others waiting; edges of faces are not compared; global IDs used twice and ghosts of partitions that do not exist are accepted; too many ghosts end the program. MPI_Allgather is modelled by pairwise exchange, coordinates are rational numbers."
  },
  {
   "property": "C94",
   "status": "partial",
   "theorems": [
    "MSTK.R1M.C94_answers_partial",
    "MSTK.R1M.C94_negation_again",
    "MSTK.R1M.C94_negation_null",
    "MSTK.R1M.C94_negation_oneEnd",
    "MSTK.R1M.C94_negation_template",
    "MSTK.R1M.C94_template_edge",
    "MSTK.R1M.C94_negation_across"
   ],
   "note": "Proved for all legal histories followed by any queries, for regions that are standard elements given without a template; regions of an edge when no region has both vertices without having the edge and the first vertex has a region; faces of an edge when both or neither vertex has regions. Asking again gives other edges (for all meshes); the number of edges at a vertex without regions and the regions and faces of an edge with such a vertex read a null pointer (for all meshes); a hex given with its faces lacks an edge; a hex counts as a region of an edge across its face. The build without HASHTABLE is modelled; classification of what is made is not."
  },
  {
   "property": "C95",
   "status": "partial",
   "theorems": [
    "MSTK.R4M.C95_answers_partial",
    "MSTK.R4M.C95_negation_vertices",
    "MSTK.R4M.C95_negation_template",
    "MSTK.R4M.C95_negation_standard",
    "MSTK.R4M.C95_negation_bare",
    "MSTK.R4M.C95_edges_partial",
    "MSTK.R4M.C95_negation_edges",
    "MSTK.R4M.C95_negation_edge_faces"
   ],
   "note": "Proved for all legal histories: everything faces and regions answer, and the edges a face makes on request with their end points and faces. The code violates the rest: giving a face its vertices does not tell the vertices, so a vertex answers only faces that were deleted and restored, and the regions at those (the theorem says exactly which); without them counting regions reads a null pointer (for all histories). Regions given by vertices and a template never share a face (for all histories), regions given by vertices alone read a null pointer (for all meshes), and deleting a face without vertices does (for all histories). No edge is ever answered twice, so neighbouring faces share none (for all meshes), and without restored faces no edge has a face (for all histories)."
  },
  {
   "property": "C96",
   "status": "partial",
   "theorems": [
    "MSTK.Geo.C96_lengths",
    "MSTK.Geo.C96_edges_partial",
    "MSTK.Geo.C96_edges_apart",
    "MSTK.Geo.C96_faces_partial",
    "MSTK.Geo.C96_common_edge",
    "MSTK.Geo.C96_negation_order",
    "MSTK.Geo.C96_negation_large",
    "MSTK.Geo.C96_negation_short"
   ],
   "note": "Proved in exact arithmetic over any ordered field with a square root (the real numbers are one), for edges longer than 1.0e-28 and for flat faces of at most 30 vertices that lie on one side of the line of the common edge and have no other vertex near that line. A triangle and a quadrilateral that is not convex give 1 instead of -1 in one order of the arguments, because the number of vertices of the first face is tested for the second one as well; a face with more than 30 vertices overflows an array (for all such faces); for edges of length 1.0e-29 the value is not a cosine. Rounding is not modelled."
  },
  {
   "property": "C97",
   "status": "partial",
   "theorems": [
    "MSTK.Geo.C97_corners_partial",
    "MSTK.Geo.C97_ideal",
    "MSTK.Geo.C97_negation_large",
    "MSTK.Geo.C97_negation_small"
   ],
   "note": "Proved in exact arithmetic over any ordered field with a square root for faces of at most 30 vertices and corners whose three points are at least 1.0e-14 apart; corners in line have no number (division by zero). A face with more than 30 vertices overflows an array (for all such faces); the corners of a square of side 1.0e-15 get a number other than 1. Rounding is not modelled."
  },
  {
   "property": "C98",
   "status": "partial",
   "theorems": [
    "MSTK.Fmt.C98_export_partial",
    "MSTK.Fmt.C98_import_partial",
    "MSTK.Fmt.C98_never_another",
    "MSTK.Fmt.C98_read_back",
    "MSTK.Fmt.C98_given",
    "MSTK.Fmt.C98_given_only",
    "MSTK.Fmt.C98_negation_dots",
    "MSTK.Fmt.C98_negation_one_way",
    "MSTK.Fmt.C98_negation_long",
    "MSTK.Fmt.C98_negation_refused"
   ],
   "note": "Proved for all names that no other format is ever used and that what was written is read back in the same format; the format of the extension is used for all names with at most one dot after the first character. The code violates the rest: every name with two such dots is refused, among them ../mesh.mstk and mesh.1.mstk (for all such names); files x3d are read but not written by their extension and off the other way round, exo is a format for writing and not for reading; a format name of sixteen characters or more overflows an array (for all of them); an import that is refused changes the representation of the mesh, and any format that begins with a known name is taken for it when writing."
  },
  {
   "property": "C99",
   "status": "partial",
   "theorems": [
    "MSTK.R1M.C99_merge_partial",
    "MSTK.R1M.C99_refused",
    "MSTK.R4M.C99_r4_partial",
    "MSTK.R1M.C99_negation_regions",
    "MSTK.R1M.C99_negation_made",
    "MSTK.R1M.C99_negation_both",
    "MSTK.R4M.C99_negation_r4"
   ],
   "note": "Proved for R1 for all meshes made through the interface whose regions at the second vertex are standard elements: regions and sets are redirected. The code violates the rest: in R1 the first vertex does not learn of the regions of the second (for all meshes), edges and faces made before keep the deleted vertex (for all meshes), and a region with both has the first one twice; in R4 no face is changed unless it was deleted and restored (for all histories), so the faces keep the deleted vertex."
  }
 ]
}