import Verif.TopoLoop
import Verif.Props.Adjacency

/-!
C23: face vertices and edges are reported in cyclic order.

Specification: `Loop` (`TopoLoop.lean`) says what it means that the edges of a face form a closed
loop, in terms of `MF_Edges`, `MF_EdgeDir_i` and `ME_Vertex`.
-/
namespace MSTK
namespace Topo

/-- **C23, vertices without a start vertex.** -/
theorem C23_vertices {T : Topo} {f : Nat} {vs : List Nat} (hf : T.sf f = .live) (h : T.Loop f vs)
    (dir : Bool) : T.mfVertices f dir none =
      .ok ((if dir then vs else (vs.rotate 1).reverse).map some) := by
  obtain ⟨l, h1, -, h3, h4⟩ := h.stored (alloc_of_live hf)
  unfold mfVertices
  rw [fedges_ok (alloc_of_live hf) h1, Res.bind_ok]
  show (do let ks ← Res.ok (straight dir l.length); collect _ ks) = _
  have hw : l.length = ((if dir then vs else vs.rotate 1).map some).length := by
    rw [h3]; cases dir <;> simp
  rw [Res.bind_ok, hw, collect_straight (collect_map_some (fun k x => h4 k x dir))]
  cases dir <;> simp

/-- **C23, vertices from a start vertex**: the list starts there and goes round in the direction
asked for; a vertex that is not on the face is a fatal error. -/
theorem C23_vertices_from {T : Topo} {f : Nat} {vs : List Nat} (hf : T.sf f = .live) (h : T.Loop f vs)
    (hn : vs.Nodup) (dir : Bool) (v : Nat) :
    (∀ k, vs[k]? = some v → T.mfVertices f dir (some v) =
      .ok ((if dir then vs.rotate k else (vs.rotate (k+1)).reverse).map some)) ∧
    (v ∉ vs → T.mfVertices f dir (some v) = .fatal) := by
  obtain ⟨l, h1, -, h3, h4⟩ := h.stored (alloc_of_live hf)
  have hw : l.length = ((if dir then vs else vs.rotate 1).map some).length := by
    rw [h3]; cases dir <;> simp
  have hfs := findStart_ok (v := v) (fun k x => h4 k x dir) l.length 0 (by rw [hw]; simp)
  rw [List.drop_zero, Nat.zero_add] at hfs
  constructor
  · intro k hk
    have hmem : v ∈ (if dir then vs else vs.rotate 1) := by
      have := List.mem_of_getElem? hk
      cases dir <;> simpa using this
    have hlt := (List.getElem?_eq_some_iff.1 hk).1
    have hj : (if dir then vs else vs.rotate 1).idxOf v < l.length := by
      rw [hw, List.length_map]; exact List.idxOf_lt_length_iff.2 hmem
    rw [if_pos hmem] at hfs
    unfold mfVertices visit
    rw [fedges_ok (alloc_of_live hf) h1, Res.bind_ok]
    dsimp only
    rw [hfs, Res.bind_ok]
    dsimp only
    rw [Res.pure_eq, Res.bind_ok]
    generalize hj' : (if dir then vs else vs.rotate 1).idxOf v = j at *
    rw [hw, collect_turn (by rw [← hw]; exact hj) (collect_map_some (fun k x => h4 k x dir))]
    cases dir
    · simp only [Bool.false_eq_true, if_false] at hj' ⊢
      rw [rotate_one_idxOf hn hk] at hj'
      rw [← List.map_rotate, ← List.map_reverse, List.rotate_rotate]
      congr 3
      apply rotate_add_mod
      rw [← hj', show 1 + ((k + vs.length - 1) % vs.length + 1) = (k + vs.length - 1) % vs.length + 2 by omega,
        Nat.mod_add_mod, show k + vs.length - 1 + 2 = k + 1 + vs.length by omega, Nat.add_mod_right]
    · simp only [if_true] at hj' ⊢
      rw [idxOf_eq_of_nodup hn hk] at hj'
      rw [← List.map_rotate, hj']
  · intro hv
    have hmem : v ∉ (if dir then vs else vs.rotate 1) := by
      cases dir <;> simpa using hv
    rw [if_neg hmem] at hfs
    unfold mfVertices visit
    rw [fedges_ok (alloc_of_live hf) h1, Res.bind_ok]
    dsimp only
    rw [hfs, Res.bind_ok]
    rfl

/-- **C23, edges.**  `es` is the list `MF_Edges(f,1,0)`. -/
theorem C23_edges {T : Topo} {f : Nat} {vs es : List Nat} (hf : T.sf f = .live) (h : T.Loop f vs)
    (hes : T.mfEdges f true none = .ok es) (dir : Bool) :
    T.mfEdges f dir none = .ok (if dir then es else es.reverse) := by
  obtain ⟨l, h1, h2, h3, h4⟩ := h.stored (alloc_of_live hf)
  rw [h2] at hes; injection hes with hes; subst hes
  unfold mfEdges
  rw [fedges_ok (alloc_of_live hf) h1, Res.bind_ok]
  show (do let ks ← Res.ok (straight dir l.length); collect _ ks) = _
  rw [Res.bind_ok, collect_straight getElem?_ofOption]

/-- **C23, edges from a start vertex.** -/
theorem C23_edges_from {T : Topo} {f : Nat} {vs es : List Nat} (hf : T.sf f = .live) (h : T.Loop f vs)
    (hn : vs.Nodup) (hes : T.mfEdges f true none = .ok es) (dir : Bool) (v : Nat) :
    (∀ k, vs[k]? = some v → T.mfEdges f dir (some v) =
      .ok (if dir then es.rotate k else (es.rotate k).reverse)) ∧
    (v ∉ vs → T.mfEdges f dir (some v) = .fatal) := by
  obtain ⟨l, h1, h2, h3, h4⟩ := h.stored (alloc_of_live hf)
  rw [h2] at hes; injection hes with hes; subst hes
  have hw : l.length = (if dir then vs else vs.rotate 1).length := by
    rw [h3]; cases dir <;> simp
  have hfs := findStart_ok (v := v) (fun k x => h4 k x dir) l.length 0 (by rw [hw]; simp)
  rw [List.drop_zero, Nat.zero_add] at hfs
  constructor
  · intro k hk
    have hmem : v ∈ (if dir then vs else vs.rotate 1) := by
      have := List.mem_of_getElem? hk
      cases dir <;> simpa using this
    have hlt := (List.getElem?_eq_some_iff.1 hk).1
    have hj : (if dir then vs else vs.rotate 1).idxOf v < l.length := by
      rw [hw]; exact List.idxOf_lt_length_iff.2 hmem
    rw [if_pos hmem] at hfs
    unfold mfEdges visit
    rw [fedges_ok (alloc_of_live hf) h1, Res.bind_ok]
    dsimp only
    rw [hfs, Res.bind_ok]
    dsimp only
    rw [Res.pure_eq, Res.bind_ok, collect_turn hj getElem?_ofOption]
    cases dir
    · simp only [Bool.false_eq_true, if_false]
      rw [rotate_one_idxOf hn hk]
      congr 2
      apply rotate_add_mod
      rw [h3, Nat.mod_add_mod, show k + vs.length - 1 + 1 = k + vs.length by omega, Nat.add_mod_right]
    · simp only [if_true]
      rw [idxOf_eq_of_nodup hn hk]
  · intro hv
    have hmem : v ∉ (if dir then vs else vs.rotate 1) := by
      cases dir <;> simpa using hv
    rw [if_neg hmem] at hfs
    unfold mfEdges visit
    rw [fedges_ok (alloc_of_live hf) h1, Res.bind_ok]
    dsimp only
    rw [hfs, Res.bind_ok]
    rfl

/-- The two lists go together: the `i`-th edge of `MF_Edges(f,dir,v0)` joins the `i`-th and the
next vertex of `MF_Vertices(f,dir,v0)`. -/
def Together (T : Topo) (es ws : List Nat) : Prop :=
  es.length = ws.length ∧ ∀ (i e : Nat), es[i]? = some e → ∃ d,
    T.meVertex e d = .ok ws[i]? ∧ T.meVertex e (!d) = .ok ws[(i+1) % ws.length]?

theorem Together.rotate {T : Topo} {es ws : List Nat} (h : T.Together es ws) (k : Nat) :
    T.Together (es.rotate k) (ws.rotate k) := by
  refine ⟨by simp [h.1], fun i e hi => ?_⟩
  have hlt : i < ws.length := by
    have := (List.getElem?_eq_some_iff.1 hi).1
    rwa [List.length_rotate, h.1] at this
  rw [List.getElem?_rotate (by rw [h.1]; exact hlt), h.1] at hi
  obtain ⟨d, h1, h2⟩ := h.2 _ _ hi
  refine ⟨d, ?_, ?_⟩
  · rw [List.getElem?_rotate hlt, h1]
  · rw [List.length_rotate, List.getElem?_rotate (Nat.mod_lt _ (by omega)), h2]
    congr 2
    rw [Nat.mod_add_mod, Nat.mod_add_mod]
    congr 1
    omega

theorem Together.reverse {T : Topo} {es ws : List Nat} (h : T.Together es ws) :
    T.Together es.reverse (ws.rotate 1).reverse := by
  refine ⟨by simp [h.1], fun i e hi => ?_⟩
  have hlt : i < ws.length := by
    have := (List.getElem?_eq_some_iff.1 hi).1
    rwa [List.length_reverse, h.1] at this
  rw [List.getElem?_reverse (by rw [h.1]; exact hlt), h.1] at hi
  obtain ⟨d, h1, h2⟩ := h.2 _ _ hi
  refine ⟨!d, ?_, ?_⟩
  · rw [List.getElem?_reverse (by simpa using hlt), List.length_rotate,
      List.getElem?_rotate (by omega), h2]
  · have hpos : 0 < ws.length := by omega
    have hm := Nat.mod_lt (i+1) hpos
    rw [List.length_reverse, List.length_rotate,
      List.getElem?_reverse (by rw [List.length_rotate]; exact hm),
      List.length_rotate, List.getElem?_rotate (by omega), Bool.not_not, h1]
    congr 2
    by_cases hi1 : i + 1 = ws.length
    · rw [hi1, Nat.mod_self, show ws.length - 1 - 0 + 1 = ws.length by omega, Nat.mod_self]
      omega
    · rw [Nat.mod_eq_of_lt (show i + 1 < ws.length by omega),
        show ws.length - 1 - (i+1) + 1 = ws.length - 1 - i by omega, Nat.mod_eq_of_lt (by omega)]

/-- **C23, edges and vertices go together**, from any start vertex and in both directions. -/
theorem C23_together {T : Topo} {f : Nat} {vs : List Nat} (hf : T.sf f = .live) (h : T.Loop f vs)
    (hn : vs.Nodup) (dir : Bool) (v0 : Option Nat) (hv : ∀ v, v0 = some v → v ∈ vs) :
    ∃ es ws, T.mfEdges f dir v0 = .ok es ∧ T.mfVertices f dir v0 = .ok (ws.map some) ∧
      T.Together es ws ∧ ws.Perm vs ∧ (∀ v, v0 = some v → ws[0]? = some v) := by

  obtain ⟨l, h1, h2, h3⟩ := id h
  have ht : T.Together l vs := ⟨h2, fun i e hi => by
    obtain ⟨d, a, b, c⟩ := h3 i e hi
    exact ⟨!d, b, by rw [Bool.not_not]; exact c⟩⟩
  cases v0 with
  | none =>
    refine ⟨_, _, C23_edges hf h h1 dir, C23_vertices hf h dir, ?_, ?_, ?_⟩
    · cases dir
      · exact ht.reverse
      · exact ht
    · cases dir
      · exact (List.reverse_perm _).trans (List.rotate_perm _ _)
      · exact List.Perm.refl _
    · intro v hv; cases hv
  | some v =>
    obtain ⟨k, hk⟩ := List.mem_iff_getElem?.1 (hv v rfl)
    refine ⟨_, _, (C23_edges_from hf h hn h1 dir v).1 k hk, (C23_vertices_from hf h hn dir v).1 k hk, ?_, ?_, ?_⟩
    · cases dir
      · simp only [Bool.false_eq_true, if_false]
        have := (ht.rotate k).reverse
        rwa [List.rotate_rotate] at this
      · exact ht.rotate k
    · cases dir
      · exact (List.reverse_perm _).trans (List.rotate_perm _ _)
      · exact List.rotate_perm _ _
    · intro w hw
      injection hw with hw
      subst hw
      have hlt := (List.getElem?_eq_some_iff.1 hk).1
      cases dir
      · simp only [Bool.false_eq_true, if_false]
        rw [List.getElem?_reverse (by rw [List.length_rotate]; omega), List.length_rotate,
          List.getElem?_rotate (by omega), ← hk]
        congr 1
        rw [show vs.length - 1 - 0 + (k + 1) = k + vs.length by omega, Nat.add_mod_right, Nat.mod_eq_of_lt hlt]
      · simp only [if_true]
        rw [List.getElem?_rotate (by omega), ← hk]
        congr 1
        rw [Nat.zero_add, Nat.mod_eq_of_lt hlt]

/-- A square between vertices 0,1,2,3 given by vertices. -/
def square : List Op :=
  [.newVertex, .newVertex, .newVertex, .newVertex, .newEdge, .setVertex 0 false 2, .setVertex 0 true 1,
   .newFace, .setVertices 0 [0,1,2,3]]

example : answer square (fun T => T.mfVertices 0 false (some 2)) = .ok [some 2, some 1, some 0, some 3] ∧
    answer square (fun T => T.mfEdges 0 false (some 2)) = .ok [0, 1, 3, 2] ∧
    answer square (fun T => T.mfVertices 0 true (some 7)) = .fatal := by decide +kernel

end Topo
end MSTK
