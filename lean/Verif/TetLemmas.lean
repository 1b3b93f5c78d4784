import Verif.AddMore
import Verif.Later
import Verif.Props.LabelLayer
import Verif.Props.DelInterior

/-!
Triangles and tetrahedra: turning the list of vertices, what a face or a region of a consistent mesh determines (for
C74 and C75).
-/
namespace MSTK
namespace Topo

/-! ### lists of three and of four vertices -/

/-- `w` with `y` in the place of `x` -/
def put (x y : Nat) (w : List Nat) : List Nat := w.map fun z => if z = x then y else z

theorem rot3 {p q s p' q' s' : Nat} : [p, q, s] ~r [p', q', s'] ↔
    (p = p' ∧ q = q' ∧ s = s') ∨ (p = q' ∧ q = s' ∧ s = p') ∨ (p = s' ∧ q = p' ∧ s = q') := by
  constructor
  · rintro ⟨n, hn⟩
    rw [← List.rotate_mod] at hn
    have : n % [p, q, s].length < 3 := Nat.mod_lt _ (by simp)
    generalize n % [p, q, s].length = k at this hn
    match k, this with
    | 0, _ => simp at hn; tauto
    | 1, _ => simp [List.rotate] at hn; tauto
    | 2, _ => simp [List.rotate] at hn; tauto
  · rintro (⟨rfl, rfl, rfl⟩ | ⟨rfl, rfl, rfl⟩ | ⟨rfl, rfl, rfl⟩)
    · exact ⟨0, rfl⟩
    · exact ⟨2, rfl⟩
    · exact ⟨1, rfl⟩

theorem put_rotated {c c' : List Nat} (x y : Nat) (h : c ~r c') : put x y c ~r put x y c' := h.map _

theorem put_turned (x y : Nat) (d : Bool) (c : List Nat) : put x y (turned d c) = turned d (put x y c) := by
  cases d
  · exact List.map_reverse
  · rfl

/-- `ws` is `vs` with the tetrahedron turned in space. -/
def Turn4 (vs ws : List Nat) : Prop := ∃ s ∈ rotations 4, ws = s.map (vs.getD · 0)

theorem rot4_back : ∀ s ∈ rotations 4, ∃ t ∈ rotations 4, t.map (s.getD · 0) = List.range 4 := by decide

theorem rot4_lt : ∀ s ∈ rotations 4, s.length = 4 ∧ s.Perm (List.range 4) ∧ ∀ k ∈ s, k < 4 := by decide

theorem rot4_cycles : ∀ s ∈ rotations 4, ∀ c' ∈ stdCycles s, ∃ c'' ∈ stdCycles (List.range 4),
    ∃ j ∈ List.range c''.length, c''.rotate j = c' := by decide +kernel

theorem Turn4.symm {vs ws : List Nat} (h : Turn4 vs ws) (h4 : vs.length = 4) : Turn4 ws vs := by
  obtain ⟨s, hs, rfl⟩ := h
  obtain ⟨t, ht, he⟩ := rot4_back s hs
  refine ⟨t, ht, ?_⟩
  have h1 : t.map (fun k => (s.map (vs.getD · 0)).getD k 0) = (t.map (s.getD · 0)).map (vs.getD · 0) := by
    rw [List.map_map]
    apply List.map_congr_left
    intro k hk
    have hlt : k < s.length := by rw [(rot4_lt s hs).1]; exact (rot4_lt t ht).2.2 k hk
    simp [List.getD_eq_getElem?_getD, hlt]
  rw [h1, he, ← h4]
  exact (map_range_getD vs).symm

theorem Turn4.length {vs ws : List Nat} (h : Turn4 vs ws) : ws.length = 4 := by
  obtain ⟨s, hs, rfl⟩ := h
  rw [List.length_map, (rot4_lt s hs).1]

theorem Turn4.perm {vs ws : List Nat} (h : Turn4 vs ws) (h4 : vs.length = 4) : ws.Perm vs := by
  obtain ⟨s, hs, rfl⟩ := h
  have h1 := (rot4_lt s hs).2.1.map (vs.getD · 0)
  rw [← h4, map_range_getD] at h1
  exact h1

theorem Turn4.put {vs ws : List Nat} (h : Turn4 vs ws) (h4 : vs.length = 4) (x y : Nat) :
    Turn4 (put x y vs) (put x y ws) := by
  obtain ⟨s, hs, rfl⟩ := h
  refine ⟨s, hs, ?_⟩
  unfold Topo.put
  rw [List.map_map]
  apply List.map_congr_left
  intro k hk
  have hlt : k < vs.length := by rw [h4]; exact (rot4_lt s hs).2.2 k hk
  simp [List.getD_eq_getElem?_getD, hlt]

theorem rot4_ends : ∀ i < 4, ∀ j < 4, i ≠ j → ∃ s ∈ rotations 4, s[0]? = some i ∧ s[3]? = some j := by decide

/-- A tetrahedron can be turned so that two of its vertices are the first and the last. -/
theorem turn4_ends {w : List Nat} (h4 : w.length = 4) {v0 v1 : Nat} (h0 : v0 ∈ w) (h1 : v1 ∈ w) (hne : v0 ≠ v1) :
    ∃ a b, Turn4 w [v0, a, b, v1] := by
  obtain ⟨i, hi, hi0⟩ := List.getElem_of_mem h0
  obtain ⟨j, hj, hj0⟩ := List.getElem_of_mem h1
  have hij : i ≠ j := by rintro rfl; exact hne (hi0.symm.trans hj0)
  obtain ⟨s, hs, s0, s3⟩ := rot4_ends i (by omega) j (by omega) hij
  have hl := (rot4_lt s hs).1
  match s, hl with
  | [p, q, u, t], _ =>
    simp at s0 s3
    subst s0 s3
    refine ⟨w.getD q 0, w.getD u 0, [p, q, u, t], hs, ?_⟩
    simp [List.getD_eq_getElem?_getD, hi, hj, hi0, hj0]

theorem IsElement.turn4 {T : Topo} (h : T.Consistent) (hl : T.AllLoops) {r : Nat} {vs ws : List Nat} (el : T.IsElement r vs)
    (h4 : vs.length = 4) (ht : Turn4 vs ws) : T.IsElement r ws := by
  have hp := ht.perm h4
  refine ⟨Or.inl ht.length, hp.nodup_iff.2 el.nodup, el.live, ?_⟩
  obtain ⟨fs, f1, f2, f3⟩ := el.faces
  refine ⟨fs, f1, ?_, ?_⟩
  · rw [f2]; exact stdCycles_length (by rw [h4, ht.length])
  · obtain ⟨s, hs, rfl⟩ := ht
    intro c hc
    rw [stdCycles_map] at hc
    obtain ⟨c1, hc1, rfl⟩ := List.mem_map.1 hc
    obtain ⟨c2, hc2, j, hj, rfl⟩ := rot4_cycles s hs c1 hc1
    have hc3 : c2.map (vs.getD · 0) ∈ stdCycles vs := by
      have := List.mem_map_of_mem (f := List.map (vs.getD · 0)) hc2
      rw [← stdCycles_map, ← h4, map_range_getD] at this
      exact this
    obtain ⟨f, hr, d, hd, hseen⟩ := f3 _ hc3
    have hf : T.sf f = .live := h.fr.down r f d hr ((mrFaceDir_iff h hr).1 hd)
    exact ⟨f, hr, d, hd, hseen.rotate hf hl (stdCycles_ne hc3) (by rw [List.map_rotate]; exact ⟨c2.length - j % c2.length, by
      have h0 : c2 ≠ [] := stdCycles_ne hc2
      have hpos : 0 < c2.length := List.length_pos_iff.2 h0
      have : j % c2.length < c2.length := Nat.mod_lt _ hpos
      have hjl : j < c2.length := List.mem_range.1 hj
      rw [List.rotate_rotate, Nat.mod_eq_of_lt hjl, Nat.add_sub_cancel' (Nat.le_of_lt hjl)]
      have := List.rotate_length (c2.map (vs.getD · 0))
      rwa [List.length_map] at this⟩)⟩

theorem tet_length {T : Topo} {r : Nat} {vs ws : List Nat} (el : T.IsElement r vs) (el' : T.IsElement r ws)
    (h4 : vs.length = 4) : ws.length = 4 := by
  obtain ⟨fs, f1, f2, -⟩ := el.faces
  obtain ⟨gs, g1, g2, -⟩ := el'.faces
  rw [f1] at g1
  injection g1 with g1
  subst g1
  have h1 : (stdCycles ws).length = 4 := by
    rw [← g2, f2]
    match vs, h4 with
    | [a,b,c,d], _ => rfl
  rcases el'.size with k | k | k | k
  · exact k
  · match ws, k with
    | [a,b,c,d,e], _ => simp [stdCycles] at h1
  · match ws, k with
    | [a,b,c,d,e,f], _ => simp [stdCycles] at h1
  · match ws, k with
    | [a,b,c,d,e,f,g,h], _ => simp [stdCycles] at h1

/-! ### faces -/

section
variable {T : Topo} (h : T.Consistent) (hl : T.AllLoops)
include h hl

theorem Seen.mem {f : Nat} {d : Bool} {c : List Nat} (hf : T.sf f = .live) (hs : T.Seen f d c) (h0 : c ≠ []) (v : Nat) :
    v ∈ c ↔ T.FaceVertex f v := by
  obtain ⟨c', es, b1, -, -, -, -, b4⟩ := face_plain h hl hf true
  obtain ⟨ws, hw, hn⟩ := hl f hf
  rw [seen_iff hf hw hn h0] at hs
  have := C23_vertices hf hw true
  rw [b1] at this
  injection this with this
  have := map_some_inj this
  simp only [if_true] at this
  rw [← b4, this, (hs.perm.trans (turned_perm d)).mem_iff]

theorem Seen.vlive {f : Nat} {d : Bool} {c : List Nat} (hf : T.sf f = .live) (hs : T.Seen f d c) (h0 : c ≠ []) :
    ∀ v ∈ c, T.sv v = .live := by
  obtain ⟨ws, hw, hn⟩ := hl f hf
  rw [seen_iff hf hw hn h0] at hs
  intro v hv
  exact hw.live h hf v ((hs.perm.trans (turned_perm d)).mem_iff.1 hv)

omit h in
theorem Seen.nodup {f : Nat} {d : Bool} {c : List Nat} (hf : T.sf f = .live) (hs : T.Seen f d c) (h0 : c ≠ []) : c.Nodup := by
  obtain ⟨ws, hw, hn⟩ := hl f hf
  rw [seen_iff hf hw hn h0] at hs
  exact (hs.perm.trans (turned_perm d)).nodup_iff.2 hn

omit h in
theorem Seen.dir {f : Nat} {d d' : Bool} {c c' : List Nat} (hf : T.sf f = .live) (hs : T.Seen f d c) (hs' : T.Seen f d' c')
    (hc : c ~r c') (h3 : 3 ≤ c.length) : d = d' := by
  obtain ⟨ws, hw, hn⟩ := hl f hf
  have h0 : c ≠ [] := by rintro rfl; simp at h3
  have h0' : c' ≠ [] := by rintro rfl; rw [List.isRotated_nil_iff] at hc; exact h0 hc
  rw [seen_iff hf hw hn h0] at hs
  rw [seen_iff hf hw hn h0'] at hs'
  exact turned_unique hn (by rw [← (hs.perm.trans (turned_perm d)).length_eq]; exact h3) hs (hc.trans hs')

/-- Two regions that use a face with the same cycle, in the same direction, are the same. -/
theorem uses_same (hF : T.SimpleFaces) {r r' f f' : Nat} {c c' : List Nat} (hu : T.Uses r f c) (hu' : T.Uses r' f' c')
    (hc : c ~r c') (h3 : 3 ≤ c.length) : f' = f ∧ r' = r := by
  have hf := hu.flive h
  have hf' := hu'.flive h
  have h0 : c ≠ [] := by rintro rfl; simp at h3
  have h0' : c' ≠ [] := by rintro rfl; rw [List.isRotated_nil_iff] at hc; exact h0 hc
  obtain ⟨hr, d, hd, hs⟩ := hu
  obtain ⟨hr', d', hd', hs'⟩ := hu'
  have e1 : f' = f := hF f f' d d' c h3 hf hf' hs (hs'.rotate hf' hl h0' hc)
  subst e1
  have e2 : d = d' := Seen.dir hl hf hs hs' hc h3
  subst e2
  have k1 := (h.fr.mem f' (alloc_of_live hf) r d).2 ⟨hr, (mrFaceDir_iff h hr).1 hd⟩
  have k2 := (h.fr.mem f' (alloc_of_live hf) r' d).2 ⟨hr', (mrFaceDir_iff h hr').1 hd'⟩
  rw [k1] at k2
  injection k2 with k2
  exact ⟨rfl, k2.symm⟩

/-- A triangle with both ends of an edge has the edge. -/
theorem tri_has (hE : T.SimpleEdges) {e v0 v1 f : Nat} {d : Bool} {c : List Nat} (hf : T.sf f = .live) (hs : T.Seen f d c)
    (h3 : c.length = 3) (hne : v0 ≠ v1) (he0 : T.EdgeHas e v0) (he1 : T.EdgeHas e v1) (h0 : v0 ∈ c) (h1 : v1 ∈ c) :
    T.FaceHas f e := by
  have hN : Next c v0 v1 ∨ Next c v1 v0 := by
    match c, h3 with
    | [p, q, s], _ =>
      simp only [List.mem_cons, List.not_mem_nil, or_false] at h0 h1
      rcases h0 with rfl | rfl | rfl <;> rcases h1 with rfl | rfl | rfl <;> first | exact absurd rfl hne | skip
      · exact Or.inl ⟨0, rfl, rfl⟩
      · exact Or.inr ⟨2, by simp, by simp⟩
      · exact Or.inr ⟨0, rfl, rfl⟩
      · exact Or.inl ⟨1, rfl, rfl⟩
      · exact Or.inl ⟨2, by simp, by simp⟩
      · exact Or.inr ⟨1, rfl, rfl⟩
  rcases hN with hN | hN
  · obtain ⟨g, g1, g2, g3⟩ := edge_of_seen h hl hf hs hN
    rwa [← hE e g v0 v1 hne he0 he1 g2 g3]
  · obtain ⟨g, g1, g2, g3⟩ := edge_of_seen h hl hf hs hN
    rwa [← hE e g v0 v1 hne he0 he1 g3 g2]

end

end Topo
end MSTK
