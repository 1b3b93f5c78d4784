import Verif.SubMeshLemmas
import Verif.Props.PBound
import Verif.RangeMesh
import Verif.Props.Tri2Quad

/-!
C79: the mesh that `MESH_BuildSubMesh` makes of the elements labelled overlap (SubMeshModel.lean) for sending
consists of exactly these elements and what they consist of, each once and put together as in the mesh it
was taken from, with the classification, coordinates, label, owner and global ID it has there.
-/
namespace MSTK
namespace Prt
open File Copy

variable {D : Type}

/-- What is known of links and data. -/
structure Tagged (S : CMesh D) (t : PSt D) : Prop where
  gp : t.gp = S.par
  up : ∀ k g l, t.l2g 0 k l = some g ↔ t.found 0 k g = some l
  par : ∀ k g l, t.found 0 k g = some l →
    (t.sub 0).par k l = ⟨(S.par k g).ptype, (S.par k g).master, (S.par k g).gid, false⟩

theorem tagged_links {S : CMesh D} {s0 s' : PSt D} (h : Links alike S.F 0 s0 s') (h0 : Tagged S s0) : Tagged S s' := by
  refine h.keeps (P := Tagged S) ?_ h0
  intro t k g l N ht hc hg hl hN
  have hpar : ((t.link alike 0 k g l N).sub 0).par =
      upd2 (t.sub 0).par k l ⟨(t.gp k g).ptype, (t.gp k g).master, (t.gp k g).gid, false⟩ := by
    unfold PSt.link; simp only [upd_same]; rw [hN]; rfl
  have hup : (t.link alike 0 k g l N).l2g 0 = upd2 (t.l2g 0) k l (some g) := by
    unfold PSt.link; simp only [upd_same]
  refine ⟨?_, ?_, ?_⟩
  · show upd2 t.gp k g (t.gp k g) = S.par
    rw [← ht.gp]
    funext k' g'
    rw [upd2_at]
    split
    · next h => rw [h.1, h.2]
    · rfl
  · intro k' g' l'
    rw [hup, found_link hc, upd2_some, upd2_some, ht.up]
    constructor
    · rintro (⟨rfl, rfl, rfl⟩ | ⟨h1, h2⟩)
      · exact Or.inl ⟨rfl, rfl, rfl⟩
      · refine Or.inr ⟨?_, h2⟩
        rintro ⟨rfl, rfl⟩
        rw [hc] at h2; cases h2
    · rintro (⟨rfl, rfl, rfl⟩ | ⟨h1, h2⟩)
      · exact Or.inl ⟨rfl, rfl, rfl⟩
      · refine Or.inr ⟨?_, h2⟩
        rintro ⟨rfl, rfl⟩
        exact hl _ h2
  · intro k' g' l' h1
    rw [found_link hc] at h1
    rw [hpar, upd2_at]
    rcases upd2_some.1 h1 with ⟨rfl, rfl, rfl⟩ | ⟨_, h3⟩
    · rw [if_pos ⟨rfl, rfl⟩, ht.gp]
    · rw [if_neg, ht.par k' g' l' h3]
      rintro ⟨rfl, rfl⟩
      exact hl _ h3

theorem ofElem_top {G : FMesh D} {K x g : Nat} (hK : K = 2 ∨ K = 3) (h : OfElem G K x K g) : g = x := by
  unfold OfElem at h
  rcases hK with rfl | rfl
  · rw [if_neg (by omega)] at h
    rcases h with h | ⟨q, _, h | h⟩
    · exact h.2
    · exact absurd h.1 (by omega)
    · exact absurd h.1 (by omega)
  · rw [if_pos rfl] at h
    rcases h with h | ⟨q, _, h | ⟨q', _, h | h⟩⟩
    · exact h.2
    · exact absurd h.1 (by omega)
    · exact absurd h.1 (by omega)
    · exact absurd h.1 (by omega)

theorem subMesh_loop {S : CMesh D} (hS : S.F.Sound) (h30 : ∀ f ∈ S.F.fl, (S.F.T.view.edges f).length ≤ 30)
    (h512 : ∀ r ∈ S.F.rl, (S.F.T.view.faces r).length ≤ 512) {K : Nat} (hK : K = 2 ∨ K = 3)
    (hC : ∀ k, k < K → Compact S.F k) : ∀ (xs : List Nat) (t : BSt D), (∀ x ∈ xs, x ∈ S.F.list K) → xs.Nodup →
    Match S K t → (∀ x ∈ xs, t.s.found 0 K x = none) →
    ∃ t', loop (subElem S K) xs t = .ok t' ∧
      Run alike S.F 0 (fun k g => ∃ x ∈ xs, (S.par K x).ptype = 1 ∧ OfElem S.F K x k g) t.s t'.s
  | [], t, _, _, h, _ => ⟨t, rfl, (Run.none h.sub).congr (by simp)⟩
  | x :: xs, t, hm, hn, h, hc => by
    obtain ⟨t1, r1, h1, e0, e1⟩ := subElem_ok hS h30 h512 hK hC (hm x (by simp)) h (hc x (by simp))
    have hrun : Run alike S.F 0 (fun k g => (S.par K x).ptype = 1 ∧ OfElem S.F K x k g) t.s t1.s := by
      by_cases hp : (S.par K x).ptype = 1
      · obtain ⟨s', r2, u2⟩ := newElem_run (cl := alike) hS h30 h512 hK h.sub (hm x (by simp)) (hc x (by simp))
        rw [e1 hp] at r2
        simp only [Res.ok.injEq] at r2
        rw [r2]
        exact u2.congr fun k g => by simp [hp]
      · rw [e0 hp]
        exact (Run.none h.sub).congr fun k g => by simp [hp]
    rw [List.nodup_cons] at hn
    obtain ⟨t2, r2, u2⟩ := subMesh_loop hS h30 h512 hK hC xs t1 (fun y hy => hm y (List.mem_cons_of_mem _ hy)) hn.2 h1 (by
      intro y hy
      by_contra hne
      rcases (hrun.dom K y).1 hne with h' | ⟨_, h'⟩
      · exact h' (hc y (List.mem_cons_of_mem _ hy))
      · exact hn.1 (ofElem_top hK h' ▸ hy))
    refine ⟨t2, ?_, (hrun.trans u2).congr fun k g => by simp⟩
    unfold loop
    rw [r1, Res.bind_ok, r2]

/-! ### C79 -/

/-- **C79** (partial).  If the mesh `S` is sound and the IDs of its vertices, edges and faces are 1, 2, …
without a gap, then `MESH_BuildSubMesh` with a new mesh makes a mesh of exactly the elements labelled overlap
(1), with what they consist of, each once and put together as in `S`, with the classification and the
coordinates it has there (`PieceOf`); every entity has the label, owner and global ID of its original.
Missing: the IDs may have gaps (see the negation). -/
theorem C79_submesh_partial (zero : D) {S : CMesh D} (hS : S.F.Sound) {K : Nat} (hK : K = 2 ∨ K = 3)
    (h30 : ∀ f ∈ S.F.fl, (S.F.T.view.edges f).length ≤ 30) (h512 : ∀ r ∈ S.F.rl, (S.F.T.view.faces r).length ≤ 512)
    (hC : ∀ k, k < K → Compact S.F k) :
    ∃ N up, buildSubMesh zero S K = .ok N ∧ PieceOf S.F N.F up (Of S.F K fun x => (S.par K x).ptype = 1) ∧
      ∀ k l g, up k l = some g → N.par k l = ⟨(S.par k g).ptype, (S.par k g).master, (S.par k g).gid, false⟩ := by
  have hf0 : (PSt.start zero S).found 0 = fun _ _ => none := by
    funext k g; unfold PSt.found PSt.start; rfl
  have hsub : Sub S.F ((PSt.start zero S).sub 0).F ((PSt.start zero S).found 0) := by
    rw [hf0]; exact sub_new
  have hm : Match S K { s := PSt.start zero S, seen := fun _ _ => false, tab := fun _ _ => none } := by
    refine ⟨hsub, ?_, ?_, ?_, ?_⟩
    · intro k
      show (CMesh.new zero).top k = (((CMesh.new zero).F.list k).length : Int)
      rcases k with _ | _ | _ | _ | _ <;> rfl
    · intro k _ g
      show false = true ↔ (PSt.start zero S).found 0 k g ≠ none
      rw [hf0]; simp
    · intro k g h
      exact absurd h (by simp)
    · intro k _ g l h
      replace h : (PSt.start zero S).found 0 k g = some l := h
      rw [hf0] at h; cases h
  obtain ⟨t, r, u⟩ := subMesh_loop hS h30 h512 hK hC (S.F.list K) _ (fun x hx => hx) (hS.nodup K) hm (by
    intro x _
    show (PSt.start zero S).found 0 K x = none
    rw [hf0])
  have ht : Tagged S t.s := by
    refine tagged_links u.links ⟨rfl, ?_, ?_⟩
    · intro k g l
      show (PSt.start zero S).l2g 0 k l = some g ↔ (PSt.start zero S).found 0 k g = some l
      rw [hf0]
      exact Iff.intro (fun h => nomatch h) (fun h => nomatch h)
    · intro k g l h
      replace h : (PSt.start zero S).found 0 k g = some l := h
      rw [hf0] at h; cases h
  refine ⟨t.s.sub 0, t.s.l2g 0, ?_, u.sub.pieceOf hS ht.up ?_, ?_⟩
  · unfold buildSubMesh
    rw [if_pos hK.symm, r]
    rfl
  · intro k g
    rw [u.dom k g]
    show (PSt.start zero S).found 0 k g ≠ none ∨ _ ↔ _
    rw [hf0]
    unfold Of
    simp
  · intro k l g h
    exact ht.par k g l ((ht.up k g l).1 h)

/-- a mesh in which element `x` of kind `K` is labelled overlap -/
def overC (T : Topo) (K x : Nat) : CMesh Int :=
  { rangeC T with par := fun k g => ⟨if k = K ∧ g = x then 1 else 0, g % 3, 10 * k + g + 1, g = 0⟩ }

theorem overC_compact (T : Topo) (K x k : Nat) : Compact (overC T K x).F k := by
  have h0 : ∀ n g, g ∈ List.range n → (1 : Int) ≤ (g : Int) + 1 ∧ (g : Int) + 1 ≤ (List.range n).length := by
    intro n g hg
    rw [List.mem_range] at hg
    rw [List.length_range]
    omega
  rcases k with _ | _ | _ | _ | k
  · exact ⟨h0 T.nv, fun g _ g' _ h => by replace h : (g : Int) + 1 = g' + 1 := h; omega⟩
  · exact ⟨h0 T.ne, fun g _ g' _ h => by replace h : (g : Int) + 1 = g' + 1 := h; omega⟩
  · exact ⟨h0 T.nf, fun g _ g' _ h => by replace h : (g : Int) + 1 = g' + 1 := h; omega⟩
  · exact ⟨h0 T.nr, fun g _ g' _ h => by replace h : (g : Int) + 1 = g' + 1 := h; omega⟩
  · exact ⟨fun g hg => absurd hg (by unfold FMesh.list; simp), fun g hg => absurd hg (by unfold FMesh.list; simp)⟩

/-- The hypotheses of C79 hold for two tetrahedra with a face in common, the second of them overlap; and for
two triangles with an edge in common, the second of them overlap. -/
example : ∃ T N up, Topo.empty.run Topo.twoTets = .ok T ∧ buildSubMesh 0 (overC T 3 1) 3 = .ok N ∧
    PieceOf (overC T 3 1).F N.F up (Of (overC T 3 1).F 3 fun x => ((overC T 3 1).par 3 x).ptype = 1) := by
  obtain ⟨T, h1, h2⟩ := Topo.reachable (os := Topo.twoTets) (by decide +kernel)
  have hq : Topo.answer Topo.twoTets (fun T => .ok (rangeB T)) = .ok true := by decide +kernel
  unfold Topo.answer at hq
  rw [h1, Res.bind_ok, Res.ok.injEq] at hq
  obtain ⟨m, e, f⟩ := rangeC_ok h2 hq
  obtain ⟨N, up, r, h, _⟩ := C79_submesh_partial (0 : Int) (S := overC T 3 1) m (K := 3) (Or.inr rfl) e f
    (fun k _ => overC_compact T 3 1 k)
  exact ⟨T, N, up, h1, r, h⟩
example : ∃ T N up, Topo.empty.run Topo.triPair = .ok T ∧ buildSubMesh 0 (overC T 2 1) 2 = .ok N ∧
    PieceOf (overC T 2 1).F N.F up (Of (overC T 2 1).F 2 fun x => ((overC T 2 1).par 2 x).ptype = 1) := by
  obtain ⟨T, h1, h2⟩ := Topo.reachable (os := Topo.triPair) (by decide +kernel)
  have hq : Topo.answer Topo.triPair (fun T => .ok (rangeB T)) = .ok true := by decide +kernel
  unfold Topo.answer at hq
  rw [h1, Res.bind_ok, Res.ok.injEq] at hq
  obtain ⟨m, e, f⟩ := rangeC_ok h2 hq
  obtain ⟨N, up, r, h, _⟩ := C79_submesh_partial (0 : Int) (S := overC T 2 1) m (K := 2) (Or.inl rfl) e f
    (fun k _ => overC_compact T 2 1 k)
  exact ⟨T, N, up, h1, r, h⟩

/-- the global IDs in the new mesh -/
def gidsOf (N : CMesh Int) : List (List Nat) := [0, 1, 2, 3].map fun k => (N.F.list k).map fun l => (N.par k l).gid

/-- The second triangle is taken, with its three vertices and edges. -/
example : Topo.answer Topo.triPair (fun T => do
      let N ← buildSubMesh 0 (overC T 2 1) 2
      pure (gidsOf N)) = .ok [[2, 3, 4], [12, 14, 15], [22], []] := by decide +kernel

/-- a triangle that is left when another vertex, the first, has been deleted -/
def triGap : List Topo.Op :=
  List.replicate 4 .newVertex ++ [.newFace, .setVertices 0 [1, 2, 3], .delVertex 0 false]

/-- **Negation**: the IDs are 2, 3, 4, but the array is for three vertices: what is written for the third is
outside of it. -/
theorem C79_negation_gap : Topo.answer triGap (fun T => do
      let S := { overC T 2 0 with F := { (overC T 2 0).F with vl := [1, 2, 3] } }
      let N ← buildSubMesh 0 S 2
      pure (gidsOf N)) = .ub := by decide +kernel

end Prt
end MSTK
