import Verif.PartOwn
import Verif.Props.SendMesh

/-!
# Partitioning a mesh

`MESH_Partition` makes a mesh for every part.  What an element consists of, what is in a part
(`InPart`) and what a piece is (`PieceOf`) is said in PartSpec.lean.
-/
namespace MSTK
namespace Prt
open File Copy

variable {D : Type}

/-! ### specification -/

/-- A mesh that can be partitioned: its elements are of kind `K`. -/
def ElementsOf (G : FMesh D) (K : Nat) : Prop := (G.rl ≠ [] ∧ K = 3) ∨ (G.rl = [] ∧ G.fl ≠ [] ∧ K = 2)

/-- What the pieces and the links are: piece `p` is what the elements of part `p` consist of, its
attribute "Local2Global" leads back to the mesh, and the lists "Global2Local" of the mesh have the copies. -/
structure Pieces (S : CMesh D) (K num : Nat) (part : List Int) (s : PSt D) : Prop where
  piece : ∀ p, p < num → PieceOf S.F (s.sub p).F (s.l2g p) (InPart S.F K part p)
  down : ∀ p k g l, (p, l) ∈ s.g2l k g ↔ p < num ∧ l ∈ (s.sub p).F.list k ∧ s.l2g p k l = some g

/-- Who owns what: the first part that has an entity owns it; the mesh and all the pieces say so, and agree
on its global ID, which is not 0; a global ID that was there is kept.  Nothing else of the data of the
mesh changes. -/
structure Owners (S : CMesh D) (K num : Nat) (part : List Int) (s : PSt D) : Prop where
  first : ∀ p k g, p < num → InPart S.F K part p k g → (∀ q, q < p → ¬ InPart S.F K part q k g) →
    (s.gp k g).master = p ∧ (s.gp k g).gid ≠ 0 ∧
    ∀ q l, q < num → s.l2g q k l = some g → (s.sub q).par k l = ⟨0, p, (s.gp k g).gid, false⟩
  kept : ∀ k g, (s.gp k g).ptype = (S.par k g).ptype ∧ (s.gp k g).onPB = (S.par k g).onPB ∧
    ((S.par k g).gid ≠ 0 → (s.gp k g).gid = (S.par k g).gid)
  /-- global IDs given to entities of a kind none of which had one are different -/
  fresh : ∀ k, (∀ g ∈ S.F.list k, (S.par k g).gid = 0) → ∀ p g p' g', p < num → p' < num →
    InPart S.F K part p k g → InPart S.F K part p' k g' → (s.gp k g).gid = (s.gp k g').gid → g = g'

/-! ### proof -/

theorem Sub.length {G N : FMesh D} {c : Nat → Nat → Option Nat} (h : Sub G N c) {k : Nat}
    (hn : (N.list k).Nodup) : (N.list k).length ≤ (G.list k).length := by
  have hsub : N.list k ⊆ (G.list k).filterMap (c k) := by
    intro l hl
    obtain ⟨g, hg⟩ := h.maps.all k l hl
    exact List.mem_filterMap.2 ⟨g, (h.maps.dom k g l hg).2, hg⟩
  exact le_trans (List.subperm_of_subset hn hsub).length_le (List.length_filterMap_le _ _)

theorem Same.length {c : Nat → Option Nat} {xs ys : List (Nat × Bool)} (h : Same c xs ys) : ys.length = xs.length :=
  (List.Forall₂.length_eq h).symm

theorem Sub.sound {G N : FMesh D} {c : Nat → Nat → Option Nat} (h : Sub G N c) (hG : G.Sound) : N.Sound where
  cons := h.cons
  vl := h.vl
  el := h.el
  fl := h.fl
  rl := h.rl
  ends := by
    intro e he
    obtain ⟨g, hg⟩ := h.maps.all 1 e he
    obtain ⟨_, a, b, a', b', _, _, _, h5⟩ := h.edge g e hg
    exact ⟨a', b', h5⟩
  edges := by
    intro f hf
    obtain ⟨g, hg⟩ := h.maps.all 2 f hf
    obtain ⟨_, h2, h3⟩ := h.face g f hg
    exact ⟨h2, by rw [h3.length]; exact (hG.edges g (h.maps.dom 2 g f hg).2).2⟩
  faces := by
    intro r hr
    obtain ⟨g, hg⟩ := h.maps.all 3 r hr
    exact (h.region g r hg).2.1
  vc := by
    intro v hv
    obtain ⟨g, hg⟩ := h.maps.all 0 v hv
    rw [(h.vertex g v hg).2]; exact hG.vc g (h.maps.dom 0 g v hg).2
  ec := by
    intro v hv
    obtain ⟨g, hg⟩ := h.maps.all 1 v hv
    rw [(h.edge g v hg).1]; exact hG.ec g (h.maps.dom 1 g v hg).2
  fc := by
    intro v hv
    obtain ⟨g, hg⟩ := h.maps.all 2 v hv
    rw [(h.face g v hg).1]; exact hG.fc g (h.maps.dom 2 g v hg).2
  rc := by
    intro v hv
    obtain ⟨g, hg⟩ := h.maps.all 3 v hv
    rw [(h.region g v hg).1]; exact hG.rc g (h.maps.dom 3 g v hg).2
  size := by
    have h0 := h.length (k := 0) h.vl.1
    have h1 := h.length (k := 1) h.el.1
    have h2 := h.length (k := 2) h.fl.1
    have h3 := h.length (k := 3) h.rl.1
    have := hG.size
    simp only [FMesh.list] at h0 h1 h2 h3
    omega

theorem Same.flip {c up : Nat → Option Nat} (hup : ∀ g l, c g = some l → up l = some g) {xs ys : List (Nat × Bool)}
    (h : Same c xs ys) : List.Forall₂ (fun p q => up p.1 = some q.1 ∧ p.2 = q.2) ys xs :=
  List.Forall₂.flip (List.Forall₂.imp (fun _ _ hp => ⟨hup _ _ hp.1, hp.2⟩) h)

theorem Sub.pieceOf {G N : FMesh D} {c up : Nat → Nat → Option Nat} {has : Nat → Nat → Prop} (h : Sub G N c)
    (hG : G.Sound) (hup : ∀ k g l, up k l = some g ↔ c k g = some l) (hdom : ∀ k g, c k g ≠ none ↔ has k g) :
    PieceOf G N up has where
  sound := h.sound hG
  from_has := by
    intro k l hl
    obtain ⟨g, hg⟩ := h.maps.all k l hl
    exact ⟨g, (h.maps.dom k g l hg).2, (hup k g l).2 hg, (hdom k g).1 (by rw [hg]; simp)⟩
  all := by
    intro k g hg
    obtain ⟨l, hl⟩ := Option.ne_none_iff_exists'.1 ((hdom k g).2 hg)
    exact ⟨l, (h.maps.dom k g l hl).1, (hup k g l).2 hl⟩
  only := fun k l g hl => (h.maps.dom k g l ((hup k g l).1 hl)).1
  once := by
    intro k l l' g h1 h2
    rw [hup] at h1 h2
    rw [h1] at h2; injection h2
  vertex := fun l g hl => h.vertex g l ((hup 0 g l).1 hl)
  edge := by
    intro l g hl
    obtain ⟨h1, a, b, a', b', h2, h3, h4, h5⟩ := h.edge g l ((hup 1 g l).1 hl)
    exact ⟨h1, a', b', h5, by rw [h2, (hup 0 a a').2 h3, (hup 0 b b').2 h4]⟩
  face := by
    intro l g hl
    obtain ⟨h1, _, h2⟩ := h.face g l ((hup 2 g l).1 hl)
    exact ⟨h1, h2.flip fun g l => (hup 1 g l).2⟩
  region := by
    intro l g hl
    obtain ⟨h1, _, h2⟩ := h.region g l ((hup 3 g l).1 hl)
    exact ⟨h1, h2.flip fun g l => (hup 2 g l).2⟩

theorem sub_new {zero : D} {G : FMesh D} : Sub G (CMesh.new zero).F (fun _ _ => none) where
  cons := (Send.new_sound zero).cons
  vl := (Send.new_sound zero).vl
  el := (Send.new_sound zero).el
  fl := (Send.new_sound zero).fl
  rl := (Send.new_sound zero).rl
  maps :=
    { dom := fun _ _ _ h => by cases h
      inj := fun _ _ _ _ h => by cases h
      all := fun k l h => by
        match k, h with
        | 0, h => cases h
        | 1, h => cases h
        | 2, h => cases h
        | 3, h => cases h
        | k+4, h => cases h }
  vertex := fun _ _ h => by cases h
  edge := fun _ _ h => by cases h
  face := fun _ _ h => by cases h
  region := fun _ _ h => by cases h

theorem done_start {zero : D} {S : CMesh D} {K : Nat} {part : List Int} : Done K S part 0 (PSt.start zero S) where
  sub := fun _ => sub_new
  dom := fun _ _ _ h => absurd h (by omega)
  owned :=
    { later := fun _ _ _ _ => rfl
      untouched := fun _ _ _ => rfl
      shared := fun _ _ _ _ h => absurd rfl h
      elem := fun _ _ h => absurd rfl h
      kept := fun _ _ => ⟨rfl, rfl, fun _ => rfl⟩
      pos := fun _ _ _ h => absurd rfl h
      copy := fun _ _ _ _ h => by cases h
      up := fun _ _ _ _ => Iff.intro (fun h => nomatch h) (fun h => nomatch h)
      lists := fun _ _ _ _ => Iff.intro (fun h => nomatch h) (fun h => nomatch h)
      cnt := fun _ => le_refl _
      below := fun _ _ _ _ h => absurd rfl h
      distinct := fun _ _ _ _ _ _ h => absurd rfl h }

theorem inElems_zero {G : FMesh D} {K : Nat} {part : List Int} {p k g : Nat} :
    InElems G K part p 0 (G.list K) k g ↔ InPart G K part p k g := by
  unfold InElems InPart
  simp only [Nat.zero_add]

/-- an element is in one part only -/
theorem inPart_unique {G : FMesh D} (hG : G.Sound) {K : Nat} (hK : K = 2 ∨ K = 3) {part : List Int} {p q g : Nat}
    (hp : InPart G K part p K g) (hq : InPart G K part q K g) : p = q := by
  obtain ⟨i, x, h1, h2, h3⟩ := hp
  obtain ⟨j, y, h4, h5, h6⟩ := hq
  rw [ofElem_same hK] at h3 h6
  subst h3; subst h6
  have hij := (List.getElem?_inj (List.getElem?_eq_some_iff.1 h1).1 (hG.nodup K)).1 (h1.trans h4.symm)
  subst hij
  rw [h2] at h5
  injection h5 with h5
  exact Int.ofNat.inj h5

/-- **C76 (partitioning).**  A mesh whose faces have at most 30 edges and whose regions have at most 512
faces, no entity of which but elements has an owner yet, and a part for each of its elements:
`MESH_Partition` makes a mesh for each part that is the piece of the mesh its elements make, links both
ways, and notes for every entity that is in a part the first part that has it as the owner. -/
theorem C76_partition_partial (zero : D) {S : CMesh D} (hS : S.F.Sound) {K : Nat} (hK : ElementsOf S.F K)
    (h30 : ∀ f ∈ S.F.fl, (S.F.T.view.edges f).length ≤ 30) (h512 : ∀ r ∈ S.F.rl, (S.F.T.view.faces r).length ≤ 512)
    (h0 : ∀ k, k ≠ K → ∀ g ∈ S.F.list k, (S.par k g).master = 0)
    {num : Nat} (hnum : num < 536870912) {part : List Int} (hlen : (S.F.list K).length ≤ part.length) :
    ∃ s, meshPartition zero S num part = .ok s ∧ Pieces S K num part s ∧ Owners S K num part s := by
  have hK' : K = 2 ∨ K = 3 := by rcases hK with ⟨_, h⟩ | ⟨_, _, h⟩ <;> omega
  obtain ⟨s, r, hd⟩ := parts_run hS h30 h512 hK' hlen h0 num 0 (PSt.start zero S) (by omega) (done_start (part := part))
  rw [Nat.zero_add] at hd
  have ho := hd.owned
  have hdom : ∀ p k g, p < num → (s.found p k g ≠ none ↔ InPart S.F K part p k g) := fun p k g hp => by
    rw [hd.dom p k g hp, inElems_zero]
  have hlt : ∀ p k g l, s.found p k g = some l → p < num := by
    intro p k g l h
    by_contra hge
    rw [ho.later p k g (by omega)] at h; cases h
  refine ⟨{ s with gp := dialBack K S s.gp }, ?_, ⟨?_, ?_⟩, ⟨?_, ?_, ?_⟩⟩
  · unfold meshPartition
    rcases hK with ⟨h1, rfl⟩ | ⟨h1, h2, rfl⟩
    · rw [if_pos h1]; unfold partition; rw [r]; rfl
    · rw [if_neg (by simpa using h1), if_pos h2]; unfold partition; rw [r]; rfl
  · exact fun p hp => (hd.sub p).pieceOf hS (fun k g l => ho.up p k g l) fun k g => hdom p k g hp
  · intro p k g l
    show (p, l) ∈ s.g2l k g ↔ _
    rw [ho.lists]
    constructor
    · intro h
      exact ⟨hlt p k g l h, ((hd.sub p).maps.dom k g l h).1, (ho.up p k g l).2 h⟩
    · exact fun h => (ho.up p k g l).1 h.2.2
  · intro p k g hp hin hfirst
    show (dialBack K S s.gp k g).master = p ∧ (dialBack K S s.gp k g).gid ≠ 0 ∧ ∀ q l, q < num → s.l2g q k l = some g →
      (s.sub q).par k l = ⟨0, p, (dialBack K S s.gp k g).gid, false⟩
    have hf := (hdom p k g hp).2 hin
    obtain ⟨l0, hl0⟩ := Option.ne_none_iff_exists'.1 hf
    have hmem := ((hd.sub p).maps.dom k g l0 hl0).2
    have hnone : ∀ q, q < p → s.found q k g = none := fun q hq => by
      by_contra hne; exact hfirst q hq ((hdom q k g (by omega)).1 hne)
    have hgid : (dialBack K S s.gp k g).gid = (s.gp k g).gid := by unfold dialBack; split <;> rfl
    rw [hgid]
    have hk4 : k = K ∨ k < K := by
      rcases hK with ⟨_, rfl⟩ | ⟨h1, _, rfl⟩
      · match k, hmem with
        | 0, _ => omega
        | 1, _ => omega
        | 2, _ => omega
        | 3, _ => omega
        | k+4, h => cases h
      · match k, hmem with
        | 0, _ => omega
        | 1, _ => omega
        | 2, _ => omega
        | 3, h =>
          have h : g ∈ S.F.rl := h
          rw [h1] at h; cases h
        | k+4, h => cases h
    rcases hk4 with rfl | hlk
    · have hm : (s.gp k g).master = p := by
        obtain ⟨m, m1, m2⟩ := ho.elem g p hf
        obtain ⟨lm, hlm⟩ := Option.ne_none_iff_exists'.1 m1
        rw [m2]
        exact inPart_unique hS hK' ((hdom m k g (hlt m k g lm hlm)).1 m1) hin
      refine ⟨?_, ho.pos p k g hf, ?_⟩
      · unfold dialBack; rw [if_neg (by omega)]; exact hm
      · intro q l hq hl
        rw [ho.up] at hl
        rw [ho.copy q k g l hl, if_pos rfl]
        rw [inPart_unique hS hK' hin ((hdom q k g hq).1 (by rw [hl]; simp))]
    · have hm := ho.shared k g p (by omega) hf hnone
      refine ⟨?_, ho.pos p k g hf, ?_⟩
      · unfold dialBack
        rw [if_pos ⟨hlk, hmem⟩, hm]
        show (p + 1 + 536870911) % 536870912 = p
        omega
      · intro q l hq hl
        rw [ho.up] at hl
        rw [ho.copy q k g l hl, if_neg (by omega), hm, Nat.add_sub_cancel]
  · intro k g
    show (dialBack K S s.gp k g).ptype = _ ∧ (dialBack K S s.gp k g).onPB = _ ∧ (_ → (dialBack K S s.gp k g).gid = _)
    have : (dialBack K S s.gp k g).ptype = (s.gp k g).ptype ∧ (dialBack K S s.gp k g).onPB = (s.gp k g).onPB ∧
        (dialBack K S s.gp k g).gid = (s.gp k g).gid := by
      unfold dialBack; split <;> exact ⟨rfl, rfl, rfl⟩
    rw [this.1, this.2.1, this.2.2]
    exact ho.kept k g
  · intro k hz p g p' g' hp hp' hin hin'
    show (dialBack K S s.gp k g).gid = (dialBack K S s.gp k g').gid → _
    have hgid : ∀ g, (dialBack K S s.gp k g).gid = (s.gp k g).gid := fun g => by unfold dialBack; split <;> rfl
    rw [hgid, hgid]
    exact ho.distinct k hz p g p' g' ((hdom p k g hp).2 hin) ((hdom p' k g' hp').2 hin')

/-- without elements there is nothing to partition -/
theorem C76_none (zero : D) {S : CMesh D} (h1 : S.F.rl = []) (h2 : S.F.fl = []) (num : Nat) (part : List Int) :
    meshPartition zero S num part = .fatal := by
  unfold meshPartition
  rw [if_neg (by simp [h1]), if_neg (by simp [h2])]

/-! ### examples -/

/-- two tetrahedra and an edge with a vertex at its end, without owners and global IDs -/
def plainC (T : Topo) : CMesh Int := { someC T with par := fun _ _ => ⟨0, 0, 0, false⟩ }

/-- The hypotheses of `C76_partition_partial` hold for that mesh, with its regions in parts 1 and 0 of 2. -/
example : ∃ T s, Topo.empty.run twoTetsGap = .ok T ∧ meshPartition 0 (plainC T) 2 [1, 0] = .ok s ∧
    Pieces (plainC T) 3 2 [1, 0] s ∧ Owners (plainC T) 3 2 [1, 0] s := by
  obtain ⟨T, h1, h⟩ := someC_ok
  obtain ⟨s, a, b, c⟩ := C76_partition_partial (0 : Int) (S := plainC T) h.mesh (K := 3)
    (Or.inl ⟨show ([1, 0] : List Nat) ≠ [] by simp, rfl⟩) h.edges h.faces (fun _ _ _ _ => rfl) (num := 2) (by omega)
    (part := [1, 0]) (show 2 ≤ 2 by omega)
  exact ⟨T, s, h1, a, b, c⟩

/-- What is seen of a partition of the mesh `someC`: the number of vertices, edges, faces and regions of
the pieces; the owners of the vertices and of the faces of the mesh, and the global IDs of the vertices;
the owners of the vertices of piece 1, and their global IDs. -/
structure SeenParts where
  sizes : List (List Nat)
  vOwner : List Nat
  fOwner : List Nat
  vGid : List Nat
  owner1 : List Nat
  gid1 : List Nat
  deriving DecidableEq

/-- what is seen of the pieces -/
def seeParts (S : CMesh Int) (num : Nat) (s : PSt Int) : SeenParts where
  sizes := (List.range num).map fun p => [0, 1, 2, 3].map fun k => ((s.sub p).F.list k).length
  vOwner := S.F.vl.map fun v => (s.gp 0 v).master
  fOwner := S.F.fl.map fun v => (s.gp 2 v).master
  vGid := S.F.vl.map fun v => (s.gp 0 v).gid
  owner1 := (s.sub 1).F.vl.map fun v => ((s.sub 1).par 0 v).master
  gid1 := (s.sub 1).F.vl.map fun v => ((s.sub 1).par 0 v).gid

/-- Two tetrahedra with a face in common: region 0 is part 0, region 1 part 1.  **Negation**: vertex 6, the
last of the mesh, is not in a region; that the owner of an entity is one of the parts is wrong of it: the
owner noted is 2^29 − 1. -/
theorem C76_negation_unused : Topo.answer twoTetsGap (fun T => do
      let s ← meshPartition 0 (plainC T) 2 [1, 0]
      pure (seeParts (plainC T) 2 s)) =
    .ok { sizes := [[4, 6, 4, 1], [4, 6, 4, 1]], vOwner := [0, 0, 0, 0, 1, 536870911], fOwner := [0, 0, 0, 0, 1, 1, 1],
          vGid := [1, 2, 3, 4, 5, 0], owner1 := [0, 0, 0, 1], gid1 := [1, 2, 3, 5] } := by decide +kernel

/-- **Negation**: a mesh that has been partitioned is partitioned again, in the same way; the owner of what
part 1 alone has is part 0 now, in the mesh and in piece 1. -/
theorem C76_negation_again : Topo.answer twoTetsGap (fun T => do
      let s ← meshPartition 0 (plainC T) 2 [1, 0]
      let s ← meshPartition 0 { plainC T with par := s.gp } 2 [1, 0]
      pure (seeParts (plainC T) 2 s)) =
    .ok { sizes := [[4, 6, 4, 1], [4, 6, 4, 1]], vOwner := [0, 0, 0, 0, 0, 536870910], fOwner := [0, 0, 0, 0, 0, 0, 0],
          vGid := [1, 2, 3, 4, 5, 0], owner1 := [0, 0, 0, 0], gid1 := [1, 2, 3, 5] } := by decide +kernel

/-- **Negation**: vertex 0 has a global ID, 2, and the others have none; another vertex is given the same. -/
theorem C76_negation_ids : Topo.answer twoTetsGap (fun T => do
      let s ← meshPartition 0 { plainC T with par := fun k x => ⟨0, 0, if k = 0 ∧ x = 0 then 2 else 0, false⟩ } 2 [1, 0]
      pure (seeParts (plainC T) 2 s)) =
    .ok { sizes := [[4, 6, 4, 1], [4, 6, 4, 1]], vOwner := [0, 0, 0, 0, 1, 536870911], fOwner := [0, 0, 0, 0, 1, 1, 1],
          vGid := [2, 1, 2, 3, 4, 0], owner1 := [0, 0, 0, 1], gid1 := [2, 1, 2, 4] } := by decide +kernel

end Prt
end MSTK
