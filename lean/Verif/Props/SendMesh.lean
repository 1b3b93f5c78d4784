import Verif.SendRecv
import Verif.Props.MeshCopy

/-!
C61: a mesh sent by one process and received by another is the same mesh.
-/
namespace MSTK
namespace Send
open File Copy

variable {D : Type}

/-! ### specification

`Joined` (Props/MeshCopy.lean) says what the entities of a copy are; `Sendable` (SendBuild.lean), `AttFits` and
`SetFits` (SendRecv.lean) what can be sent. -/

/-- What can be sent with attributes and sets: names that tell them apart, global IDs that tell the
entities apart. -/
structure Fit (S : CMesh D) : Prop where
  atts : ∀ a ∈ S.F.atts, a.name.length < 256 ∧ (a.ty ≠ .ptr → AttFits S a)
  attNames : ((S.F.atts.filter fun a => a.ty ≠ .ptr).map (·.name)).Nodup
  sets : ∀ m ∈ S.sets, SetFits S m
  setNames : (S.sets.map (·.name)).Nodup
  gids : ∀ k < 4, ∀ x ∈ S.F.list k, ∀ y ∈ S.F.list k, (S.par k x).gid = (S.par k y).gid → x = y

/-- The attribute that arrives: for one kind of entity as in a copy, for all kinds without values. -/
def AttSent (nz : D → Bool) (S N0 : CMesh D) (new : Nat → List Nat) (a b : Attr D) : Prop :=
  if a.ent < 4 then AttCopy nz S N0 new a b
  else (b.name = a.name ∧ b.ty = a.ty ∧ b.ncomp = a.ncomp ∧ b.ent = a.ent) ∧ ∀ k x, b.val k x = none

/-! ### theorems -/

theorem new_sound (zero : D) : (CMesh.new zero).F.Sound where
  cons := Topo.empty_consistent
  vl := ⟨List.nodup_nil, fun x => ⟨fun h => (by cases h), fun h => (by cases h)⟩⟩
  el := ⟨List.nodup_nil, fun x => ⟨fun h => (by cases h), fun h => (by cases h)⟩⟩
  fl := ⟨List.nodup_nil, fun x => ⟨fun h => (by cases h), fun h => (by cases h)⟩⟩
  rl := ⟨List.nodup_nil, fun x => ⟨fun h => (by cases h), fun h => (by cases h)⟩⟩
  ends := fun x hx => by cases hx
  edges := fun x hx => by cases hx
  faces := fun x hx => by cases hx
  vc := fun x hx => by cases hx
  ec := fun x hx => by cases hx
  fc := fun x hx => by cases hx
  rc := fun x hx => by cases hx
  size := by show (0 : Nat) + 0 + 0 + 0 < 2147483648; omega

/-- A mesh with faces whose IDs are 1, 2, ... in the order of the lists: all messages of `MESH_SendMesh` are
taken by `MESH_RecvMesh`, no more, and the new mesh is a copy; if asked to, with the attributes that do not hold
pointers and with the sets. -/
theorem C61_send_partial {zero : D} {nz : D → Bool} {srch : (Nat → Nat) → List Nat → Nat → Option Nat} (hs : Finds srch)
    (hz : nz zero = false) {S : CMesh D} (h : Sendable S) (hf : S.F.fl ≠ []) (he : S.F.el ≠ []) (hv : S.F.vl ≠ [])
    (withAttr : Bool) (ha : withAttr = true → Fit S) :
    ∃ ms, sendMesh zero S withAttr = .ok ms ∧ ∀ rest, ∃ N new, recvMesh zero nz srch withAttr (ms ++ rest) = .ok (N, rest) ∧
      Joined S (CMesh.new zero) N new ∧
      (if withAttr then List.Forall₂ (AttSent nz S (CMesh.new zero) new) (S.F.atts.filter fun a => a.ty ≠ .ptr) N.F.atts ∧
        List.Forall₂ (SetCopy S new) S.sets N.sets else N.F.atts = [] ∧ N.sets = []) := by
  have hsize : (CMesh.new zero).F.vl.length + (CMesh.new zero).F.el.length + (CMesh.new zero).F.fl.length +
      (CMesh.new zero).F.rl.length + (S.F.vl.length + S.F.el.length + S.F.fl.length + S.F.rl.length) < 2147483648 := by
    have := h.mesh.size
    show 0 + 0 + 0 + 0 + _ < _
    omega
  cases withAttr with
  | false =>
    refine ⟨entMsgs S, ?_, fun rest => ?_⟩
    · unfold sendMesh
      rw [sendEnts_ok h]
      rfl
    · obtain ⟨N, h1, h2⟩ := recvEnts_ok (zero := zero) h hv he hf rest
      refine ⟨N, newOf S (CMesh.new zero), ?_, cop_joined h.mesh (new_sound zero) (cop_of_rcv h h2) hsize, ?_⟩
      · unfold recvMesh
        rw [h1]
        rfl
      · exact ⟨h2.atts, h2.sets⟩
  | true =>
    obtain ⟨f1, f2, f3, f4, f5⟩ := ha rfl
    have hb : ∀ a ∈ S.F.atts.filter (fun a => a.ty ≠ .ptr), AttFits S a ∧ a.ty ≠ .ptr := by
      intro a ha
      rw [List.mem_filter] at ha
      have hp : a.ty ≠ .ptr := by simpa using ha.2
      exact ⟨(f1 a ha.1).2 hp, hp⟩
    refine ⟨entMsgs S ++ (attMeta (S.F.atts.filter fun a => a.ty ≠ .ptr) ++
      (((S.F.atts.filter fun a => a.ty ≠ .ptr).map (attMsgs zero S)).flatten ++
      (setMeta S.sets ++ (S.sets.map (setMsgs S)).flatten))), ?_, fun rest => ?_⟩
    · unfold sendMesh
      rw [sendEnts_ok h, Res.bind_ok, if_pos rfl,
        sendAttrMeta_ok (fun a ha => (f1 a ha).1) (fun a ha hp => ((f1 a ha).2 hp).fits), Res.bind_ok,
        each_ok (h := attMsgs zero S) (fun a ha => sendAttr_ok (hb a ha).1), Res.bind_ok,
        sendSetMeta_ok (fun m hm => (f3 m hm).name), Res.bind_ok,
        each_ok (h := setMsgs S) (fun m hm => sendSet_ok (f3 m hm).some), Res.bind_ok]
      rfl
    · obtain ⟨N, h1, h2⟩ := recvEnts_ok (zero := zero) h hv he hf
        (attMeta (S.F.atts.filter fun a => a.ty ≠ .ptr) ++
        (((S.F.atts.filter fun a => a.ty ≠ .ptr).map (attMsgs zero S)).flatten ++
        (setMeta S.sets ++ ((S.sets.map (setMsgs S)).flatten ++ rest))))
      have hP := placed_of_rcv h2
      generalize S.F.atts.filter (fun a => a.ty ≠ .ptr) = bs at *
      have h3 := recvAttrMeta_ok (S := S) h2.atts f2 (fun a ha => (hb a ha).1)
        ((bs.map (attMsgs zero S)).flatten ++ (setMeta S.sets ++ ((S.sets.map (setMsgs S)).flatten ++ rest)))
      obtain ⟨Bs, h4, h5⟩ := recvAttrs_ok (N := withAtts N (bs.map blank)) (zero := zero) ⟨hP.list, hP.gid⟩ hz bs hb
        (setMeta S.sets ++ ((S.sets.map (setMsgs S)).flatten ++ rest))
      have h6 := recvSetMeta_ok (N := withAtts N Bs) h2.sets f4 ((S.sets.map (setMsgs S)).flatten ++ rest)
      have h7 := recvSets_ok (N := withSets (withAtts N Bs) (S.sets.map fun m => ⟨m.name, m.dim, []⟩)) (zero := zero) hs
        ⟨hP.list, hP.gid⟩ h.mesh f5 S.sets f3 rest
      have hj := cop_joined h.mesh (new_sound zero) (cop_of_rcv h h2) hsize
      refine ⟨withSets (withAtts N Bs) (S.sets.map (setC S (CMesh.new zero))), newOf S (CMesh.new zero), ?_,
        { hj with mesh := { hj.mesh with } }, ?_⟩
      · simp only [List.append_assoc]
        unfold recvMesh
        rw [h1, Res.bind_ok]
        dsimp only
        rw [if_pos rfl, h3, Res.bind_ok]
        dsimp only
        rw [show (withAtts N (bs.map blank)).F.atts = bs.map blank from rfl, h4, Res.bind_ok]
        dsimp only
        rw [show ({ withAtts N (bs.map blank) with F := { (withAtts N (bs.map blank)).F with atts := Bs } } : CMesh D) =
          withAtts N Bs from rfl, h6, Res.bind_ok]
        dsimp only
        rw [show (withSets (withAtts N Bs) (S.sets.map fun m => (⟨m.name, m.dim, []⟩ : SetD))).sets =
          S.sets.map fun m => ⟨m.name, m.dim, []⟩ from rfl, h7, Res.bind_ok]
        rfl
      · rw [if_pos rfl]
        constructor
        · have hc : ∀ a ∈ bs, a.ncomp = compsOf a.ty a.ncomp := fun a ha => (hb a ha).1.comps
          show List.Forall₂ _ bs Bs
          clear h1 h3 h4 h6 h7 hb f2
          induction h5 with
          | nil => exact .nil
          | @cons a b _ _ hh _ ih =>
            refine .cons ?_ (ih fun a ha => hc a (List.mem_cons_of_mem _ ha))
            unfold Arrived at hh
            unfold AttSent
            by_cases h4 : a.ent < 4
            · rw [if_pos h4] at hh ⊢
              exact carried_copy (new_sound zero) (hc _ (by simp)) hh
            · rw [if_neg h4] at hh ⊢
              subst hh
              exact ⟨⟨rfl, rfl, rfl, rfl⟩, fun _ _ => rfl⟩
        · show List.Forall₂ _ S.sets (S.sets.map (setC S (CMesh.new zero)))
          clear h1 h3 h4 h6 h7 f4
          generalize S.sets = ss at f3
          induction ss with
          | nil => exact .nil
          | cons m ss ih => exact .cons (setC_copy (f3 m (by simp)).ents) (ih fun m' hm' => f3 m' (List.mem_cons_of_mem _ hm'))

/-! ### examples -/

/-- a search -/
def search (ids : Nat → Nat) (l : List Nat) (g : Nat) : Option Nat := l.find? fun x => ids x = g

theorem search_finds : Finds search := by
  intro ids l g
  unfold search
  constructor
  · intro x hx
    exact ⟨List.mem_of_find?_eq_some hx, by simpa using List.find?_some hx⟩
  · intro hn x hx h
    rw [List.find?_eq_none] at hn
    exact hn x hx (by simpa using h)

/-- the mesh of C60 with IDs that are positions -/
def sentC (T : Topo) : CMesh Int :=
  let S := someC T
  { S with F := { S.F with vid := fun v => ([0, 1, 2, 3, 4, 6] : List Nat).idxOf v + 1,
                           eid := fun e => ([9, 0, 1, 2, 3, 4, 5, 6, 7, 8] : List Nat).idxOf e + 1,
                           fid := fun f => f + 1,
                           rid := fun r => ([1, 0] : List Nat).idxOf r + 1 } }

theorem ids_of {l : List Nat} {ids : Nat → Int} (h : l.zipIdx.all (fun p => decide (ids p.1 = p.2 + 1)) = true) :
    ∀ (i : Nat) v, l[i]? = some v → ids v = i+1 := by
  intro i v hv
  rw [List.all_eq_true] at h
  exact of_decide_eq_true (h (v, i) (List.mem_zipIdx_iff_getElem?.2 hv))

/-- The hypotheses of `C61_send_partial` hold for that mesh. -/
example : ∃ T ms, Topo.empty.run twoTetsGap = .ok T ∧ sendMesh 0 (sentC T) true = .ok ms ∧
    ∃ N new, recvMesh 0 (fun x => x ≠ 0) search true (ms ++ []) = .ok (N, []) ∧
      Joined (sentC T) (CMesh.new 0) N new ∧ N.F.atts.length = 5 ∧ N.sets.length = 2 := by
  obtain ⟨T, h1, h⟩ := someC_ok
  obtain ⟨ms, a, b⟩ := C61_send_partial (zero := (0 : Int)) (nz := fun x => x ≠ 0) search_finds (by decide)
    (S := sentC T)
    { mesh := { h.mesh with }
      edges := h.edges
      faces := h.faces
      vid := ids_of (l := [0, 1, 2, 3, 4, 6]) rfl
      eid := ids_of (l := [9, 0, 1, 2, 3, 4, 5, 6, 7, 8]) rfl
      fid := ids_of (l := [0, 1, 2, 3, 4, 5, 6]) rfl
      rid := ids_of (l := [1, 0]) rfl
      par := by
        intro k hk x hx
        have h3 : x % 3 < 3 := Nat.mod_lt _ (by omega)
        exact ⟨Nat.mod_lt _ (by omega), show x % 3 < _ by omega⟩ }
    (show [0, 1, 2, 3, 4, 5, 6] ≠ [] by simp) (show [9, 0, 1, 2, 3, 4, 5, 6, 7, 8] ≠ [] by simp)
    (show [0, 1, 2, 3, 4, 6] ≠ [] by simp) true fun _ =>
    { atts := by
        intro a ha
        obtain ⟨a1, a2, a3⟩ := h.atts a ha
        refine ⟨a1, fun hp => ⟨a1, a2, ?_, ?_, a3 hp, ?_⟩⟩ <;> clear a1 a2 a3
        all_goals
          have ha : a ∈ someAtts ++ [_] := ha
          unfold someAtts at ha
          simp only [List.mem_cons, List.not_mem_nil, or_false, List.cons_append, List.nil_append] at ha
        · rcases ha with rfl | rfl | rfl | rfl | rfl | rfl <;> decide
        · rcases ha with rfl | rfl | rfl | rfl | rfl | rfl <;> decide
        · rcases ha with rfl | rfl | rfl | rfl | rfl | rfl
          · intro hh; simp at hh
          · intro hh; simp at hh
          · exact fun _ => ⟨by decide, fun x _ => ⟨_, rfl⟩⟩
          · intro hh; simp at hh
          · intro hh; simp at hh
          · intro hh; simp at hh
      attNames := show [['t','e','m','p'], ['m','a','t'], ['f','l','u','x'], ['e','m','p','t','y'], copyName].Nodup by decide
      sets := by
        intro m hm
        refine { name := (h.sets m hm).1, ents := (h.sets m hm).2, some := ?_ }
        have hm : m ∈ [SetD.mk ['s','1'] 2 [some (2, 3), none, some (2, 0)], ⟨['a','l','l'], 5, [some (0, 6), some (3, 1)]⟩] := hm
        simp only [List.mem_cons, List.not_mem_nil, or_false] at hm
        rcases hm with rfl | rfl <;> simp
      setNames := show [['s','1'], ['a','l','l']].Nodup by decide
      gids := fun k _ x _ y _ hxy => Nat.add_left_cancel (show 100 + x = 100 + y from hxy) }
  obtain ⟨N, new, c, d, e⟩ := b []
  rw [if_pos rfl] at e
  refine ⟨T, ms, h1, a, N, new, c, d, ?_, ?_⟩
  · rw [← e.1.length_eq]; rfl
  · rw [← e.2.length_eq]; rfl

/-- send and receive -/
def trip (S : CMesh Int) (withAttr : Bool) : Res (CMesh Int × List (Msg Int)) := do
  let ms ← sendMesh 0 S withAttr
  recvMesh 0 (fun x => x ≠ 0) search withAttr ms

/-- a polygon with `n` sides, with IDs of vertices, global IDs, an attribute, a set -/
def gon (n : Nat) (vid : Nat → Int) (gid : Nat → Nat) (as : List (Attr Int)) (ss : List SetD) : Res (CMesh Int) := do
  let T ← Topo.empty.run (polygon n)
  let N : CMesh Int := CMesh.new 0
  pure { N with F := { N.F with T := T, vl := List.range n, el := List.range n, fl := [0], vid := vid, eid := fun e => e + 1,
                                fid := fun _ => 1, atts := as },
                par := fun _ x => ⟨0, 0, gid x, false⟩, sets := ss }

/-- what is seen of the result: the vertices, the values of the first attribute on vertices, the first set,
whether messages are left -/
structure Seen where
  verts : List Nat
  vals : List (Option Int)
  ents : List (Option (Nat × Nat))
  left : Nat
deriving DecidableEq

/-- the value as a number -/
def intVal : AVal Int → Option Int
  | .int i => some i
  | _ => none

/-- what is seen of a mesh and of messages -/
def seen (p : CMesh Int × List (Msg Int)) : Res Seen := pure
  { verts := p.1.F.vl
    vals := p.1.F.vl.map fun v => (p.1.F.atts.head?.bind fun a => a.val 0 v).bind intVal
    ents := (p.1.sets.map (·.ents)).head?.getD []
    left := p.2.length }

/-- a number on vertices -/
def num1 (k : Nat) : Attr Int := ⟨['a'], .int, 1, k, fun k x => if k = 0 then some (.int x) else none⟩

/-- For comparison: a triangle arrives, with the set of its last vertex; but for the vertex with value 0, which
arrives without a value, the values of an attribute for vertices do. -/
theorem C61_negation_zero : (do let S ← gon 3 (fun v => v + 1) id [num1 0] [⟨['s'], 0, [some (0, 2)]⟩]; let p ← trip S true; seen p) =
    .ok ⟨[0, 1, 2], [none, some 1, some 2], [some (0, 2)], 0⟩ := by decide +kernel

/-- Values of an attribute for all kinds of entities do not arrive. -/
theorem C61_negation_all : (do let S ← gon 3 (fun v => v + 1) id [num1 5] []; let p ← trip S true; seen p) =
    .ok ⟨[0, 1, 2], [none, none, none], [], 0⟩ := by decide +kernel

/-- Without global IDs another vertex arrives in the set. -/
theorem C61_negation_gid :
    (do let S ← gon 3 (fun v => v + 1) (fun _ => 0) [] [⟨['s'], 0, [some (0, 2)]⟩]; let p ← trip S true; seen p) =
    .ok ⟨[0, 1, 2], [none, none, none], [some (0, 0)], 0⟩ := by decide +kernel

/-- With vertices 1, 2 and 4, as they are after another has been deleted, receiving is undefined. -/
theorem C61_negation_id : (do let S ← gon 3 (fun v => if v = 2 then 4 else v + 1) id [] []; let p ← trip S false; seen p) = .ub ∧
    (do let S ← gon 3 (fun v => if v = 2 then 4 else v + 1) id [] []; let ms ← sendMesh 0 S false; pure ms.length) = .ok 5 := by
  decide +kernel

/-- A face with 31 edges (32 are possible) is sent, but the buffer for receiving it is too small. -/
theorem C61_negation_edges : (do let S ← gon 31 (fun v => v + 1) id [] []; let p ← trip S false; seen p) = .fatal ∧
    (do let S ← gon 31 (fun v => v + 1) id [] []; let ms ← sendMesh 0 S false; pure ms.length) = .ok 5 := by
  decide +kernel

/-- A mesh with edges but no faces: without attributes a message is left, with attributes that message is
taken for another and receiving is undefined. -/
theorem C61_negation_faces : 
    (do let S ← gon 3 (fun v => v + 1) id [] []; let p ← trip { S with F := { S.F with fl := [] } } false; seen p) =
      .ok ⟨[0, 1, 2], [none, none, none], [], 1⟩ ∧
    (do let S ← gon 3 (fun v => v + 1) id [] []; let p ← trip { S with F := { S.F with fl := [] } } true; seen p) = .ub := by
  decide +kernel

/-- Sending a set without entries is undefined. -/
theorem C61_negation_set (zero : D) {S : CMesh D} {m : SetD} (hm : m ∈ S.sets) (he : m.ents.filterMap id = [])
    (h : Sendable S) (h1 : ∀ a ∈ S.F.atts, a.name.length < 256 ∧ (a.ty ≠ .ptr → AttFits S a))
    (h2 : ∀ m ∈ S.sets, m.name.length < 256) : sendMesh zero S true = .ub := by
  have hb : each (sendSet S) S.sets = .ub := by
    clear h2
    generalize S.sets = ss at hm
    induction ss with
    | nil => cases hm
    | cons m' ss ih =>
      unfold each
      by_cases he' : m'.ents.filterMap id = []
      · rw [show sendSet S m' = .ub from if_pos he']; rfl
      · rw [sendSet_ok he', Res.bind_ok]
        rcases List.mem_cons.1 hm with rfl | hm
        · exact absurd he he'
        · rw [ih hm]; rfl
  unfold sendMesh
  rw [sendEnts_ok h, Res.bind_ok, if_pos rfl, sendAttrMeta_ok (fun a ha => (h1 a ha).1) (fun a ha hp => ((h1 a ha).2 hp).fits),
    Res.bind_ok, each_ok (h := attMsgs zero S) (fun a ha => sendAttr_ok ((h1 a (List.mem_filter.1 ha).1).2 (by
      simpa using (List.mem_filter.1 ha).2))), Res.bind_ok, sendSetMeta_ok h2, Res.bind_ok, hb]
  rfl

/-- Sending a vector that some vertex does not have is undefined. -/
theorem C61_negation_vector : (do
    let S ← gon 3 (fun v => v + 1) id [⟨['a'], .vec, 2, 0, fun k x => if k = 0 ∧ x < 2 then some (.arr [1, 2]) else none⟩] []
    let ms ← sendMesh 0 S true; pure ms.length) = .ub := by decide +kernel

end Send
end MSTK
