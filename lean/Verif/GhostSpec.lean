import Verif.GhostModel
/-!
C66, C67: the ghost, overlap and interior entities of a partition, and the search by global ID, after any history of
creations, deletions, labellings, changes of global ID, (re)building of the ghost lists and switching the search on
and off.

Specification: for each kind the live entities in creation order, their labels and global IDs; whether the ghost lists
were built since labels or global IDs were last changed; and the state of the search by global ID.
-/
namespace MSTK
namespace Ghost

/-- API calls on kind 0 (vertices), 1 (edges), 2 (faces), 3 (regions) -/
inductive Op where
  | new (k : Fin 4)
  | delete (k : Fin 4) (v : Nat) (keep : Bool)
  | setPT (k : Fin 4) (v : Nat) (p : PT)
  | setGID (k : Fin 4) (v : Nat) (g : Int)
  | build (topodim : Nat)   -- MESH_Build_GhostLists
  | enable                  -- MESH_Enable_GlobalIDSearch
  | resort                  -- MESH_Sort_GlobalIDSearch_Lists
  | disable                 -- MESH_Disable_GlobalIDSearch

def M.step (m : M) : Op → Res M
  | .new k => do pure (m.set k (← (m.k k).new))
  | .delete k v keep => do pure (m.set k (← (m.k k).delete v keep))
  | .setPT k v p => .ok (m.set k ((m.k k).setPT v p))
  | .setGID k v g => .ok (m.set k ((m.k k).setGID v g))
  | .build d => m.build d
  | .enable => m.enable
  | .resort => m.sortSearch
  | .disable => .ok m.disable

def M.run : M → List Op → Res M
  | m, [] => .ok m
  | m, o :: os => do
    let m ← m.step o
    m.run os

/-- the search lists of a kind: none; listing the live entities in order of global ID; listing them, but global IDs
changed since the sorting; made before the last creation or deletion -/
inductive Srch where
  | absent | ready | unsorted | stale
  deriving DecidableEq

structure KSpec where
  live : List Nat
  created : Nat
  pt : Nat → PT
  gid : Nat → Int
  fresh : Bool
  srch : Srch

def KSpec.init : KSpec :=
  { live := [], created := 0, pt := fun _ => .interior, gid := fun _ => 0, fresh := false, srch := .absent }

/-- the live entities with a label -/
def KSpec.labelled (p : KSpec) (t : PT) : List Nat := p.live.filter fun v => p.pt v = t

/-- no two of the entities with the label have the same global ID -/
def KSpec.distinct (p : KSpec) (t : PT) : Prop := ((p.labelled t).map p.gid).Nodup

def Srch.touched : Srch → Srch
  | .absent => .absent
  | _ => .stale

def Srch.shuffled : Srch → Srch
  | .ready => .unsorted
  | x => x

def Srch.sorted : Srch → Srch
  | .unsorted => .ready
  | x => x

def KSpec.new (p : KSpec) : KSpec :=
  { p with live := p.live ++ [p.created], created := p.created + 1, pt := updF p.pt p.created .interior,
           gid := updF p.gid p.created 0, srch := p.srch.touched }

def KSpec.delete (p : KSpec) (v : Nat) : KSpec := { p with live := p.live.erase v, srch := p.srch.touched }

def KSpec.enable (p : KSpec) : KSpec :=
  { p with srch := if p.srch = .absent ∧ p.live ≠ [] then .ready else p.srch.sorted }

abbrev MSpec := Fin 4 → KSpec

def setS (q : MSpec) (i : Fin 4) (p : KSpec) : MSpec := fun j => if j = i then p else q j

def MSpec.step (q : MSpec) : Op → MSpec
  | .new k => setS q k (q k).new
  | .delete k v _ => setS q k ((q k).delete v)
  | .setPT k v t => setS q k { q k with pt := updF (q k).pt v t, fresh := false }
  | .setGID k v g => setS q k { q k with gid := updF (q k).gid v g, fresh := false, srch := (q k).srch.shuffled }
  | .build d => fun i => { q i with fresh := d = 3 ∨ i ≠ 3 }
  | .enable => fun i => (q i).enable
  | .resort => fun i => { q i with srch := (q i).srch.sorted }
  | .disable => fun i => { q i with srch := .absent }

def specRun (ops : List Op) : MSpec := ops.foldl MSpec.step fun _ => .init

/-- Live entities are deleted; ghost and overlap entities only while the ghost lists are up to date, with different
global IDs.  Global IDs are not negative.  The search lists are not sorted again after creations and deletions without
disabling the search first. -/
def Op.legal (q : MSpec) : Op → Prop
  | .new _ => True
  | .delete k v _ => v ∈ (q k).live ∧
      ∀ t, t = .ghost ∨ t = .overlap → (q k).pt v = t → (q k).fresh = true ∧ (q k).distinct t
  | .setPT k v _ => v ∈ (q k).live
  | .setGID k v g => v ∈ (q k).live ∧ 0 ≤ g ∧ g < 2147483648
  | .build d => d = 2 ∨ d = 3
  | .enable => ∀ i, (q i).srch ≠ .stale
  | .resort => ∀ i, (q i).srch ≠ .stale
  | .disable => True

def legal : MSpec → List Op → Prop
  | _, [] => True
  | q, o :: os => o.legal q ∧ legal (q.step o) os

instance (p : KSpec) (t : PT) : Decidable (p.distinct t) := by unfold KSpec.distinct; infer_instance

/-- legality as a test, for examples -/
def Op.legalB (q : MSpec) : Op → Bool
  | .new _ => true
  | .delete k v _ => decide (v ∈ (q k).live) && [PT.ghost, PT.overlap].all fun t =>
      !decide ((q k).pt v = t) || ((q k).fresh && decide ((q k).distinct t))
  | .setPT k v _ => decide (v ∈ (q k).live)
  | .setGID k v g => decide (v ∈ (q k).live ∧ 0 ≤ g ∧ g < 2147483648)
  | .build d => decide (d = 2 ∨ d = 3)
  | .enable => decide (∀ i, (q i).srch ≠ .stale)
  | .resort => decide (∀ i, (q i).srch ≠ .stale)
  | .disable => true

def legalB : MSpec → List Op → Bool
  | _, [] => true
  | q, o :: os => o.legalB q && legalB (q.step o) os

theorem legalB_sound (ops : List Op) : ∀ q : MSpec, legalB q ops = true → legal q ops := by
  induction ops with
  | nil => intro _ _; trivial
  | cons o os ih =>
    intro q h
    simp only [legalB, Bool.and_eq_true] at h
    refine ⟨?_, ih _ h.2⟩
    have h1 := h.1
    cases o with
    | new k => trivial
    | delete k v keep =>
      simp only [Op.legalB, Bool.and_eq_true, decide_eq_true_eq, List.all_cons, List.all_nil, Bool.or_eq_true,
        Bool.not_eq_true', decide_eq_false_iff_not] at h1
      refine ⟨h1.1, fun t ht hp => ?_⟩
      rcases ht with rfl | rfl
      · exact h1.2.1.resolve_left fun hn => hn hp
      · exact h1.2.2.1.resolve_left fun hn => hn hp
    | setPT k v t => simpa only [Op.legalB, Op.legal, decide_eq_true_eq] using h1
    | setGID k v g => simpa only [Op.legalB, Op.legal, decide_eq_true_eq] using h1
    | build d => simpa only [Op.legalB, Op.legal, decide_eq_true_eq] using h1
    | enable => simpa only [Op.legalB, Op.legal, decide_eq_true_eq] using h1
    | resort => simpa only [Op.legalB, Op.legal, decide_eq_true_eq] using h1
    | disable => trivial

end Ghost
end MSTK
