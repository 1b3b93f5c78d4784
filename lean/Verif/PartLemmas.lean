import Verif.PartModel

/-!
What a piece of a mesh is while it is being built (PartModel.lean).
-/
namespace MSTK
namespace Prt
open File Copy

variable {D : Type}

theorem upd2_some {α : Type} {f : Nat → Nat → Option α} {k g k' g' : Nat} {l l' : α} :
    upd2 f k g (some l) k' g' = some l' ↔ (k' = k ∧ g' = g ∧ l' = l) ∨ (¬ (k' = k ∧ g' = g) ∧ f k' g' = some l') := by
  by_cases hk : k' = k
  · subst hk
    rw [upd2_same]
    by_cases hg : g' = g
    · subst hg
      rw [upd_same]
      constructor
      · intro h; injection h with h; exact Or.inl ⟨rfl, rfl, h.symm⟩
      · rintro (⟨_, _, rfl⟩ | ⟨h, _⟩)
        · rfl
        · exact absurd ⟨rfl, rfl⟩ h
    · rw [upd_ne _ _ hg]
      constructor
      · intro h; exact Or.inr ⟨fun h => hg h.2, h⟩
      · rintro (⟨_, h, _⟩ | ⟨_, h⟩)
        · exact absurd h hg
        · exact h
  · rw [upd2_ne _ _ _ hk]
    constructor
    · intro h; exact Or.inr ⟨fun h => hk h.1, h⟩
    · rintro (⟨h, _⟩ | ⟨_, h⟩)
      · exact absurd h hk
      · exact h

/-- `c'` knows all the copies `c` knows -/
def Knows (c c' : Nat → Nat → Option Nat) : Prop := ∀ k g l, c k g = some l → c' k g = some l

theorem Knows.refl (c : Nat → Nat → Option Nat) : Knows c c := fun _ _ _ h => h
theorem Knows.trans {a b c : Nat → Nat → Option Nat} (h : Knows a b) (h' : Knows b c) : Knows a c :=
  fun k g l hl => h' k g l (h k g l hl)

theorem Knows.add {c : Nat → Nat → Option Nat} {k g l : Nat} (h : c k g = none) : Knows c (upd2 c k g (some l)) := by
  intro k' g' l' hl
  refine upd2_some.2 (Or.inr ⟨?_, hl⟩)
  rintro ⟨rfl, rfl⟩
  rw [h] at hl; cases hl

/-- The copies are the entities of the piece. -/
structure Maps (L M : Nat → List Nat) (c : Nat → Nat → Option Nat) : Prop where
  dom : ∀ k g l, c k g = some l → l ∈ M k ∧ g ∈ L k
  inj : ∀ k g g' l, c k g = some l → c k g' = some l → g = g'
  all : ∀ k l, l ∈ M k → ∃ g, c k g = some l

theorem Maps.add {L M : Nat → List Nat} {c : Nat → Nat → Option Nat} (h : Maps L M c) {k g l : Nat}
    (hc : c k g = none) (hg : g ∈ L k) (hl : l ∉ M k) :
    Maps L (upd M k (M k ++ [l])) (upd2 c k g (some l)) where
  dom := by
    intro k' g' l' h'
    rcases upd2_some.1 h' with ⟨rfl, rfl, rfl⟩ | ⟨_, h'⟩
    · rw [upd_same]; exact ⟨by simp, hg⟩
    · obtain ⟨h1, h2⟩ := h.dom k' g' l' h'
      refine ⟨?_, h2⟩
      by_cases hk : k' = k
      · subst hk; rw [upd_same]; exact List.mem_append_left _ h1
      · rw [upd_ne _ _ hk]; exact h1
  inj := by
    intro k' a b l' ha hb
    rcases upd2_some.1 ha with ⟨rfl, rfl, rfl⟩ | ⟨_, ha1⟩
    · rcases upd2_some.1 hb with ⟨_, rfl, _⟩ | ⟨_, hb1⟩
      · rfl
      · exact absurd (h.dom _ _ _ hb1).1 hl
    · rcases upd2_some.1 hb with ⟨rfl, rfl, rfl⟩ | ⟨_, hb1⟩
      · exact absurd (h.dom _ _ _ ha1).1 hl
      · exact h.inj _ _ _ _ ha1 hb1
  all := by
    intro k' l' hl'
    by_cases hk : k' = k
    · subst hk
      rw [upd_same] at hl'
      rcases List.mem_append.1 hl' with hl' | hl'
      · obtain ⟨g', hg'⟩ := h.all _ _ hl'
        exact ⟨g', Knows.add hc _ _ _ hg'⟩
      · rw [List.mem_singleton.1 hl']
        exact ⟨g, upd2_some.2 (Or.inl ⟨rfl, rfl, rfl⟩)⟩
    · rw [upd_ne _ _ hk] at hl'
      obtain ⟨g', hg'⟩ := h.all _ _ hl'
      exact ⟨g', Knows.add hc _ _ _ hg'⟩

/-- the entities that are there, each once -/
def Listed (l : List Nat) (st : Nat → Stat) : Prop := l.Nodup ∧ ∀ x, x ∈ l ↔ st x = .live

theorem Listed.add {l : List Nat} {st : Nat → Stat} {n : Nat} (h : Listed l st) (hn : st n = .unused) :
    n ∉ l ∧ Listed (l ++ [n]) (upd st n .live) := by
  have hno : n ∉ l := fun hm => by have := (h.2 n).1 hm; rw [hn] at this; cases this
  refine ⟨hno, ?_, fun x => ?_⟩
  · rw [List.nodup_append]
    refine ⟨h.1, by simp, ?_⟩
    intro a ha b hb
    rw [List.mem_singleton.1 hb]
    rintro rfl; exact hno ha
  · rw [List.mem_append, List.mem_singleton]
    by_cases hx : x = n
    · subst hx; rw [upd_same]; simp
    · rw [upd_ne _ _ hx, ← h.2 x]
      simp [hx]

/-- entries of two boundaries that belong to each other, in the same directions -/
def Same (c : Nat → Option Nat) : List (Nat × Bool) → List (Nat × Bool) → Prop :=
  List.Forall₂ fun p q => c p.1 = some q.1 ∧ q.2 = p.2

theorem Same.mono {c c' : Nat → Option Nat} (h : ∀ g l, c g = some l → c' g = some l) {xs ys : List (Nat × Bool)}
    (hs : Same c xs ys) : Same c' xs ys :=
  List.Forall₂.imp (fun _ _ hp => ⟨h _ _ hp.1, hp.2⟩) hs

/-- A piece being built: a mesh; its entities are the copies `c` knows; a copy has the coordinates and
the classification of the original and is bounded by the copies of what bounds that, in the same
directions. -/
structure Sub (G N : FMesh D) (c : Nat → Nat → Option Nat) : Prop where
  cons : N.T.Consistent
  vl : Listed N.vl N.T.sv
  el : Listed N.el N.T.se
  fl : Listed N.fl N.T.sf
  rl : Listed N.rl N.T.sr
  maps : Maps G.list N.list c
  vertex : ∀ g l, c 0 g = some l → N.xyz l = G.xyz g ∧ N.vc l = G.vc g
  edge : ∀ g l, c 1 g = some l → N.ec l = G.ec g ∧ ∃ a b a' b', G.T.view.ends g = (some a, some b) ∧
    c 0 a = some a' ∧ c 0 b = some b' ∧ N.T.view.ends l = (some a', some b')
  face : ∀ g l, c 2 g = some l → N.fc l = G.fc g ∧ (∃ es, N.T.fe l = some es) ∧
    Same (c 1) (G.T.view.edges g) (N.T.view.edges l)
  region : ∀ g l, c 3 g = some l → N.rc l = G.rc g ∧ (∃ fs, N.T.rf l = some fs) ∧
    Same (c 2) (G.T.view.faces g) (N.T.view.faces l)

theorem Sub.live0 {G N : FMesh D} {c : Nat → Nat → Option Nat} (h : Sub G N c) {g l : Nat} (hl : c 0 g = some l) :
    N.T.sv l = .live := (h.vl.2 l).1 (h.maps.dom 0 g l hl).1
theorem Sub.live1 {G N : FMesh D} {c : Nat → Nat → Option Nat} (h : Sub G N c) {g l : Nat} (hl : c 1 g = some l) :
    N.T.se l = .live := (h.el.2 l).1 (h.maps.dom 1 g l hl).1
theorem Sub.live2 {G N : FMesh D} {c : Nat → Nat → Option Nat} (h : Sub G N c) {g l : Nat} (hl : c 2 g = some l) :
    N.T.sf l = .live := (h.fl.2 l).1 (h.maps.dom 2 g l hl).1
theorem Sub.live3 {G N : FMesh D} {c : Nat → Nat → Option Nat} (h : Sub G N c) {g l : Nat} (hl : c 3 g = some l) :
    N.T.sr l = .live := (h.rl.2 l).1 (h.maps.dom 3 g l hl).1

theorem ne_of_live {st : Nat → Stat} {n x : Nat} (hn : st n = .unused) (hx : st x = .live) : x ≠ n := by
  rintro rfl; rw [hn] at hx; cases hx

/-- a vertex more -/
theorem Sub.addV {G N : FMesh D} {c : Nat → Nat → Option Nat} (h : Sub G N c) {v : Nat} (hc : c 0 v = none)
    (hv : v ∈ G.vl) {N' : FMesh D} {vid : Nat → Int}
    (hN : N' = { N with T := N.T.mvNew.1, vl := N.vl ++ [N.T.nv], xyz := upd N.xyz N.T.nv (G.xyz v),
                        vc := upd N.vc N.T.nv (G.vc v), vid := vid }) :
    Sub G N' (upd2 c 0 v (some N.T.nv)) := by
  have hu : N.T.sv N.T.nv = .unused := h.cons.newV _ (by omega)
  obtain ⟨hno, hli⟩ := h.vl.add hu
  have hk := Knows.add (l := N.T.nv) hc
  have hlist : N'.list = upd N.list 0 (N.list 0 ++ [N.T.nv]) := by
    funext k; subst hN; match k with
    | 0 => rfl
    | 1 => rfl
    | 2 => rfl
    | 3 => rfl
    | k+4 => rfl
  subst hN
  exact
  { cons := h.cons.newVertex
    vl := hli
    el := h.el
    fl := h.fl
    rl := h.rl
    maps := by rw [hlist]; exact h.maps.add hc hv hno
    vertex := by
      intro g l hl
      show upd _ _ _ _ = _ ∧ upd _ _ _ _ = _
      rcases upd2_some.1 hl with ⟨_, rfl, rfl⟩ | ⟨_, hl⟩
      · rw [upd_same, upd_same]; exact ⟨rfl, rfl⟩
      · have hne := ne_of_live hu (h.live0 hl)
        rw [upd_ne _ _ hne, upd_ne _ _ hne]; exact h.vertex g l hl
    edge := by
      intro g l hl
      rw [upd2_ne _ _ _ (by omega)] at hl
      obtain ⟨h1, a, b, a', b', h2, h3, h4, h5⟩ := h.edge g l hl
      exact ⟨h1, a, b, a', b', h2, hk _ _ _ h3, hk _ _ _ h4, h5⟩
    face := by
      intro g l hl
      rw [upd2_ne _ _ _ (by omega)] at hl
      obtain ⟨h1, h2, h3⟩ := h.face g l hl
      exact ⟨h1, h2, h3.mono fun _ _ => hk _ _ _⟩
    region := by
      intro g l hl
      rw [upd2_ne _ _ _ (by omega)] at hl
      obtain ⟨h1, h2, h3⟩ := h.region g l hl
      exact ⟨h1, h2, h3.mono fun _ _ => hk _ _ _⟩ }

/-- an edge more -/
theorem Sub.addE {G N : FMesh D} {c : Nat → Nat → Option Nat} (h : Sub G N c) {e a b a' b' : Nat} (hc : c 1 e = none)
    (he : e ∈ G.el) (hab : G.T.view.ends e = (some a, some b)) (ha : c 0 a = some a') (hb : c 0 b = some b') :
    ∃ T2 T3, N.T.meNew.1.meSetVertex N.T.ne false a' = .ok T2 ∧ T2.meSetVertex N.T.ne true b' = .ok T3 ∧
      ∀ (eid : Nat → Int), Sub G ({ N with T := T3, el := N.el ++ [N.T.ne], ec := upd N.ec N.T.ne (G.ec e), eid := eid })
        (upd2 c 1 e (some N.T.ne)) := by
  obtain ⟨T2, T3, s2, s3, c3, n1, n2, n3, n4, n5, n7, hv⟩ := newEdge_ends h.cons (h.live0 ha) (h.live0 hb)
  refine ⟨T2, T3, s2, s3, ?_⟩
  intro eid
  generalize hN : ({ N with T := T3, el := N.el ++ [N.T.ne], ec := upd N.ec N.T.ne (G.ec e), eid := eid } : FMesh D) = N'
  have hu : N.T.se N.T.ne = .unused := h.cons.newE _ (by omega)
  obtain ⟨hno, hli⟩ := h.el.add hu
  have hk := Knows.add (l := N.T.ne) hc
  have hlist : N'.list = upd N.list 1 (N.list 1 ++ [N.T.ne]) := by
    funext k; subst hN; match k with
    | 0 => rfl
    | 1 => rfl
    | 2 => rfl
    | 3 => rfl
    | k+4 => rfl
  have hsv : T3.sv = N.T.sv := by have := congrArg Topo.View.sv hv; exact this
  have hse : T3.se = upd N.T.se N.T.ne .live := by have := congrArg Topo.View.se hv; exact this
  have hsf : T3.sf = N.T.sf := by have := congrArg Topo.View.sf hv; exact this
  have hsr : T3.sr = N.T.sr := by have := congrArg Topo.View.sr hv; exact this
  have hen : T3.view.ends = upd N.T.view.ends N.T.ne (some a', some b') := by have := congrArg Topo.View.ends hv; exact this
  have hed : T3.view.edges = N.T.view.edges := by have := congrArg Topo.View.edges hv; exact this
  have hfa : T3.view.faces = N.T.view.faces := by have := congrArg Topo.View.faces hv; exact this
  subst hN
  exact
  { cons := c3
    vl := by show Listed N.vl T3.sv; rw [hsv]; exact h.vl
    el := by show Listed (N.el ++ [N.T.ne]) T3.se; rw [hse]; exact hli
    fl := by show Listed N.fl T3.sf; rw [hsf]; exact h.fl
    rl := by show Listed N.rl T3.sr; rw [hsr]; exact h.rl
    maps := by rw [hlist]; exact h.maps.add hc he hno
    vertex := by
      intro g l hl
      rw [upd2_ne _ _ _ (by omega)] at hl
      exact h.vertex g l hl
    edge := by
      intro g l hl
      show upd _ _ _ _ = _ ∧ ∃ a b a' b', _ ∧ _ ∧ _ ∧ T3.view.ends l = _
      rw [hen]
      rcases upd2_some.1 hl with ⟨_, rfl, rfl⟩ | ⟨_, hl⟩
      · rw [upd_same, upd_same]
        exact ⟨rfl, a, b, a', b', hab, hk _ _ _ ha, hk _ _ _ hb, rfl⟩
      · have hne := ne_of_live hu (h.live1 hl)
        rw [upd_ne _ _ hne, upd_ne _ _ hne]
        obtain ⟨h1, a, b, a', b', h2, h3, h4, h5⟩ := h.edge g l hl
        exact ⟨h1, a, b, a', b', h2, hk _ _ _ h3, hk _ _ _ h4, h5⟩
    face := by
      intro g l hl
      rw [upd2_ne _ _ _ (by omega)] at hl
      obtain ⟨h1, h2, h3⟩ := h.face g l hl
      refine ⟨h1, ?_, ?_⟩
      · show ∃ es, T3.fe l = some es; rw [n5]; exact h2
      · show Same _ _ (T3.view.edges l); rw [hed]; exact h3.mono fun _ _ => hk _ _ _
    region := by
      intro g l hl
      rw [upd2_ne _ _ _ (by omega)] at hl
      obtain ⟨h1, h2, h3⟩ := h.region g l hl
      refine ⟨h1, ?_, ?_⟩
      · show ∃ es, T3.rf l = some es; rw [n7]; exact h2
      · show Same _ _ (T3.view.faces l); rw [hfa]; exact h3.mono fun _ _ => hk _ _ _ }

/-- a face more -/
theorem Sub.addF {G N : FMesh D} {c : Nat → Nat → Option Nat} (h : Sub G N c) {f : Nat} (hc : c 2 f = none)
    (hf : f ∈ G.fl) (h32 : (G.T.view.edges f).length ≤ 32) {es : List (Nat × Bool)}
    (hes : Same (c 1) (G.T.view.edges f) es) :
    ∃ T2, N.T.mfNew.1.mfSetEdges N.T.nf es = .ok T2 ∧
      ∀ (fid : Nat → Int), Sub G ({ N with T := T2, fl := N.fl ++ [N.T.nf], fc := upd N.fc N.T.nf (G.fc f), fid := fid })
        (upd2 c 2 f (some N.T.nf)) := by
  obtain ⟨T3, s2, c3, n1, n2, n3, n4, n5, n6, n7, hv⟩ := newFace_edges h.cons (es := es)
    (by rw [← List.Forall₂.length_eq hes]; exact h32) (by
      intro p hp
      obtain ⟨i, hi⟩ := List.getElem?_of_mem hp
      have hil := (List.getElem?_eq_some_iff.1 hi).1
      have := (List.forall₂_iff_get.1 hes).2 i (by rw [List.Forall₂.length_eq hes]; exact hil) hil
      rw [List.get_eq_getElem, List.get_eq_getElem, (List.getElem?_eq_some_iff.1 hi).2] at this
      exact h.live1 this.1)
  refine ⟨T3, s2, ?_⟩
  intro fid
  generalize hN : ({ N with T := T3, fl := N.fl ++ [N.T.nf], fc := upd N.fc N.T.nf (G.fc f), fid := fid } : FMesh D) = N'
  have hu : N.T.sf N.T.nf = .unused := h.cons.newF _ (by omega)
  obtain ⟨hno, hli⟩ := h.fl.add hu
  have hk := Knows.add (l := N.T.nf) hc
  have hlist : N'.list = upd N.list 2 (N.list 2 ++ [N.T.nf]) := by
    funext k; subst hN; match k with
    | 0 => rfl
    | 1 => rfl
    | 2 => rfl
    | 3 => rfl
    | k+4 => rfl
  have hsv : T3.sv = N.T.sv := by have := congrArg Topo.View.sv hv; exact this
  have hse : T3.se = N.T.se := by have := congrArg Topo.View.se hv; exact this
  have hsf : T3.sf = upd N.T.sf N.T.nf .live := by have := congrArg Topo.View.sf hv; exact this
  have hsr : T3.sr = N.T.sr := by have := congrArg Topo.View.sr hv; exact this
  have hen : T3.view.ends = N.T.view.ends := by have := congrArg Topo.View.ends hv; exact this
  have hed : T3.view.edges = upd N.T.view.edges N.T.nf es := by have := congrArg Topo.View.edges hv; exact this
  have hfa : T3.view.faces = N.T.view.faces := by have := congrArg Topo.View.faces hv; exact this
  subst hN
  exact
  { cons := c3
    vl := by show Listed N.vl T3.sv; rw [hsv]; exact h.vl
    el := by show Listed N.el T3.se; rw [hse]; exact h.el
    fl := by show Listed (N.fl ++ [N.T.nf]) T3.sf; rw [hsf]; exact hli
    rl := by show Listed N.rl T3.sr; rw [hsr]; exact h.rl
    maps := by rw [hlist]; exact h.maps.add hc hf hno
    vertex := by
      intro g l hl
      rw [upd2_ne _ _ _ (by omega)] at hl
      exact h.vertex g l hl
    edge := by
      intro g l hl
      rw [upd2_ne _ _ _ (by omega)] at hl
      obtain ⟨h1, a, b, a', b', h2, h3, h4, h5⟩ := h.edge g l hl
      refine ⟨h1, a, b, a', b', h2, hk _ _ _ h3, hk _ _ _ h4, ?_⟩
      show T3.view.ends l = _; rw [hen]; exact h5
    face := by
      intro g l hl
      show upd _ _ _ _ = _ ∧ (∃ es, T3.fe l = some es) ∧ Same _ _ (T3.view.edges l)
      rw [hed]
      rcases upd2_some.1 hl with ⟨_, rfl, rfl⟩ | ⟨_, hl⟩
      · rw [upd_same, upd_same]
        exact ⟨rfl, n5, hes.mono fun _ _ => hk _ _ _⟩
      · have hne := ne_of_live hu (h.live2 hl)
        rw [upd_ne _ _ hne, upd_ne _ _ hne, n6 _ hne]
        obtain ⟨h1, h2, h3⟩ := h.face g l hl
        exact ⟨h1, h2, h3.mono fun _ _ => hk _ _ _⟩
    region := by
      intro g l hl
      rw [upd2_ne _ _ _ (by omega)] at hl
      obtain ⟨h1, h2, h3⟩ := h.region g l hl
      refine ⟨h1, ?_, ?_⟩
      · show ∃ es, T3.rf l = some es; rw [n7]; exact h2
      · show Same _ _ (T3.view.faces l); rw [hfa]; exact h3.mono fun _ _ => hk _ _ _ }

theorem Same.mem {c : Nat → Option Nat} {xs ys : List (Nat × Bool)} (h : Same c xs ys) {q : Nat × Bool} (hq : q ∈ ys) :
    ∃ p ∈ xs, c p.1 = some q.1 ∧ q.2 = p.2 := by
  induction h with
  | nil => cases hq
  | cons hp _ ih =>
    rcases List.mem_cons.1 hq with rfl | hq
    · exact ⟨_, by simp, hp⟩
    · obtain ⟨p, h1, h2⟩ := ih hq
      exact ⟨p, List.mem_cons_of_mem _ h1, h2⟩

theorem Same.mem' {c : Nat → Option Nat} {xs ys : List (Nat × Bool)} (h : Same c xs ys) {p : Nat × Bool} (hp : p ∈ xs) :
    ∃ q ∈ ys, c p.1 = some q.1 ∧ q.2 = p.2 := by
  induction h with
  | nil => cases hp
  | cons hq _ ih =>
    rcases List.mem_cons.1 hp with rfl | hp
    · exact ⟨_, by simp, hq⟩
    · obtain ⟨q, h1, h2⟩ := ih hp
      exact ⟨q, List.mem_cons_of_mem _ h1, h2⟩

theorem Same.nodup {c : Nat → Option Nat} (hc : ∀ g g' l, c g = some l → c g' = some l → g = g')
    {xs ys : List (Nat × Bool)} (h : Same c xs ys) (hn : (xs.map (·.1)).Nodup) : (ys.map (·.1)).Nodup := by
  induction h with
  | nil => exact List.nodup_nil
  | @cons p q xs ys hp hs ih =>
    rw [List.map_cons, List.nodup_cons] at hn ⊢
    refine ⟨?_, ih hn.2⟩
    intro hm
    obtain ⟨q', hq', he⟩ := List.mem_map.1 hm
    obtain ⟨p', hp', h1, _⟩ := Same.mem hs hq'
    refine hn.1 (List.mem_map.2 ⟨p', hp', ?_⟩)
    refine hc _ _ _ h1 ?_
    rw [he]; exact hp.1

/-- a region more -/
theorem Sub.addR {G N : FMesh D} (hG : G.Sound) {c : Nat → Nat → Option Nat} (h : Sub G N c) {r : Nat}
    (hc : c 3 r = none) (hr : r ∈ G.rl) {fs : List (Nat × Bool)} (hfs : Same (c 2) (G.T.view.faces r) fs) :
    ∃ T2, N.T.mrNew.1.mrSetFaces N.T.nr fs = .ok T2 ∧
      ∀ (rid : Nat → Int), Sub G ({ N with T := T2, rl := N.rl ++ [N.T.nr], rc := upd N.rc N.T.nr (G.rc r), rid := rid })
        (upd2 c 3 r (some N.T.nr)) := by
  obtain ⟨T3, s2, c3, n1, n2, n3, n4, n5, n6, n7, hv⟩ := newRegion_faces h.cons (fs := fs)
    (hfs.nodup (h.maps.inj 2) (facesOf_length hG hr).1)
    (by
      intro q hq
      obtain ⟨p, hp, h1, h2⟩ := hfs.mem hq
      have hlive := h.live2 h1
      refine ⟨hlive, ?_⟩
      cases hend : Topo.endAt (N.T.fr q.1) (!q.2) with
      | none => rfl
      | some z =>
        exfalso
        obtain ⟨hs, hms⟩ := (h.cons.fr.mem _ (Topo.alloc_of_live hlive) z q.2).1 hend
        obtain ⟨g, hg⟩ := h.maps.all 3 z ((h.rl.2 z).2 hs)
        obtain ⟨_, _, hfz⟩ := h.region g z hg
        obtain ⟨p', hp', h3, h4⟩ := hfz.mem hms
        have hpp : p'.1 = p.1 := h.maps.inj 2 _ _ _ h3 h1
        have hpe : p' = p := Prod.ext hpp (by rw [← h4, ← h2])
        rw [hpe] at hp'
        have hgl := (h.maps.dom 3 g z hg).2
        have hfl := (hG.fl.2 _).1 (hG.facesLive hr hp)
        have a1 := (hG.cons.fr.mem p.1 (Topo.alloc_of_live hfl) r p.2).2 ⟨(hG.rl.2 _).1 hr, hp⟩
        have a2 := (hG.cons.fr.mem p.1 (Topo.alloc_of_live hfl) g p.2).2 ⟨(hG.rl.2 _).1 hgl, hp'⟩
        have : r = g := Option.some.inj (a1.symm.trans a2)
        rw [this, hg] at hc; cases hc)
    (by
      intro x hx
      obtain ⟨q, hq, rfl⟩ := List.mem_map.1 hx
      obtain ⟨p, hp, h1, h2⟩ := hfs.mem hq
      exact (h.face _ _ h1).2.1)
  refine ⟨T3, s2, ?_⟩
  intro rid
  generalize hN : ({ N with T := T3, rl := N.rl ++ [N.T.nr], rc := upd N.rc N.T.nr (G.rc r), rid := rid } : FMesh D) = N'
  have hu : N.T.sr N.T.nr = .unused := h.cons.newR _ (by omega)
  obtain ⟨hno, hli⟩ := h.rl.add hu
  have hk := Knows.add (l := N.T.nr) hc
  have hlist : N'.list = upd N.list 3 (N.list 3 ++ [N.T.nr]) := by
    funext k; subst hN; match k with
    | 0 => rfl
    | 1 => rfl
    | 2 => rfl
    | 3 => rfl
    | k+4 => rfl
  have hsv : T3.sv = N.T.sv := by have := congrArg Topo.View.sv hv; exact this
  have hse : T3.se = N.T.se := by have := congrArg Topo.View.se hv; exact this
  have hsf : T3.sf = N.T.sf := by have := congrArg Topo.View.sf hv; exact this
  have hsr : T3.sr = upd N.T.sr N.T.nr .live := by have := congrArg Topo.View.sr hv; exact this
  have hen : T3.view.ends = N.T.view.ends := by have := congrArg Topo.View.ends hv; exact this
  have hed : T3.view.edges = N.T.view.edges := by have := congrArg Topo.View.edges hv; exact this
  have hfa : T3.view.faces = upd N.T.view.faces N.T.nr fs := by have := congrArg Topo.View.faces hv; exact this
  subst hN
  exact
  { cons := c3
    vl := by show Listed N.vl T3.sv; rw [hsv]; exact h.vl
    el := by show Listed N.el T3.se; rw [hse]; exact h.el
    fl := by show Listed N.fl T3.sf; rw [hsf]; exact h.fl
    rl := by show Listed (N.rl ++ [N.T.nr]) T3.sr; rw [hsr]; exact hli
    maps := by rw [hlist]; exact h.maps.add hc hr hno
    vertex := by
      intro g l hl
      rw [upd2_ne _ _ _ (by omega)] at hl
      exact h.vertex g l hl
    edge := by
      intro g l hl
      rw [upd2_ne _ _ _ (by omega)] at hl
      obtain ⟨h1, a, b, a', b', h2, h3, h4, h5⟩ := h.edge g l hl
      refine ⟨h1, a, b, a', b', h2, hk _ _ _ h3, hk _ _ _ h4, ?_⟩
      show T3.view.ends l = _; rw [hen]; exact h5
    face := by
      intro g l hl
      rw [upd2_ne _ _ _ (by omega)] at hl
      obtain ⟨h1, h2, h3⟩ := h.face g l hl
      refine ⟨h1, ?_, ?_⟩
      · show ∃ es, T3.fe l = some es; rw [n5]; exact h2
      · show Same _ _ (T3.view.edges l); rw [hed]; exact h3.mono fun _ _ => hk _ _ _
    region := by
      intro g l hl
      show upd _ _ _ _ = _ ∧ (∃ es, T3.rf l = some es) ∧ Same _ _ (T3.view.faces l)
      rw [hfa]
      rcases upd2_some.1 hl with ⟨_, rfl, rfl⟩ | ⟨_, hl⟩
      · rw [upd_same, upd_same]
        exact ⟨rfl, n6, hfs.mono fun _ _ => hk _ _ _⟩
      · have hne := ne_of_live hu (h.live3 hl)
        rw [upd_ne _ _ hne, upd_ne _ _ hne, n7 _ hne]
        obtain ⟨h1, h2, h3⟩ := h.region g l hl
        exact ⟨h1, h2, h3.mono fun _ _ => hk _ _ _⟩ }

end Prt
end MSTK
