import Verif.AddGhostOut

/-!
# Layers of ghosts

`MESH_AddGhost` adds to a piece of a mesh the elements of the mesh that are around it, layer by layer, and
notes of every entity whether it is a ghost, is a ghost elsewhere, or neither.
-/
namespace MSTK
namespace Prt
open File Copy

variable {D : Type}

/-! ### specification -/

/-- the elements that are not in `sel` -/
def Rest (G : FMesh D) (K : Nat) (sel : Nat → Prop) (x : Nat) : Prop := x ∈ G.list K ∧ ¬ sel x

/-- Piece `p` is what `has` says; "Local2Global" leads from it to the mesh and the lists "Global2Local"
lead back. -/
structure Linked (S : CMesh D) (p : Nat) (s : PSt D) (has : Nat → Nat → Prop) : Prop where
  piece : PieceOf S.F (s.sub p).F (s.l2g p) has
  down : ∀ k g l, (p, l) ∈ s.g2l k g ↔ s.l2g p k l = some g

/-- The boundary of the piece made of `sel` is flagged, and nothing has a parallel type yet. -/
def Bounded (S : CMesh D) (K p : Nat) (sel : Nat → Prop) (s : PSt D) : Prop :=
  ∀ k l g, s.l2g p k l = some g →
    (((s.sub p).par k l).onPB = true ↔ Of S.F K (fun x => ¬ sel x) k g) ∧ ((s.sub p).par k l).ptype = 0

/-- What the data of the entities of piece `p` are after `ring` layers of ghosts have been added to the
piece made of `sel`; `s` is the state before, `s'` the state after. -/
structure Ghosts (S : CMesh D) (K p ring : Nat) (sel : Nat → Prop) (s s' : PSt D) : Prop where
  /-- what was not there is a ghost, with owner and global ID as in the mesh -/
  ghost : ∀ k l g, s'.l2g p k l = some g → ¬ Of S.F K sel k g →
    (s'.sub p).par k l = ⟨3, (s.gp k g).master, (s.gp k g).gid, false⟩
  /-- what was there is where it was, and only its type is changed -/
  old : ∀ k l g, s'.l2g p k l = some g → Of S.F K sel k g → s.l2g p k l = some g ∧
    ((s'.sub p).par k l).master = ((s.sub p).par k l).master ∧ ((s'.sub p).par k l).gid = ((s.sub p).par k l).gid ∧
    ((s'.sub p).par k l).onPB = ((s.sub p).par k l).onPB
  /-- what another part has too is overlap if the piece owns it, and a ghost if not -/
  shared : ∀ k l g, s'.l2g p k l = some g → Of S.F K sel k g → Of S.F K (fun x => ¬ sel x) k g →
    ((s'.sub p).par k l).ptype = if ((s.sub p).par k l).master = p then 1 else 3
  /-- what is in elements of the piece only is overlap when it is within `ring` layers of another part -/
  near : ∀ k l g, s'.l2g p k l = some g → Of S.F K sel k g → ¬ Of S.F K (fun x => ¬ sel x) k g →
    (Of S.F K (fun x => sel x ∧ Grow S.F K (Rest S.F K sel) ring x) k g → ((s'.sub p).par k l).ptype = 1) ∧
    (¬ Of S.F K (fun x => sel x ∧ Grow S.F K (Rest S.F K sel) ring x) k g → ((s'.sub p).par k l).ptype = 0)

/-- Nothing but piece `p` and the lists of copies in `p` is changed. -/
structure Alone (p : Nat) (s s' : PSt D) : Prop where
  gp : s'.gp = s.gp
  sub : ∀ q, q ≠ p → s'.sub q = s.sub q
  l2g : ∀ q, q ≠ p → s'.l2g q = s.l2g q
  g2l : ∀ q, q ≠ p → ∀ k g l, (q, l) ∈ s'.g2l k g ↔ (q, l) ∈ s.g2l k g

/-! ### a piece while it grows -/

theorem found_mem {s : PSt D} {p k g l : Nat} (h : s.found p k g = some l) : (p, l) ∈ s.g2l k g := by
  unfold PSt.found at h
  rw [Option.map_eq_some_iff] at h
  obtain ⟨q, h1, h2⟩ := h
  have h3 := List.find?_some h1
  have h4 := List.mem_of_find?_eq_some h1
  have h5 : q.1 = p := by simpa using h3
  have : q = (p, l) := Prod.ext h5 h2
  rw [← this]; exact h4

theorem mem_found {s : PSt D} {p k g l : Nat} (h : (p, l) ∈ s.g2l k g) : ∃ l', s.found p k g = some l' := by
  rw [← Option.ne_none_iff_exists']
  unfold PSt.found
  intro hn
  rw [Option.map_eq_none_iff, List.find?_eq_none] at hn
  exact hn _ h (by simp)

theorem Linked.found {S : CMesh D} {p : Nat} {s : PSt D} {has : Nat → Nat → Prop} (h : Linked S p s has) (k g l : Nat) :
    s.found p k g = some l ↔ s.l2g p k l = some g := by
  constructor
  · exact fun hf => (h.down k g l).1 (found_mem hf)
  · intro hu
    obtain ⟨l', hl'⟩ := mem_found ((h.down k g l).2 hu)
    rw [hl', h.piece.once k l' l g ((h.down k g l').1 (found_mem hl')) hu]

theorem Linked.toSub {S : CMesh D} {p : Nat} {s : PSt D} {has : Nat → Nat → Prop} (hS : S.F.Sound) (h : Linked S p s has) :
    Sub S.F (s.sub p).F (s.found p) := by
  have hp := h.piece
  have hL := hp.sound
  have hf := h.found
  have same : ∀ {k : Nat} {xs ys : List (Nat × Bool)},
      List.Forall₂ (fun p' q => s.l2g p k p'.1 = some q.1 ∧ p'.2 = q.2) ys xs → Same (s.found p k) xs ys := by
    intro k xs ys h
    exact List.Forall₂.flip (List.Forall₂.imp (fun a b hab => ⟨(hf k b.1 a.1).2 hab.1, hab.2⟩) h)
  exact
  { cons := hL.cons
    vl := hL.vl
    el := hL.el
    fl := hL.fl
    rl := hL.rl
    maps :=
      { dom := fun k g l hl => by
          have hu := (hf k g l).1 hl
          have hm := hp.only k l g hu
          exact ⟨hm, (hp.mem hm hu).1⟩
        inj := fun k g g' l h1 h2 => by
          have h1 := (hf k g l).1 h1
          rw [(hf k g' l).1 h2] at h1
          injection h1 with h1; exact h1.symm
        all := fun k l hl => by
          obtain ⟨g, _, hu, _⟩ := hp.from_has k l hl
          exact ⟨g, (hf k g l).2 hu⟩ }
    vertex := fun g l hl => hp.vertex l g ((hf 0 g l).1 hl)
    edge := fun g l hl => by
      have hu := (hf 1 g l).1 hl
      obtain ⟨h1, a, b, h2, h3⟩ := hp.edge l g hu
      obtain ⟨a0, b0, hab⟩ := hS.ends g (hp.mem (hp.only 1 l g hu) hu).1
      rw [hab] at h3
      simp only [Prod.mk.injEq] at h3
      exact ⟨h1, a0, b0, a, b, hab, (hf 0 a0 a).2 h3.1.symm, (hf 0 b0 b).2 h3.2.symm, h2⟩
    face := fun g l hl => by
      have hu := (hf 2 g l).1 hl
      obtain ⟨h1, h2⟩ := hp.face l g hu
      exact ⟨h1, (hL.edges l (hp.only 2 l g hu)).1, same h2⟩
    region := fun g l hl => by
      have hu := (hf 3 g l).1 hl
      obtain ⟨h1, h2⟩ := hp.region l g hu
      exact ⟨h1, hL.faces l (hp.only 3 l g hu), same h2⟩ }

/-- What is known of links and data while ghosts are made, from `s0` on. -/
structure Made (p : Nat) (s0 t : PSt D) : Prop where
  gp : t.gp = s0.gp
  knows : Knows (s0.found p) (t.found p)
  up : ∀ k g l, t.l2g p k l = some g ↔ t.found p k g = some l
  lists : ∀ k g l, (p, l) ∈ t.g2l k g ↔ t.found p k g = some l
  others : ∀ q, q ≠ p → ∀ k g l, (q, l) ∈ t.g2l k g ↔ (q, l) ∈ s0.g2l k g
  old : ∀ k g l, s0.found p k g = some l → (t.sub p).par k l = (s0.sub p).par k l
  new : ∀ k g l, t.found p k g = some l → s0.found p k g = none →
    (t.sub p).par k l = ⟨3, (s0.gp k g).master, (s0.gp k g).gid, false⟩

theorem made_links {G : FMesh D} {p : Nat} {s0 s' : PSt D} (h : Links ghost G p s0 s') (h0 : Made p s0 s0) : Made p s0 s' := by
  refine h.keeps (P := Made p s0) ?_ h0
  intro t k g l N ht hc hg hl hN
  have hpar : ((t.link ghost p k g l N).sub p).par = upd2 (t.sub p).par k l ⟨3, (t.gp k g).master, (t.gp k g).gid, false⟩ := by
    unfold PSt.link; simp only [upd_same]; rw [hN]; rfl
  have hup : (t.link ghost p k g l N).l2g p = upd2 (t.l2g p) k l (some g) := by
    unfold PSt.link; simp only [upd_same]
  have hg2 : (t.link ghost p k g l N).g2l = upd2 t.g2l k g (t.g2l k g ++ [(p, l)]) := rfl
  refine ⟨?_, ?_, ?_, ?_, ?_, ?_, ?_⟩
  · show upd2 t.gp k g (t.gp k g) = s0.gp
    rw [← ht.gp]
    funext k' g'
    rw [upd2_at]
    split
    · next h => rw [h.1, h.2]
    · rfl
  · rw [found_link hc]; exact ht.knows.trans (Knows.add hc)
  · intro k' g' l'
    rw [hup, found_link hc, upd2_some, upd2_some, ht.up]
    constructor
    · rintro (⟨rfl, rfl, rfl⟩ | ⟨h1, h2⟩)
      · exact Or.inl ⟨rfl, rfl, rfl⟩
      · refine Or.inr ⟨?_, h2⟩
        rintro ⟨rfl, rfl⟩
        rw [hc] at h2; cases h2
    · rintro (⟨rfl, rfl, rfl⟩ | ⟨h1, h2⟩)
      · exact Or.inl ⟨rfl, rfl, rfl⟩
      · refine Or.inr ⟨?_, h2⟩
        rintro ⟨rfl, rfl⟩
        exact hl _ h2
  · intro k' g' l'
    rw [hg2, found_link hc, upd2_some, upd2_at]
    by_cases he : k' = k ∧ g' = g
    · rw [if_pos he]
      obtain ⟨rfl, rfl⟩ := he
      rw [List.mem_append, List.mem_singleton, ht.lists, hc]
      simp
    · rw [if_neg he, ht.lists]
      constructor
      · exact fun h => Or.inr ⟨he, h⟩
      · rintro (⟨h1, h2, _⟩ | h)
        · exact absurd ⟨h1, h2⟩ he
        · exact h.2
  · intro q hq k' g' l'
    rw [hg2, ← ht.others q hq, upd2_at]
    by_cases he : k' = k ∧ g' = g
    · rw [if_pos he]
      obtain ⟨rfl, rfl⟩ := he
      rw [List.mem_append, List.mem_singleton, Prod.mk.injEq]
      simp [hq]
    · rw [if_neg he]
  · intro k' g' l' h'
    rw [hpar, upd2_at, if_neg, ht.old k' g' l' h']
    rintro ⟨rfl, rfl⟩
    exact hl _ (ht.knows _ _ _ h')
  · intro k' g' l' h1 h2
    rw [found_link hc] at h1
    rw [hpar, upd2_at]
    rcases upd2_some.1 h1 with ⟨rfl, rfl, rfl⟩ | ⟨_, h3⟩
    · rw [if_pos ⟨rfl, rfl⟩, ht.gp]
    · rw [if_neg, ht.new k' g' l' h3 h2]
      rintro ⟨rfl, rfl⟩
      exact hl _ h3

/-! ### the piece and its originals -/

section
variable {G L : FMesh D} {up : Nat → Nat → Option Nat} {K : Nat} {has : Nat → Nat → Prop}

theorem ofElem_up (h : PieceOf G L up has) (hK : K = 2 ∨ K = 3) {x' x k l g : Nat} (hx : up K x' = some x)
    (hl : up k l = some g) : OfElem L K x' k l ↔ OfElem G K x k g := by
  unfold OfElem
  rcases hK with rfl | rfl
  · rw [if_neg (by omega), if_neg (by omega)]; exact ofFace_up h hx hl
  · rw [if_pos rfl, if_pos rfl]
    unfold OfRegion
    have hfa := (h.region x' x hx).2
    constructor
    · rintro (⟨rfl, rfl⟩ | ⟨p, hp, ho⟩)
      · rw [hx] at hl; injection hl with hl; exact Or.inl ⟨rfl, hl.symm⟩
      · obtain ⟨q, hq, m, _⟩ := forall₂_left hfa p hp
        exact Or.inr ⟨q, hq, (ofFace_up h m hl).1 ho⟩
    · rintro (⟨rfl, rfl⟩ | ⟨q, hq, ho⟩)
      · exact Or.inl ⟨rfl, h.once 3 _ _ _ hl hx⟩
      · obtain ⟨p, hp, m, _⟩ := forall₂_right hfa q hq
        exact Or.inr ⟨p, hp, (ofFace_up h m hl).2 ho⟩

theorem Grow.mono {sel sel' : Nat → Prop} (h : ∀ x, sel x → sel' x) : ∀ {n x : Nat}, Grow G K sel n x → Grow G K sel' n x
  | 0, _, hx => h _ hx
  | _+1, _, hx => by
    rcases hx with hx | ⟨h1, y, h2, h3⟩
    · exact Or.inl (Grow.mono h hx)
    · exact Or.inr ⟨h1, y, Grow.mono h h2, h3⟩

theorem Grow.base {sel : Nat → Prop} {x : Nat} (h : sel x) : ∀ n : Nat, Grow G K sel n x
  | 0 => h
  | n+1 => Or.inl (Grow.base h n)

variable {sel : Nat → Prop}

/-- the layers inside the piece -/
theorem inward_grow (hG : G.Sound) (h : PieceOf G L up (Of G K sel)) (hK : K = 2 ∨ K = 3)
    (hsel : ∀ x, sel x → x ∈ G.list K) {B : Nat → Prop}
    (hB : ∀ v g, up 0 v = some g → (B v ↔ Of G K (fun x => ¬ sel x) 0 g)) (hBv : ∀ v, B v → v ∈ L.vl) :
    ∀ (n : Nat) {x' x : Nat}, up K x' = some x → (Inward L K B n x' ↔ sel x ∧ Grow G K (Rest G K sel) n x)
  | 0, x', x, _ => by
    constructor
    · exact fun h => h.elim
    · rintro ⟨h1, h2⟩; exact absurd h1 h2.2
  | n+1, x', x, hx => by
    have ih := inward_grow hG h hK hsel hB hBv n hx
    have hx' := h.only K x' x hx
    have hsx : sel x := by
      have := h.mem hx' hx
      exact (of_same hK this.1).1 this.2
    constructor
    · rintro (h1 | ⟨_, v, ho, hv⟩)
      · exact ⟨hsx, Or.inl (ih.1 h1).2⟩
      · refine ⟨hsx, Or.inr ⟨hsel x hsx, ?_⟩⟩
        have hvl := elem_vertex_in h.sound hK hx' ho
        obtain ⟨w, _, hw, _⟩ := h.from_has 0 v hvl
        have how := (ofElem_up h hK hx hw).1 ho
        rcases hv with hv | ⟨y', hy', hoy⟩
        · obtain ⟨y, hy, hns, hoy⟩ := (hB v w hw).1 hv
          exact ⟨y, Grow.base (⟨hy, hns⟩ : Rest G K sel y) n, w, how, hoy⟩
        · obtain ⟨y, _, hy, _⟩ := h.from_has K y' hy'.elem
          exact ⟨y, ((inward_grow hG h hK hsel hB hBv n hy).1 hy').2, w, how, (ofElem_up h hK hy hw).1 hoy⟩
    · rintro ⟨_, h1 | ⟨_, y, hy, w, how, hoy⟩⟩
      · exact Or.inl (ih.2 ⟨hsx, h1⟩)
      · refine Or.inr ⟨hx', ?_⟩
        obtain ⟨v, hv, hvw⟩ := h.all 0 w ⟨x, hsel x hsx, hsx, how⟩
        refine ⟨v, (ofElem_up h hK hx hvw).2 how, ?_⟩
        by_cases hsy : sel y
        · right
          obtain ⟨y', hy', hyy⟩ := h.all K y ((of_same hK (hsel y hsy)).2 hsy)
          exact ⟨y', (inward_grow hG h hK hsel hB hBv n hyy).2 ⟨hsy, hy⟩, (ofElem_up h hK hyy hvw).2 hoy⟩
        · left
          exact (hB v w hvw).2 ⟨y, Grow.elem (fun x hx => hx.1) hy, hsy, hoy⟩

end

theorem originals_ok {up : Nat → Option Nat} : ∀ (ls : List Nat), (∀ l ∈ ls, ∃ g, up l = some g) →
    ∃ gs, originals up ls = .ok gs ∧ ∀ g, g ∈ gs ↔ ∃ l ∈ ls, up l = some g
  | [], _ => ⟨[], rfl, fun g => by simp⟩
  | l :: ls, h => by
    obtain ⟨g, hg⟩ := h l (by simp)
    obtain ⟨gs, r, hgs⟩ := originals_ok ls fun x hx => h x (List.mem_cons_of_mem _ hx)
    refine ⟨g :: gs, ?_, fun x => ?_⟩
    · unfold originals
      rw [hg, Res.ofOption_some, Res.bind_ok, r]; rfl
    · rw [List.mem_cons, hgs]
      constructor
      · rintro (rfl | ⟨y, h1, h2⟩)
        · exact ⟨l, by simp, hg⟩
        · exact ⟨y, List.mem_cons_of_mem _ h1, h2⟩
      · rintro ⟨y, h1, h2⟩
        rcases List.mem_cons.1 h1 with rfl | h1
        · rw [hg] at h2; injection h2 with h2; exact Or.inl h2.symm
        · exact Or.inr ⟨y, h1, h2⟩

/-! ### the types of flagged entities -/

/-- the data of a flagged entity -/
def settle (p : Nat) (d : PDat) : PDat := { d with ptype := if d.master = p then 1 else 3 }

theorem bound_fold {p k : Nat} : ∀ (xs : List Nat) (par : Nat → Nat → PDat) (k' l' : Nat),
    (xs.foldl (fun par l => bound p par k l) par) k' l' =
      if k' = k ∧ l' ∈ xs ∧ (par k' l').onPB = true then settle p (par k' l') else par k' l'
  | [], par, k', l' => by simp
  | x :: xs, par, k', l' => by
    rw [List.foldl_cons, bound_fold xs]
    have hb : (bound p par k x) k' l' = if (k' = k ∧ l' = x) ∧ (par k' l').onPB = true then settle p (par k' l') else par k' l' := by
      unfold bound
      by_cases h1 : (par k x).onPB = true
      · rw [if_pos h1, upd2_at]
        by_cases h2 : k' = k ∧ l' = x
        · obtain ⟨rfl, rfl⟩ := h2
          simp [h1, settle]
        · rw [if_neg h2, if_neg (fun h => h2 h.1)]
      · rw [if_neg h1]
        by_cases h2 : k' = k ∧ l' = x
        · obtain ⟨rfl, rfl⟩ := h2
          rw [if_neg (fun h => h1 h.2)]
        · rw [if_neg (fun h => h2 h.1)]
    rw [hb]
    by_cases h3 : (k' = k ∧ l' = x) ∧ (par k' l').onPB = true
    · rw [if_pos h3]
      obtain ⟨⟨rfl, rfl⟩, h4⟩ := h3
      have h5 : (settle p (par k' l')).onPB = true := h4
      rw [h5, h4]
      simp only [List.mem_cons, true_or, true_and, and_true, if_true]
      by_cases h6 : l' ∈ xs
      · rw [if_pos h6]; rfl
      · rw [if_neg h6]
    · rw [if_neg h3]
      by_cases h4 : k' = k ∧ l' ∈ xs ∧ (par k' l').onPB = true
      · rw [if_pos h4, if_pos ⟨h4.1, List.mem_cons_of_mem _ h4.2.1, h4.2.2⟩]
      · rw [if_neg h4, if_neg]
        rintro ⟨h5, h6, h7⟩
        rcases List.mem_cons.1 h6 with rfl | h6
        · exact h3 ⟨⟨h5, rfl⟩, h7⟩
        · exact h4 ⟨h5, h6, h7⟩

theorem bounds_par {p : Nat} {vol : Bool} {N : CMesh D} (k l : Nat) :
    (bounds p vol N).par k l =
      if ((k < 2 ∨ (k = 2 ∧ vol = true)) ∧ l ∈ N.F.list k) ∧ (N.par k l).onPB = true then settle p (N.par k l) else N.par k l := by
  unfold bounds
  simp only
  have pass : ∀ (a : Nat → Nat → PDat) (j : Nat) (xs : List Nat), ¬ k = j →
      (xs.foldl (fun par l => bound p par j l) a) k l = a k l := by
    intro a j xs h
    rw [bound_fold, if_neg (fun h' => h h'.1)]
  have last : (if vol = true then N.F.fl.foldl (fun par l => bound p par 2 l)
        (N.F.el.foldl (fun par l => bound p par 1 l) (N.F.vl.foldl (fun par l => bound p par 0 l) N.par))
      else N.F.el.foldl (fun par l => bound p par 1 l) (N.F.vl.foldl (fun par l => bound p par 0 l) N.par)) k l =
      if (k = 2 ∧ vol = true) ∧ l ∈ N.F.fl ∧
          ((N.F.el.foldl (fun par l => bound p par 1 l) (N.F.vl.foldl (fun par l => bound p par 0 l) N.par)) k l).onPB = true
        then settle p ((N.F.el.foldl (fun par l => bound p par 1 l) (N.F.vl.foldl (fun par l => bound p par 0 l) N.par)) k l)
        else (N.F.el.foldl (fun par l => bound p par 1 l) (N.F.vl.foldl (fun par l => bound p par 0 l) N.par)) k l := by
    cases vol with
    | false => simp
    | true => rw [if_pos rfl, bound_fold]; simp
  rw [last]
  match k, pass with
  | 0, pass =>
    rw [if_neg (by omega), pass _ 1 _ (by omega), bound_fold]
    simp [FMesh.list]
  | 1, pass =>
    rw [if_neg (by omega), bound_fold, pass _ 0 _ (by omega)]
    simp [FMesh.list]
  | 2, pass =>
    rw [pass _ 1 _ (by omega), pass _ 0 _ (by omega)]
    simp [FMesh.list, and_assoc]
  | k+3, pass =>
    rw [pass _ 1 _ (by omega), pass _ 0 _ (by omega), if_neg (by omega), if_neg (by omega)]

/-! ### adding ghosts to a piece -/

/-- what a layer of data may be before the flagged entities are settled -/
theorem layers_ok {S : CMesh D} (hS : S.F.Sound) {K : Nat} (hK : K = 2 ∨ K = 3)
    (h30 : ∀ f ∈ S.F.fl, (S.F.T.view.edges f).length ≤ 30) (h512 : ∀ r ∈ S.F.rl, (S.F.T.view.faces r).length ≤ 512)
    {sel : Nat → Prop} (hsel : ∀ x, sel x → x ∈ S.F.list K) {p : Nat} {s : PSt D} (h : Linked S p s (Of S.F K sel))
    (hso : Somewhere S.F s) (hb : Bounded S K p sel s) (ring : Nat) :
    ∃ s', addLayers S K p ring s = .ok s' ∧ Linked S p s' (Of S.F K (Grow S.F K sel ring)) ∧ Alone p s s' ∧ Somewhere S.F s' ∧
      Knows (s.found p) (s'.found p) ∧
      (∀ k l g, s'.l2g p k l = some g → ¬ Of S.F K sel k g →
        (s'.sub p).par k l = ⟨3, (s.gp k g).master, (s.gp k g).gid, false⟩) ∧
      (∀ k l g, s.l2g p k l = some g →
        ((¬ Of S.F K (fun x => ¬ sel x) k g ∧ Of S.F K (fun x => sel x ∧ Grow S.F K (Rest S.F K sel) ring x) k g) →
          (s'.sub p).par k l = asOver ((s.sub p).par k l)) ∧
        (¬ (¬ Of S.F K (fun x => ¬ sel x) k g ∧ Of S.F K (fun x => sel x ∧ Grow S.F K (Rest S.F K sel) ring x) k g) →
          (s'.sub p).par k l = (s.sub p).par k l)) := by
  have hp := h.piece
  have hL := hp.sound
  have hfl : ∀ k l g, s.l2g p k l = some g → (((s.sub p).par k l).onPB = true ↔ Of S.F K (fun x => ¬ sel x) k g) :=
    fun k l g hu => (hb k l g hu).1
  obtain ⟨xs, rx, hxs⟩ := originals_ok (up := s.l2g p K) ((s.sub p).F.list K) fun l hl => by
    obtain ⟨g, _, hu, _⟩ := hp.from_has K l hl; exact ⟨g, hu⟩
  generalize hbv : ((s.sub p).F.vl.filter fun v => ((s.sub p).par 0 v).onPB) = bv
  have mbv : ∀ v, v ∈ bv ↔ v ∈ (s.sub p).F.vl ∧ ((s.sub p).par 0 v).onPB = true := by
    intro v; rw [← hbv, List.mem_filter]
  obtain ⟨gb, rg, hgb⟩ := originals_ok (up := s.l2g p 0) bv fun l hl => by
    obtain ⟨g, _, hu, _⟩ := hp.from_has 0 l ((mbv l).1 hl).1; exact ⟨g, hu⟩
  -- inside
  have hz : ∀ x ∈ (s.sub p).F.list K, ((s.sub p).par K x).onPB = false := by
    intro x hx
    obtain ⟨g, hg, hu, ho⟩ := hp.from_has K x hx
    by_contra hc
    have hc : ((s.sub p).par K x).onPB = true := by simpa using hc
    have h1 := (hfl K x g hu).1 hc
    rw [of_same hK hg] at h1 ho
    exact h1 ho
  have hne : ∀ v ∈ (s.sub p).F.vl, ((s.sub p).par 0 v).onPB = true → ∃ x ∈ (s.sub p).F.list K, OfElem (s.sub p).F K x 0 v := by
    intro v hv _
    obtain ⟨g, _, hu, x, hx, hs, ho⟩ := hp.from_has 0 v hv
    obtain ⟨x', hx', hux⟩ := hp.all K x ((of_same hK hx).2 hs)
    exact ⟨x', hx', (ofElem_up hp hK hux hu).2 ho⟩
  obtain ⟨t1, r1, o1⟩ := ovRings_ok (P0 := (s.sub p).par) hL hK hz hne (B := fun v => v ∈ bv) mbv ring 0 bv
    { par := (s.sub p).par, em := fun _ => false, vm := fun v => decide (v ∈ bv), nxt := [] }
    (fun v hv => Or.inl hv)
    (fun v hv => by
      rcases hv with hv | ⟨_, hx, _⟩
      · exact Or.inl hv
      · exact hx.elim)
    (fun x => Iff.intro (fun h => nomatch h) (fun h => h.elim))
    (fun v => by simp)
    (fun k l => ⟨by rintro ⟨⟨_, h, _⟩, _⟩; exact h.elim, fun _ => rfl⟩)
  rw [Nat.zero_add] at o1
  have hin : ∀ k l g, s.l2g p k l = some g → ((∃ x, Inward (s.sub p).F K (fun v => v ∈ bv) ring x ∧ OfElem (s.sub p).F K x k l) ↔
      Of S.F K (fun x => sel x ∧ Grow S.F K (Rest S.F K sel) ring x) k g) := by
    have key := fun {x' x : Nat} => inward_grow (x' := x') (x := x) hS hp hK hsel (B := fun v => v ∈ bv)
      (fun v g hu => by
        show v ∈ bv ↔ _
        rw [mbv, ← hfl 0 v g hu]
        exact ⟨fun h => h.2, fun h => ⟨hp.only 0 v g hu, h⟩⟩)
      (fun v hv => ((mbv v).1 hv).1) ring
    intro k l g hu
    constructor
    · rintro ⟨x', hx', ho⟩
      obtain ⟨x, hx, hux, _⟩ := hp.from_has K x' hx'.elem
      exact ⟨x, hx, (key hux).1 hx', (ofElem_up hp hK hux hu).1 ho⟩
    · rintro ⟨x, hx, hc, ho⟩
      obtain ⟨x', hx', hux⟩ := hp.all K x ((of_same hK hx).2 hc.1)
      exact ⟨x', (key hux).2 hc, (ofElem_up hp hK hux hu).2 ho⟩
  -- the state in between
  generalize hs1 : ({ s with sub := upd s.sub p { s.sub p with par := t1.par } } : PSt D) = s1
  have e1 : s1.sub p = { s.sub p with par := t1.par } := by rw [← hs1]; exact upd_same _ _ _
  have e2 : ∀ q, q ≠ p → s1.sub q = s.sub q := fun q hq => by rw [← hs1]; exact upd_ne _ _ hq
  have e3 : s1.found p = s.found p := by rw [← hs1]; rfl
  have e4 : s1.l2g = s.l2g := by rw [← hs1]
  have e5 : s1.g2l = s.g2l := by rw [← hs1]
  have e6 : s1.gp = s.gp := by rw [← hs1]
  have hsub : Sub S.F (s1.sub p).F (s1.found p) := by rw [e1, e3]; exact h.toSub hS
  have hdom : ∀ k g, s.found p k g ≠ none ↔ ∃ x, sel x ∧ OfElem S.F K x k g := by
    intro k g
    rw [Option.ne_none_iff_exists']
    constructor
    · rintro ⟨l, hl⟩
      have hu := (h.found k g l).1 hl
      obtain ⟨_, x, _, h1, h2⟩ := hp.mem (hp.only k l g hu) hu
      exact ⟨x, h1, h2⟩
    · rintro ⟨x, h1, h2⟩
      obtain ⟨l, _, hu⟩ := hp.all k g ⟨x, hsel x h1, h1, h2⟩
      exact ⟨l, (h.found k g l).2 hu⟩
  -- outside
  obtain ⟨t2, r2, k2, u2, d2⟩ := ghostRings_ok hS h30 h512 hK hsel ring 0 gb
    ({ s := s1, em := fun x => decide (x ∈ xs), gm := fun v => decide (v ∈ gb), nxt := [] } : GSt D)
    (fun v hv => by
      obtain ⟨l, hl, hu⟩ := (hgb v).1 hv
      obtain ⟨_, x, _, h1, h2⟩ := hp.mem (hp.only 0 l v hu) hu
      exact ⟨x, h1, h2⟩)
    (fun v hv => by
      obtain ⟨x, hx, ho⟩ := hv
      by_cases hc : Of S.F K (fun x => ¬ sel x) 0 v
      · left
        obtain ⟨l, hl, hu⟩ := hp.all 0 v ⟨x, hsel x hx, hx, ho⟩
        exact (hgb v).2 ⟨l, (mbv l).2 ⟨hl, (hfl 0 l v hu).2 hc⟩, hu⟩
      · right
        intro y hy hoy
        by_contra hn
        exact hc ⟨y, hy, hn, hoy⟩)
    (fun x => by
      show decide (x ∈ xs) = true ↔ _
      rw [decide_eq_true_iff, hxs]
      constructor
      · rintro ⟨l, hl, hu⟩
        have := hp.mem hl hu
        exact (of_same hK this.1).1 this.2
      · intro hx
        exact hp.all K x ((of_same hK (hsel x hx)).2 hx))
    (fun v => by
      show decide (v ∈ gb) = true ↔ _
      rw [decide_eq_true_iff])
    hsub (by intro k g hg; show s1.g2l k g ≠ []; rw [e5]; exact hso k g hg)
    (by intro k g; show s1.found p k g ≠ none ↔ _; rw [e3]; exact hdom k g)
  rw [Nat.zero_add] at d2
  have hm0 : Made p s1 s1 := by
    refine ⟨rfl, Knows.refl _, fun k g l => ?_, fun k g l => ?_, fun _ _ _ _ _ => Iff.rfl, fun _ _ _ _ => rfl, ?_⟩
    · rw [e4, e3]; exact (h.found k g l).symm
    · rw [e5, e3, h.down]; exact (h.found k g l).symm
    · intro k g l h1 h2; rw [h2] at h1; cases h1
  have hm := made_links k2 hm0
  refine ⟨t2.s, ?_, ⟨?_, ?_⟩, ⟨?_, ?_, ?_, ?_⟩, ?_, ?_, ?_, ?_⟩
  · unfold addLayers
    simp only
    rw [rx, Res.bind_ok, hbv, rg, Res.bind_ok, r1, Res.bind_ok, hs1, r2, Res.bind_ok]
    rfl
  · refine u2.pieceOf hS (fun k g l => hm.up k g l) fun k g => ?_
    rw [d2]
    constructor
    · rintro ⟨x, hx, ho⟩; exact ⟨x, hx.elem hsel, hx, ho⟩
    · rintro ⟨x, _, hx, ho⟩; exact ⟨x, hx, ho⟩
  · intro k g l; rw [hm.lists, hm.up]
  · rw [hm.gp, e6]
  · intro q hq; rw [(k2.others hq).2.1]; exact e2 q hq
  · intro q hq; rw [(k2.others hq).2.2]; show s1.l2g q = s.l2g q; rw [e4]
  · intro q hq k g l; rw [hm.others q hq, e5]
  · exact k2.somewhere (by intro k g hg; show s1.g2l k g ≠ []; rw [e5]; exact hso k g hg)
  · have := hm.knows; rw [e3] at this; exact this
  · intro k l g hu hno
    have hf := (hm.up k g l).1 hu
    rw [hm.new k g l hf ?_, e6]
    rw [e3]
    by_contra hc
    obtain ⟨x, h1, h2⟩ := (hdom k g).1 hc
    exact hno ⟨x, hsel x h1, h1, h2⟩
  · intro k l g hu
    have hold := hm.old k g l (by rw [e3]; exact (h.found k g l).2 hu)
    rw [hold, e1]
    show (_ → t1.par k l = _) ∧ (_ → t1.par k l = _)
    obtain ⟨o2, o3⟩ := o1 k l
    have hiff : (((∃ x, Inward (s.sub p).F K (fun v => v ∈ bv) ring x ∧ OfElem (s.sub p).F K x k l) ∧ ((s.sub p).par k l).onPB = false) ↔
        (¬ Of S.F K (fun x => ¬ sel x) k g ∧ Of S.F K (fun x => sel x ∧ Grow S.F K (Rest S.F K sel) ring x) k g)) := by
      rw [hin k l g hu, ← hfl k l g hu, Bool.not_eq_true]
      exact and_comm
    rw [← hiff]
    exact ⟨o2, o3⟩

/-- **C78 (layers of ghosts).**  A mesh everything in which is in an element and in a piece, whose faces have
at most 30 edges and regions at most 512 faces; piece `p` is made of the elements in `sel`, and its boundary
is flagged (C77).  If there is an element in the piece, or `ring = 0`, `MESH_AddGhost(mesh,submesh,p,ring)`
makes the piece out of these elements and `ring` layers of elements around them, linked both ways, changes
no other piece, and gives each entity the type `Ghosts` says. -/
theorem C78_ghosts_partial {S : CMesh D} (hS : S.F.Sound) {K : Nat} (hK : ElementsOf S.F K)
    (h30 : ∀ f ∈ S.F.fl, (S.F.T.view.edges f).length ≤ 30) (h512 : ∀ r ∈ S.F.rl, (S.F.T.view.faces r).length ≤ 512)
    {sel : Nat → Prop} (hsel : ∀ x, sel x → x ∈ S.F.list K) {p : Nat} {s : PSt D} (h : Linked S p s (Of S.F K sel))
    (hso : ∀ k g, g ∈ S.F.list k → s.g2l k g ≠ []) (hb : Bounded S K p sel s) (ring : Nat) (hring : ring = 0 ∨ ∃ x, sel x) :
    ∃ s', addGhost S p ring s = .ok s' ∧ Linked S p s' (Of S.F K (Grow S.F K sel ring)) ∧ Ghosts S K p ring sel s s' ∧
      Alone p s s' ∧ ∀ k g, g ∈ S.F.list k → s'.g2l k g ≠ [] := by
  have hK' : K = 2 ∨ K = 3 := by rcases hK with ⟨_, h⟩ | ⟨_, _, h⟩ <;> omega
  have hp := h.piece
  -- regions in the piece
  have hreg : ∀ r, r ∈ (s.sub p).F.rl → K = 3 := by
    intro r hr
    obtain ⟨g, hg, _⟩ := hp.from_has 3 r hr
    rcases hK with ⟨_, h⟩ | ⟨h1, _, _⟩
    · exact h
    · have hg : g ∈ S.F.rl := hg
      rw [h1] at hg; cases hg
  have hvol : ∀ l, l ∈ (s.sub p).F.fl → K = 3 → (s.sub p).F.rl ≠ [] := by
    rintro l hl rfl
    obtain ⟨g, _, _, x, hx, hs, _⟩ := hp.from_has 2 l hl
    obtain ⟨x', hx', _⟩ := hp.all 3 x ((of_same (Or.inr rfl) hx).2 hs)
    exact List.ne_nil_of_mem (a := x') hx'
  -- the layers
  obtain ⟨s1, r1, l1, a1, w1, kn, g1, o1⟩ : ∃ s1, (if ring = 0 then (pure s : Res (PSt D))
      else if (s.sub p).F.rl ≠ [] then addLayers S 3 p ring s
      else if (s.sub p).F.fl ≠ [] then addLayers S 2 p ring s
      else .fatal) = .ok s1 ∧ Linked S p s1 (Of S.F K (Grow S.F K sel ring)) ∧ Alone p s s1 ∧ Somewhere S.F s1 ∧
      Knows (s.found p) (s1.found p) ∧
      (∀ k l g, s1.l2g p k l = some g → ¬ Of S.F K sel k g →
        (s1.sub p).par k l = ⟨3, (s.gp k g).master, (s.gp k g).gid, false⟩) ∧
      (∀ k l g, s.l2g p k l = some g →
        ((¬ Of S.F K (fun x => ¬ sel x) k g ∧ Of S.F K (fun x => sel x ∧ Grow S.F K (Rest S.F K sel) ring x) k g) →
          (s1.sub p).par k l = asOver ((s.sub p).par k l)) ∧
        (¬ (¬ Of S.F K (fun x => ¬ sel x) k g ∧ Of S.F K (fun x => sel x ∧ Grow S.F K (Rest S.F K sel) ring x) k g) →
          (s1.sub p).par k l = (s.sub p).par k l)) := by
    by_cases hr0 : ring = 0
    · rw [if_pos hr0]
      subst hr0
      refine ⟨s, rfl, h, ⟨rfl, fun _ _ => rfl, fun _ _ => rfl, fun _ _ _ _ _ => Iff.rfl⟩, hso, Knows.refl _, ?_, ?_⟩
      · intro k l g hu hno
        exact absurd (hp.mem (hp.only k l g hu) hu).2 hno
      · intro k l g hu
        refine ⟨?_, fun _ => rfl⟩
        rintro ⟨_, x, _, ⟨h1, h2⟩, _⟩
        exact absurd h1 h2.2
    · rw [if_neg hr0]
      obtain ⟨x, hx⟩ : ∃ x, sel x := by rcases hring with h | h; exact absurd h hr0; exact h
      obtain ⟨x', hx', _⟩ := hp.all K x ((of_same hK' (hsel x hx)).2 hx)
      obtain ⟨s1, r1, rest⟩ := layers_ok hS hK' h30 h512 hsel h hso hb ring
      refine ⟨s1, ?_, rest⟩
      rcases hK' with rfl | rfl
      · rw [if_neg, if_pos (show (s.sub p).F.fl ≠ [] from List.ne_nil_of_mem (a := x') hx')]
        · exact r1
        · intro hn
          obtain ⟨r, hr⟩ := List.exists_mem_of_ne_nil _ hn
          exact absurd (hreg r hr) (by omega)
      · rw [if_pos (show (s.sub p).F.rl ≠ [] from List.ne_nil_of_mem (a := x') hx')]; exact r1
  -- the end
  have hrun : addGhost S p ring s =
      .ok { s1 with sub := upd s1.sub p (bounds p (decide ((s.sub p).F.rl ≠ [])) (s1.sub p)) } := by
    unfold addGhost
    by_cases h1 : ring = 0
    · rw [if_pos h1] at r1
      rw [if_pos h1]
      simp only [r1, Res.bind_ok]; rfl
    · rw [if_neg h1] at r1
      rw [if_neg h1]
      by_cases h2 : (s.sub p).F.rl ≠ []
      · rw [if_pos h2] at r1
        simp only [if_pos h2, r1, Res.bind_ok]; rfl
      · rw [if_neg h2] at r1
        by_cases h3 : (s.sub p).F.fl ≠ []
        · rw [if_pos h3] at r1
          simp only [if_neg h2, if_pos h3, r1, Res.bind_ok]; rfl
        · rw [if_neg h3] at r1; cases r1
  generalize hs2 : ({ s1 with sub := upd s1.sub p (bounds p (decide ((s.sub p).F.rl ≠ [])) (s1.sub p)) } : PSt D) = s2 at hrun
  have b1 : s2.sub p = bounds p (decide ((s.sub p).F.rl ≠ [])) (s1.sub p) := by rw [← hs2]; exact upd_same _ _ _
  have b2 : ∀ q, q ≠ p → s2.sub q = s1.sub q := fun q hq => by rw [← hs2]; exact upd_ne _ _ hq
  have b3 : s2.l2g = s1.l2g := by rw [← hs2]
  have b4 : s2.g2l = s1.g2l := by rw [← hs2]
  have b5 : s2.gp = s1.gp := by rw [← hs2]
  have bF : (s2.sub p).F = (s1.sub p).F := by rw [b1]; rfl
  have bp : ∀ k l, (s2.sub p).par k l = if ((k < 2 ∨ (k = 2 ∧ (s.sub p).F.rl ≠ [])) ∧ l ∈ (s1.sub p).F.list k) ∧
      ((s1.sub p).par k l).onPB = true then settle p ((s1.sub p).par k l) else (s1.sub p).par k l := by
    intro k l; rw [b1, bounds_par]; simp only [decide_eq_true_iff]
  -- old entities keep their handles
  have hold : ∀ k l g, s1.l2g p k l = some g → Of S.F K sel k g → s.l2g p k l = some g := by
    intro k l g hu ho
    obtain ⟨l0, _, hu0⟩ := hp.all k g ho
    have := (l1.found k g l0).1 (kn k g l0 ((h.found k g l0).2 hu0))
    rw [l1.piece.once k l l0 g hu this]; exact hu0
  have hpar : ∀ k l g, s.l2g p k l = some g →
      (((s1.sub p).par k l).onPB = true ↔ Of S.F K (fun x => ¬ sel x) k g) ∧
      ((s1.sub p).par k l).onPB = ((s.sub p).par k l).onPB ∧ ((s1.sub p).par k l).master = ((s.sub p).par k l).master ∧
      ((s1.sub p).par k l).gid = ((s.sub p).par k l).gid := by
    intro k l g hu
    obtain ⟨o2, o3⟩ := o1 k l g hu
    by_cases hc : (¬ Of S.F K (fun x => ¬ sel x) k g ∧ Of S.F K (fun x => sel x ∧ Grow S.F K (Rest S.F K sel) ring x) k g)
    · rw [o2 hc]; exact ⟨(hb k l g hu).1, rfl, rfl, rfl⟩
    · rw [o3 hc]; exact ⟨(hb k l g hu).1, rfl, rfl, rfl⟩
  -- what is flagged is settled
  have hset : ∀ k l g, s1.l2g p k l = some g → s.l2g p k l = some g → Of S.F K sel k g → Of S.F K (fun x => ¬ sel x) k g →
      (s2.sub p).par k l = settle p ((s1.sub p).par k l) := by
    intro k l g hu1 hu hs hn
    rw [bp, if_pos]
    have hml := hp.only k l g hu
    have hgl := (hp.mem hml hu).1
    have hkK : k ≠ K := by
      rintro rfl
      rw [of_same hK' hgl] at hs hn
      exact hn hs
    refine ⟨⟨?_, l1.piece.only k l g hu1⟩, (hpar k l g hu).1.2 hn⟩
    match k, hml, hkK with
    | 0, _, _ => exact Or.inl (by omega)
    | 1, _, _ => exact Or.inl (by omega)
    | 2, hml, hkK => exact Or.inr ⟨rfl, hvol l hml (by omega)⟩
    | 3, hml, hkK => exact absurd (hreg l hml).symm hkK
    | k+4, hml, _ => cases hml
  have hkeep : ∀ k l, ((s1.sub p).par k l).onPB ≠ true → (s2.sub p).par k l = (s1.sub p).par k l := by
    intro k l hc
    rw [bp, if_neg (fun h' => hc h'.2)]
  refine ⟨s2, hrun, ⟨by rw [bF, b3]; exact l1.piece, by rw [b4, b3]; exact l1.down⟩, ⟨?_, ?_, ?_, ?_⟩, ⟨?_, ?_, ?_, ?_⟩, ?_⟩
  · intro k l g hu hno
    rw [b3] at hu
    have := g1 k l g hu hno
    rw [hkeep k l (by rw [this]; simp), this]
  · intro k l g hu ho
    rw [b3] at hu
    have hu0 := hold k l g hu ho
    obtain ⟨_, q1, q2, q3⟩ := hpar k l g hu0
    refine ⟨hu0, ?_⟩
    by_cases hn : Of S.F K (fun x => ¬ sel x) k g
    · rw [hset k l g hu hu0 ho hn]; exact ⟨q2, q3, q1⟩
    · rw [hkeep k l (fun hc => hn ((hpar k l g hu0).1.1 hc))]; exact ⟨q2, q3, q1⟩
  · intro k l g hu ho hn
    rw [b3] at hu
    have hu0 := hold k l g hu ho
    rw [hset k l g hu hu0 ho hn]
    show (if ((s1.sub p).par k l).master = p then 1 else 3) = _
    rw [(hpar k l g hu0).2.2.1]
  · intro k l g hu ho hn
    rw [b3] at hu
    have hu0 := hold k l g hu ho
    rw [hkeep k l (fun hc => hn ((hpar k l g hu0).1.1 hc))]
    obtain ⟨o2, o3⟩ := o1 k l g hu0
    refine ⟨fun hc => ?_, fun hc => ?_⟩
    · rw [o2 ⟨hn, hc⟩]; rfl
    · rw [o3 (fun h' => hc h'.2)]; exact (hb k l g hu0).2
  · rw [b5]; exact a1.gp
  · intro q hq; rw [b2 q hq]; exact a1.sub q hq
  · intro q hq; rw [b3]; exact a1.l2g q hq
  · intro q hq k g l; rw [b4]; exact a1.g2l q hq k g l
  · rw [b4]; exact w1

/-! ### all pieces -/

/-- the elements of part `p` -/
def PartElem (G : FMesh D) (K : Nat) (part : List Int) (p x : Nat) : Prop :=
  ∃ i : Nat, (G.list K)[i]? = some x ∧ part[i]? = some (p : Int)

/-- `m` is the first part that has the entity -/
def FirstPart (G : FMesh D) (K : Nat) (part : List Int) (m k g : Nat) : Prop :=
  InPart G K part m k g ∧ ∀ q, q < m → ¬ InPart G K part q k g

/-- A mesh that has been distributed, with `ring` layers of ghosts. -/
structure Distributed (S : CMesh D) (K num : Nat) (part : List Int) (ring : Nat) (s : PSt D) : Prop where
  /-- piece `p` is made of the elements of part `p` and `ring` layers around them -/
  piece : ∀ p, p < num → PieceOf S.F (s.sub p).F (s.l2g p) (Of S.F K (Grow S.F K (PartElem S.F K part p) ring))
  /-- the lists of the mesh have all the copies -/
  down : ∀ p k g l, p < num → ((p, l) ∈ s.g2l k g ↔ s.l2g p k l = some g)
  /-- everything has an owner, one of the parts -/
  owned : ∀ k g, g ∈ S.F.list k → ∃ m, m < num ∧ FirstPart S.F K part m k g
  /-- all copies agree with the mesh on owner and global ID -/
  agree : ∀ p k l g m, p < num → s.l2g p k l = some g → FirstPart S.F K part m k g →
    (s.gp k g).master = m ∧ (s.gp k g).gid ≠ 0 ∧
    ((s.sub p).par k l).master = m ∧ ((s.sub p).par k l).gid = (s.gp k g).gid
  /-- a copy in a piece that is not the owner is a ghost (`PGHOST`) -/
  ghost : ∀ p k l g m, p < num → s.l2g p k l = some g → FirstPart S.F K part m k g → m ≠ p →
    ((s.sub p).par k l).ptype = 3
  /-- the copy of the owner is overlap (`POVERLAP`) if another piece has a copy too -/
  overlap : ∀ p k l g q l', p < num → q < num → q ≠ p → s.l2g p k l = some g → FirstPart S.F K part p k g →
    s.l2g q k l' = some g → ((s.sub p).par k l).ptype = 1
  /-- and interior (`PINTERIOR`) if there is none -/
  interior : ∀ p k l g, p < num → s.l2g p k l = some g → FirstPart S.F K part p k g →
    (∀ q l', q < num → q ≠ p → s.l2g q k l' ≠ some g) → ((s.sub p).par k l).ptype = 0

theorem inPart_eq {G : FMesh D} {K : Nat} {part : List Int} {p : Nat} :
    InPart G K part p = Of G K (PartElem G K part p) := by
  funext k g; exact propext inPart_of

theorem partElem_one {G : FMesh D} (hG : G.Sound) {K : Nat} {part : List Int} {p q x : Nat}
    (hp : PartElem G K part p x) (hq : PartElem G K part q x) : p = q := by
  obtain ⟨i, h1, h2⟩ := hp
  obtain ⟨j, h3, h4⟩ := hq
  have hij := (List.getElem?_inj (List.getElem?_eq_some_iff.1 h1).1 (hG.nodup K)).1 (h1.trans h3.symm)
  subst hij
  rw [h2] at h4
  injection h4 with h4
  exact Int.ofNat.inj h4

theorem partElem_some {G : FMesh D} {K num : Nat} {part : List Int} (hlen : (G.list K).length ≤ part.length)
    (hpart : ∀ x ∈ part, 0 ≤ x ∧ x < num) {x : Nat} (hx : x ∈ G.list K) : ∃ q, q < num ∧ PartElem G K part q x := by
  obtain ⟨i, hi⟩ := List.getElem?_of_mem hx
  have hlt' : i < part.length := lt_of_lt_of_le (List.getElem?_eq_some_iff.1 hi).1 hlen
  have hpi : part[i]? = some part[i] := List.getElem?_eq_getElem hlt'
  obtain ⟨b1, b2⟩ := hpart part[i] (List.getElem_mem hlt')
  have e : part[i] = ((part[i].toNat : Nat) : Int) := by omega
  rw [e] at hpi
  exact ⟨part[i].toNat, by omega, i, hi, hpi⟩

/-- layers around the other parts together are the layers around each of them -/
theorem grow_rest {G : FMesh D} (hG : G.Sound) {K num : Nat} {part : List Int} (hlen : (G.list K).length ≤ part.length)
    (hpart : ∀ x ∈ part, 0 ≤ x ∧ x < num) {p : Nat} : ∀ (n x : Nat), Grow G K (Rest G K (PartElem G K part p)) n x ↔
      ∃ q, q < num ∧ q ≠ p ∧ Grow G K (PartElem G K part q) n x
  | 0, x => by
    constructor
    · rintro ⟨hx, hno⟩
      obtain ⟨q, hq, he⟩ := partElem_some hlen hpart hx
      refine ⟨q, hq, ?_, he⟩
      rintro rfl; exact hno he
    · rintro ⟨q, _, hne, he⟩
      refine ⟨List.mem_of_getElem? he.choose_spec.1, fun hp => hne (partElem_one hG he hp)⟩
  | n+1, x => by
    constructor
    · rintro (h | ⟨hx, y, hy, hn⟩)
      · obtain ⟨q, h1, h2, h3⟩ := (grow_rest hG hlen hpart n x).1 h
        exact ⟨q, h1, h2, Or.inl h3⟩
      · obtain ⟨q, h1, h2, h3⟩ := (grow_rest hG hlen hpart n y).1 hy
        exact ⟨q, h1, h2, Or.inr ⟨hx, y, h3, hn⟩⟩
    · rintro ⟨q, h1, h2, h | ⟨hx, y, hy, hn⟩⟩
      · exact Or.inl ((grow_rest hG hlen hpart n x).2 ⟨q, h1, h2, h⟩)
      · exact Or.inr ⟨hx, y, (grow_rest hG hlen hpart n y).2 ⟨q, h1, h2, hy⟩, hn⟩

/-- What is known when the pieces below `n` are finished; `s0`: after the partition. -/
structure Finished (S : CMesh D) (K num : Nat) (part : List Int) (ring : Nat) (s0 : PSt D) (n : Nat) (t : PSt D) : Prop where
  gp : t.gp = s0.gp
  some : ∀ k g, g ∈ S.F.list k → t.g2l k g ≠ []
  sub : ∀ q, n ≤ q → t.sub q = s0.sub q
  l2g : ∀ q, n ≤ q → t.l2g q = s0.l2g q
  g2l : ∀ q, n ≤ q → ∀ k g l, (q, l) ∈ t.g2l k g ↔ (q, l) ∈ s0.g2l k g
  linked : ∀ q, q < n → q < num → Linked S q t (Of S.F K (Grow S.F K (PartElem S.F K part q) ring))
  ghost : ∀ q k l g, q < n → q < num → t.l2g q k l = .some g → ¬ Of S.F K (PartElem S.F K part q) k g →
    (t.sub q).par k l = ⟨3, (s0.gp k g).master, (s0.gp k g).gid, false⟩
  own : ∀ q k l g, q < n → q < num → t.l2g q k l = .some g → Of S.F K (PartElem S.F K part q) k g →
    s0.l2g q k l = .some g ∧ ((t.sub q).par k l).master = ((s0.sub q).par k l).master ∧
      ((t.sub q).par k l).gid = ((s0.sub q).par k l).gid ∧
    (Of S.F K (fun x => ¬ PartElem S.F K part q x) k g →
      ((t.sub q).par k l).ptype = if ((s0.sub q).par k l).master = q then 1 else 3) ∧
    (¬ Of S.F K (fun x => ¬ PartElem S.F K part q x) k g →
      (Of S.F K (fun x => PartElem S.F K part q x ∧ Grow S.F K (Rest S.F K (PartElem S.F K part q)) ring x) k g →
        ((t.sub q).par k l).ptype = 1) ∧
      (¬ Of S.F K (fun x => PartElem S.F K part q x ∧ Grow S.F K (Rest S.F K (PartElem S.F K part q)) ring x) k g →
        ((t.sub q).par k l).ptype = 0))

theorem finished_loop {S : CMesh D} (hS : S.F.Sound) {K : Nat} (hK : ElementsOf S.F K)
    (hall : AllInElements S.F K)
    (h30 : ∀ f ∈ S.F.fl, (S.F.T.view.edges f).length ≤ 30) (h512 : ∀ r ∈ S.F.rl, (S.F.T.view.faces r).length ≤ 512)
    {num : Nat} {part : List Int} {s0 : PSt D} (hp : Pieces S K num part s0) (ho : Owners S K num part s0)
    {ring : Nat} (hring : ring = 0 ∨ ∀ p, p < num → ∃ x, PartElem S.F K part p x) : ∀ (m n : Nat) (t : PSt D), n + m = num →
    Finished S K num part ring s0 n t →
    ∃ t', loop (fun p s => do
      let par ← buildPBoundary S.F (s.sub p).F (s.l2g p) (s.sub p).par
      addGhost S p ring { s with sub := upd s.sub p { s.sub p with par := par } }) (List.range' n m) t = .ok t' ∧
      Finished S K num part ring s0 num t'
  | 0, n, t, hnm, h => by
    rw [show n = num by omega] at h
    exact ⟨t, rfl, h⟩
  | m+1, n, t, hnm, h => by
    have hn : n < num := by omega
    have hpc := hp.piece n hn
    rw [inPart_eq] at hpc
    obtain ⟨par', r', hf, hkeep⟩ := C77_boundary_partial hS hK hpc hall (par := (s0.sub n).par) (by
      intro k l hl
      obtain ⟨g, _, hu, hin⟩ := (hp.piece n hn).from_has k l hl
      obtain ⟨q, hqp, hq, hfirst⟩ := first_of (P := fun q => InPart S.F K part q k g) hin
      rw [(ho.first q k g (by omega) hq hfirst).2.2 n l hn hu]
      exact ⟨rfl, rfl⟩)
    generalize hs1 : ({ t with sub := upd t.sub n { t.sub n with par := par' } } : PSt D) = s1
    have e1 : s1.sub n = { s0.sub n with par := par' } := by
      rw [← hs1]; show upd _ _ _ _ = _; rw [upd_same, h.sub n (le_refl _)]
    have e2 : ∀ q, q ≠ n → s1.sub q = t.sub q := fun q hq => by rw [← hs1]; exact upd_ne _ _ hq
    have e4 : s1.l2g = t.l2g := by rw [← hs1]
    have e5 : s1.g2l = t.g2l := by rw [← hs1]
    have e6 : s1.gp = t.gp := by rw [← hs1]
    have hlk : Linked S n s1 (Of S.F K (PartElem S.F K part n)) := by
      refine ⟨?_, fun k g l => ?_⟩
      · rw [e1, e4, h.l2g n (le_refl _)]; exact hpc
      · rw [e4, e5, h.g2l n (le_refl _), h.l2g n (le_refl _), hp.down]
        exact ⟨fun h' => h'.2.2, fun h' => ⟨hn, hpc.only k l g h', h'⟩⟩
    have hbd : Bounded S K n (PartElem S.F K part n) s1 := by
      intro k l g hu
      rw [e4, h.l2g n (le_refl _)] at hu
      rw [e1]
      refine ⟨hf k l g (hpc.only k l g hu) hu, ?_⟩
      show (par' k l).ptype = 0
      rw [(hkeep k l).1]
      obtain ⟨_, hin⟩ := hpc.mem (hpc.only k l g hu) hu
      rw [← inPart_eq] at hin
      obtain ⟨q, hqp, hq, hfirst⟩ := first_of (P := fun q => InPart S.F K part q k g) hin
      rw [(ho.first q k g (by omega) hq hfirst).2.2 n l hn hu]
    obtain ⟨t1, r1, k1, g1, a1, w1⟩ := C78_ghosts_partial hS hK h30 h512
      (fun x hx => List.mem_of_getElem? hx.choose_spec.1) hlk (by rw [e5]; exact h.some) hbd ring
      (by rcases hring with h | h; exact Or.inl h; exact Or.inr (h n hn))
    have hdone : Finished S K num part ring s0 (n+1) t1 := by
      refine ⟨by rw [a1.gp, e6, h.gp], w1, ?_, ?_, ?_, ?_, ?_, ?_⟩
      · intro q hq; rw [a1.sub q (by omega), e2 q (by omega), h.sub q (by omega)]
      · intro q hq; rw [a1.l2g q (by omega), e4, h.l2g q (by omega)]
      · intro q hq k g l; rw [a1.g2l q (by omega), e5, h.g2l q (by omega)]
      · intro q hq hqn
        by_cases hqe : q = n
        · subst hqe; exact k1
        · have := h.linked q (by omega) hqn
          refine ⟨?_, fun k g l => ?_⟩
          · rw [a1.sub q hqe, e2 q hqe, a1.l2g q hqe, e4]; exact this.piece
          · rw [a1.g2l q hqe, e5, a1.l2g q hqe, e4]; exact this.down k g l
      · intro q k l g hq hqn hu hno
        by_cases hqe : q = n
        · subst hqe
          rw [g1.ghost k l g hu hno, e6, h.gp]
        · rw [a1.l2g q hqe, e4] at hu
          rw [a1.sub q hqe, e2 q hqe]
          exact h.ghost q k l g (by omega) hqn hu hno
      · intro q k l g hq hqn hu hof
        by_cases hqe : q = n
        · subst hqe
          obtain ⟨o1, o2, o3, _⟩ := g1.old k l g hu hof
          have o4 := g1.shared k l g hu hof
          have o5 := g1.near k l g hu hof
          rw [e4, h.l2g q (le_refl _)] at o1
          rw [e1] at o2 o3 o4
          have hm : (par' k l).master = ((s0.sub q).par k l).master := (hkeep k l).2.1
          have hg : (par' k l).gid = ((s0.sub q).par k l).gid := (hkeep k l).2.2
          rw [← hm, ← hg]
          exact ⟨o1, o2, o3, o4, o5⟩
        · rw [a1.l2g q hqe, e4] at hu
          rw [a1.sub q hqe, e2 q hqe]
          exact h.own q k l g (by omega) hqn hu hof
    obtain ⟨t2, r2, f2⟩ := finished_loop hS hK hall h30 h512 hp ho hring m (n+1) t1 (by omega) hdone
    refine ⟨t2, ?_, f2⟩
    rw [List.range'_succ]
    unfold loop
    simp only
    rw [h.sub n (le_refl _), h.l2g n (le_refl _), r', Res.bind_ok]
    rw [← h.sub n (le_refl _), hs1, r1, Res.bind_ok]
    exact r2

/-- **C78 (distribution).**  A mesh everything in which is in an element (and as in C76), partitioned into parts
`0 … num-1`, each with an element unless `ring = 0`; then, piece by piece, the boundary is built and `ring`
layers of ghosts are added: every entity has one owner; what another piece has of it is a ghost; the owner knows
whether there are ghosts of it; all have the same global ID. -/
theorem C78_distribute_partial (zero : D) {S : CMesh D} (hS : S.F.Sound) {K : Nat} (hK : ElementsOf S.F K)
    (hall : AllInElements S.F K)
    (h30 : ∀ f ∈ S.F.fl, (S.F.T.view.edges f).length ≤ 30) (h512 : ∀ r ∈ S.F.rl, (S.F.T.view.faces r).length ≤ 512)
    (h0 : ∀ k, k ≠ K → ∀ g ∈ S.F.list k, (S.par k g).master = 0)
    {num : Nat} (hnum : num < 536870912) {part : List Int} (hlen : (S.F.list K).length ≤ part.length)
    (hpart : ∀ x ∈ part, 0 ≤ x ∧ x < num) {ring : Nat}
    (hring : ring = 0 ∨ ∀ p, p < num → ∃ x, PartElem S.F K part p x) :
    ∃ s, distribute zero S num part ring = .ok s ∧ Distributed S K num part ring s := by
  obtain ⟨s0, r0, hp, ho⟩ := C76_partition_partial zero hS hK h30 h512 h0 hnum hlen
  -- everything is in a part
  have hown : ∀ k g, g ∈ S.F.list k → ∃ m, m < num ∧ FirstPart S.F K part m k g := by
    intro k g hg
    obtain ⟨x, hx, _, hox⟩ := hall k g hg
    obtain ⟨q, hq, i, h1, h2⟩ := partElem_some hlen hpart hx
    obtain ⟨m, hm, hin, hfirst⟩ := first_of (P := fun q => InPart S.F K part q k g) ⟨i, x, h1, h2, hox⟩
    exact ⟨m, by omega, hin, hfirst⟩
  have hstart : Finished S K num part ring s0 0 s0 := by
    refine ⟨rfl, ?_, fun _ _ => rfl, fun _ _ => rfl, fun _ _ _ _ _ => Iff.rfl, fun _ h => absurd h (by omega),
      fun _ _ _ _ h => absurd h (by omega), fun _ _ _ _ h => absurd h (by omega)⟩
    intro k g hg
    obtain ⟨m, hm, hin, _⟩ := hown k g hg
    obtain ⟨l, hl, hu⟩ := (hp.piece m hm).all k g hin
    exact List.ne_nil_of_mem ((hp.down m k g l).2 ⟨hm, hl, hu⟩)
  obtain ⟨t, rt, hf⟩ := finished_loop hS hK hall h30 h512 hp ho hring num 0 s0 (by omega) hstart
  -- the shared ones
  have hout : ∀ p k g, (Of S.F K (fun x => ¬ PartElem S.F K part p x) k g ↔ ∃ q, q < num ∧ q ≠ p ∧ InPart S.F K part q k g) := by
    intro p k g
    constructor
    · rintro ⟨x, hx, hs, hox⟩
      obtain ⟨q, hq, hqx⟩ := partElem_some hlen hpart hx
      refine ⟨q, hq, ?_, by rw [inPart_eq]; exact ⟨x, hx, hqx, hox⟩⟩
      rintro rfl; exact hs hqx
    · rintro ⟨q, hq, hne, hin⟩
      rw [inPart_eq] at hin
      obtain ⟨x, hx, hqx, hox⟩ := hin
      exact ⟨x, hx, fun hpx => hne (partElem_one hS hqx hpx), hox⟩
  have hfp : ∀ p k l g, p < num → t.l2g p k l = some g → g ∈ S.F.list k := by
    intro p k l g hpn hu
    have := (hf.linked p hpn hpn).piece
    exact (this.mem (this.only k l g hu) hu).1
  have hlt : ∀ {p k l g m : Nat}, p < num → t.l2g p k l = some g → FirstPart S.F K part m k g → m < num := by
    intro p k l g m hpn hu hm
    obtain ⟨m', h1, h2, h3⟩ := hown k g (hfp p k l g hpn hu)
    rcases Nat.lt_trichotomy m m' with h | h | h
    · exact absurd hm.1 (h3 m h)
    · omega
    · exact absurd h2 (hm.2 m' h)
  have hagree : ∀ p k l g m, p < num → t.l2g p k l = some g → FirstPart S.F K part m k g →
      (t.gp k g).master = m ∧ (t.gp k g).gid ≠ 0 ∧
      ((t.sub p).par k l).master = m ∧ ((t.sub p).par k l).gid = (t.gp k g).gid := by
    intro p k l g m hpn hu hm
    obtain ⟨o1, o2, o3⟩ := ho.first m k g (hlt hpn hu hm) hm.1 hm.2
    rw [hf.gp]
    refine ⟨o1, o2, ?_⟩
    by_cases hin : Of S.F K (PartElem S.F K part p) k g
    · obtain ⟨u1, u2, u3, _⟩ := hf.own p k l g hpn hpn hu hin
      rw [u2, u3, o3 p l hpn u1]
      exact ⟨rfl, rfl⟩
    · rw [hf.ghost p k l g hpn hpn hu hin]
      exact ⟨o1, rfl⟩
  -- an entity of another part, in this piece
  have htype : ∀ p k l g, p < num → t.l2g p k l = some g → FirstPart S.F K part p k g →
      ((∃ q l', q < num ∧ q ≠ p ∧ t.l2g q k l' = some g) → ((t.sub p).par k l).ptype = 1) ∧
      (¬ (∃ q l', q < num ∧ q ≠ p ∧ t.l2g q k l' = some g) → ((t.sub p).par k l).ptype = 0) := by
    intro p k l g hpn hu hm
    have hin := hm.1
    rw [inPart_eq] at hin
    obtain ⟨u1, u2, u3, u4, u5⟩ := hf.own p k l g hpn hpn hu hin
    have hmast : ((s0.sub p).par k l).master = p := by
      rw [(ho.first p k g hpn hm.1 hm.2).2.2 p l hpn u1]
    by_cases hsh : Of S.F K (fun x => ¬ PartElem S.F K part p x) k g
    · rw [u4 hsh, if_pos hmast]
      refine ⟨fun _ => rfl, fun hno => ?_⟩
      exfalso
      obtain ⟨q, hq, hne, hiq⟩ := (hout p k g).1 hsh
      rw [inPart_eq] at hiq
      obtain ⟨x, hx, hqx, hox⟩ := hiq
      obtain ⟨l', _, hl'⟩ := (hf.linked q hq hq).piece.all k g ⟨x, hx, Grow.base hqx ring, hox⟩
      exact hno ⟨q, l', hq, hne, hl'⟩
    · have hiff : Of S.F K (fun x => PartElem S.F K part p x ∧ Grow S.F K (Rest S.F K (PartElem S.F K part p)) ring x) k g ↔
          ∃ q l', q < num ∧ q ≠ p ∧ t.l2g q k l' = some g := by
        constructor
        · rintro ⟨x, hx, ⟨_, hgx⟩, hox⟩
          obtain ⟨q, hq, hne, hqx⟩ := (grow_rest hS hlen hpart ring x).1 hgx
          obtain ⟨l', _, hl'⟩ := (hf.linked q hq hq).piece.all k g ⟨x, hx, hqx, hox⟩
          exact ⟨q, l', hq, hne, hl'⟩
        · rintro ⟨q, l', hq, hne, hl'⟩
          have hpq := (hf.linked q hq hq).piece
          obtain ⟨_, x, hx, hgx, hox⟩ := hpq.mem (hpq.only k l' g hl') hl'
          refine ⟨x, hx, ⟨?_, (grow_rest hS hlen hpart ring x).2 ⟨q, hq, hne, hgx⟩⟩, hox⟩
          by_contra hno
          exact hsh ⟨x, hx, hno, hox⟩
      rw [← hiff]
      exact u5 hsh
  refine ⟨t, ?_, ⟨fun p hpn => (hf.linked p hpn hpn).piece, fun p k g l hpn => (hf.linked p hpn hpn).down k g l, hown, hagree, ?_, ?_, ?_⟩⟩
  · unfold distribute
    rw [r0, Res.bind_ok, List.range_eq_range']
    exact rt
  · intro p k l g m hpn hu hm hne
    have hmn := hlt hpn hu hm
    by_cases hin : Of S.F K (PartElem S.F K part p) k g
    · obtain ⟨u1, u2, u3, u4, _⟩ := hf.own p k l g hpn hpn hu hin
      rw [u4 ((hout p k g).2 ⟨m, hmn, hne, hm.1⟩), if_neg]
      rw [(ho.first m k g hmn hm.1 hm.2).2.2 p l hpn u1]
      exact hne
    · rw [hf.ghost p k l g hpn hpn hu hin]
  · intro p k l g q l' hpn hqn hne hu hm hq
    exact (htype p k l g hpn hu hm).1 ⟨q, l', hqn, hne, hq⟩
  · intro p k l g hpn hu hm hno
    refine (htype p k l g hpn hu hm).2 ?_
    rintro ⟨q, l', h1, h2, h3⟩
    exact hno q l' h1 h2 h3

/-! ### examples -/

/-- The hypotheses of `C78_distribute_partial` (and, in its proof, those of `C78_ghosts_partial`) hold for two
tetrahedra with a face in common, in two parts, with one layer of ghosts. -/
example : ∃ T s, Topo.empty.run Topo.twoTets = .ok T ∧ distribute 0 (rangeC T) 2 [1, 0] 1 = .ok s ∧
    Distributed (rangeC T) 3 2 [1, 0] 1 s := by
  obtain ⟨T, h1, h2⟩ := Topo.reachable (os := Topo.twoTets) (by decide +kernel)
  have hq : Topo.answer Topo.twoTets (fun T => .ok (rangeB T && allInB (rangeC T).F 3 && decide (T.nr = 2))) = .ok true := by
    decide +kernel
  unfold Topo.answer at hq
  rw [h1, Res.bind_ok, Res.ok.injEq, Bool.and_eq_true, Bool.and_eq_true, decide_eq_true_iff] at hq
  obtain ⟨⟨a, b⟩, c⟩ := hq
  obtain ⟨m, e, f⟩ := rangeC_ok h2 a
  have hr : (rangeC T).F.rl = [0, 1] := by show List.range T.nr = _; rw [c]; rfl
  have hl : (rangeC T).F.list 3 = [0, 1] := hr
  obtain ⟨s, r, h⟩ := C78_distribute_partial (0 : Int) m (K := 3) (Or.inl ⟨by rw [hr]; simp, rfl⟩) (allInB_sound b) e f
    (fun _ _ _ _ => rfl) (num := 2) (by omega) (part := [1, 0]) (by rw [hl]; exact le_refl _) (by decide) (ring := 1)
    (Or.inr (by
      intro p hp
      match p, hp with
      | 0, _ => exact ⟨1, 1, by rw [hl]; rfl, rfl⟩
      | 1, _ => exact ⟨0, 0, by rw [hl]; rfl, rfl⟩))
  exact ⟨T, s, h1, r, h⟩

/-- They hold for two triangles with an edge in common. -/
example : ∃ T s, Topo.empty.run Topo.triPair = .ok T ∧ distribute 0 (rangeC T) 2 [0, 1] 1 = .ok s ∧
    Distributed (rangeC T) 2 2 [0, 1] 1 s := by
  obtain ⟨T, h1, h2⟩ := Topo.reachable (os := Topo.triPair) (by decide +kernel)
  have hq : Topo.answer Topo.triPair (fun T => .ok (rangeB T && allInB (rangeC T).F 2 && decide (T.nf = 2 ∧ T.nr = 0))) = .ok true := by
    decide +kernel
  unfold Topo.answer at hq
  rw [h1, Res.bind_ok, Res.ok.injEq, Bool.and_eq_true, Bool.and_eq_true, decide_eq_true_iff] at hq
  obtain ⟨⟨a, b⟩, c, d⟩ := hq
  obtain ⟨m, e, f⟩ := rangeC_ok h2 a
  have hr : (rangeC T).F.rl = [] := by show List.range T.nr = _; rw [d]; rfl
  have hf : (rangeC T).F.fl = [0, 1] := by show List.range T.nf = _; rw [c]; rfl
  have hl : (rangeC T).F.list 2 = [0, 1] := hf
  obtain ⟨s, r, h⟩ := C78_distribute_partial (0 : Int) m (K := 2) (Or.inr ⟨hr, by rw [hf]; simp, rfl⟩) (allInB_sound b) e f
    (fun _ _ _ _ => rfl) (num := 2) (by omega) (part := [0, 1]) (by rw [hl]; exact le_refl _) (by decide) (ring := 1)
    (Or.inr (by
      intro p hp
      match p, hp with
      | 0, _ => exact ⟨0, 0, by rw [hl]; rfl, rfl⟩
      | 1, _ => exact ⟨1, 1, by rw [hl]; rfl, rfl⟩))
  exact ⟨T, s, h1, r, h⟩

/-- the parallel types of the entities of piece `p` -/
def ptypes (s : PSt Int) (p : Nat) : List (List Nat) :=
  [0, 1, 2, 3].map fun k => ((s.sub p).F.list k).map fun l => ((s.sub p).par k l).ptype

/-- The two triangles: with no layer, the shared edge is overlap in piece 0 and a ghost in piece 1; with one
layer, both triangles are in both pieces. -/
example : Topo.answer Topo.triPair (fun T => do
      let s ← distribute 0 (rangeC T) 2 [0, 1] 0
      pure (ptypes s 0, ptypes s 1)) =
    .ok ([[0, 1, 1], [0, 1, 0], [0], []], [[3, 3, 0], [3, 0, 0], [0], []]) := by decide +kernel
example : Topo.answer Topo.triPair (fun T => do
      let s ← distribute 0 (rangeC T) 2 [0, 1] 1
      pure (ptypes s 0, ptypes s 1)) =
    .ok ([[1, 1, 1, 3], [1, 1, 1, 3, 3], [1, 3], []], [[3, 3, 1, 3], [3, 1, 1, 3, 3], [1, 3], []]) := by decide +kernel

/-- **Negation**: part 1 has no element; with a layer of ghosts the program ends. -/
theorem C78_negation_empty : Topo.answer Topo.triPair (fun T => do
      let s ← distribute 0 (rangeC T) 2 [0, 0] 1
      pure (ptypes s 0)) = .fatal := by decide +kernel

/-- a triangle, and an edge from one of its vertices to a vertex that is not in it -/
def triTail : List Topo.Op :=
  List.replicate 4 .newVertex ++ [.newFace, .setVertices 0 [0,1,2], .newEdge, .setVertex 3 false 0, .setVertex 3 true 3]

/-- **Negation**: there is one part, so no other piece has a copy of anything; yet, as there is an edge that
is in no element, everything is labelled overlap. -/
theorem C78_negation_edge : Topo.answer triTail (fun T => do
      let s ← distribute 0 (rangeC T) 1 [0] 1
      pure (ptypes s 0)) = .ok [[1, 1, 1], [1, 1, 1], [1], []] := by decide +kernel

end Prt
end MSTK
