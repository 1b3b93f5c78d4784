import Verif.CopyBuild
import Verif.Props.FileRoundTrip

/-!
C60: `MESH_Copy` adds a copy of one mesh to another.
-/
namespace MSTK
namespace Copy
open File

variable {D : Type}

/-! ### specification -/

/-- The source: a mesh whose faces have at most 30 edges and whose regions have at most 512 faces,
attributes with names that fit into the buffer and values of the kind they say, sets with names that
fit and entities that exist. -/
structure CMesh.Ok (S : CMesh D) : Prop where
  mesh : S.F.Sound
  edges : ∀ f ∈ S.F.fl, (S.F.T.view.edges f).length ≤ 30
  faces : ∀ r ∈ S.F.rl, (S.F.T.view.faces r).length ≤ 512
  atts : ∀ a ∈ S.F.atts, a.name.length < 256 ∧ a.ncomp = compsOf a.ty a.ncomp ∧
    (a.ty ≠ .ptr → ∀ k x v, a.val k x = some v → Holds a v)
  sets : ∀ m ∈ S.sets, m.name.length < 256 ∧ ∀ p, some p ∈ m.ents → p.1 < 4 ∧ p.2 ∈ S.F.list p.1

/-- `N` is `N0` with a copy of `S`, the entities of the copy being those in `new k`: `N` is a mesh; the
entities `N0` had are as they were; entity `i` of `new k` has what entity `i` of `S` has - coordinates,
classification, ID, place in the distributed mesh - and is bounded by the copies of what bounds that,
in the same directions. -/
structure Joined (S N0 N : CMesh D) (new : Nat → List Nat) : Prop where
  mesh : N.F.Sound
  lists : ∀ k < 4, N.F.list k = N0.F.list k ++ new k ∧ (new k).length = (S.F.list k).length
  oldV : ∀ v ∈ N0.F.vl, N.F.xyz v = N0.F.xyz v ∧ N.F.vc v = N0.F.vc v ∧ N.F.vid v = N0.F.vid v ∧
    N.par 0 v = N0.par 0 v
  oldE : ∀ e ∈ N0.F.el, N.F.T.view.ends e = N0.F.T.view.ends e ∧ N.F.ec e = N0.F.ec e ∧ N.F.eid e = N0.F.eid e ∧
    N.par 1 e = N0.par 1 e
  oldF : ∀ f ∈ N0.F.fl, N.F.T.view.edges f = N0.F.T.view.edges f ∧ N.F.fc f = N0.F.fc f ∧ N.F.fid f = N0.F.fid f ∧
    N.par 2 f = N0.par 2 f
  oldR : ∀ r ∈ N0.F.rl, N.F.T.view.faces r = N0.F.T.view.faces r ∧ N.F.rc r = N0.F.rc r ∧ N.F.rid r = N0.F.rid r ∧
    N.par 3 r = N0.par 3 r
  vertex : ∀ v v', Corr S.F.vl (new 0) v v' → N.F.xyz v' = S.F.xyz v ∧ N.F.vc v' = S.F.vc v ∧ N.F.vid v' = S.F.vid v ∧
    N.par 0 v' = S.par 0 v
  edge : ∀ e e', Corr S.F.el (new 1) e e' → N.F.ec e' = S.F.ec e ∧ N.F.eid e' = S.F.eid e ∧ N.par 1 e' = S.par 1 e ∧
    OptRel (Corr S.F.vl (new 0)) (S.F.T.view.ends e).1 (N.F.T.view.ends e').1 ∧
    OptRel (Corr S.F.vl (new 0)) (S.F.T.view.ends e).2 (N.F.T.view.ends e').2
  face : ∀ f f', Corr S.F.fl (new 2) f f' → N.F.fc f' = S.F.fc f ∧ N.F.fid f' = S.F.fid f ∧ N.par 2 f' = S.par 2 f ∧
    List.Forall₂ (fun p q => Corr S.F.el (new 1) p.1 q.1 ∧ q.2 = p.2) (S.F.T.view.edges f) (N.F.T.view.edges f')
  region : ∀ r r', Corr S.F.rl (new 3) r r' → N.F.rc r' = S.F.rc r ∧ N.F.rid r' = S.F.rid r ∧
    (N.par 3 r').ptype = (S.par 3 r).ptype ∧ (N.par 3 r').master = (S.par 3 r).master ∧
    (N.par 3 r').gid = (S.par 3 r).gid ∧
    List.Forall₂ (fun p q => Corr S.F.fl (new 2) p.1 q.1 ∧ q.2 = p.2) (S.F.T.view.faces r) (N.F.T.view.faces r')

/-- the value is 0 -/
def IsZero (nz : D → Bool) : AVal D → Prop
  | .int i => i = 0
  | .dbl x => nz x = false
  | .arr _ => False

/-- The copy of an attribute: the same name, type, number of components and kind of entities; an entity
of the copy has the value the entity of the source has, unless that is 0, which is left out.
Pointers are left out.  Other entities have no value. -/
structure AttCopy (nz : D → Bool) (S N0 : CMesh D) (new : Nat → List Nat) (a b : Attr D) : Prop where
  head : b.name = a.name ∧ b.ty = a.ty ∧ b.ncomp = a.ncomp ∧ b.ent = a.ent
  vals : a.ty ≠ .ptr → ∀ k ∈ a.kinds, ∀ x x', Corr (S.F.list k) (new k) x x' →
    b.val k x' = a.val k x ∨ b.val k x' = none ∧ ∃ v, a.val k x = some v ∧ IsZero nz v
  nonzero : a.ty ≠ .ptr → ∀ k ∈ a.kinds, ∀ x x', Corr (S.F.list k) (new k) x x' →
    ∀ v, a.val k x = some v → ¬ IsZero nz v → b.val k x' = some v
  old : ∀ k x, x ∈ N0.F.list k → b.val k x = none

/-- The copy of a set: the same name and kind, the copies of the entries in the same order. -/
structure SetCopy (S : CMesh D) (new : Nat → List Nat) (m m' : SetD) : Prop where
  head : m'.name = m.name ∧ m'.dim = m.dim
  ents : List.Forall₂ (fun p q => ∃ x', q = some (p.1, x') ∧ Corr (S.F.list p.1) (new p.1) p.2 x')
    (m.ents.filterMap id) m'.ents

/-! ### proof -/

theorem corr_new {l : List Nat} {n x x' : Nat} (h : Corr l ((List.range l.length).map (n + ·)) x x') :
    ∃ i, i < l.length ∧ x' = n + i ∧ l[i]? = some x ∧ l.getD i 0 = x := by
  obtain ⟨i, h1, h2⟩ := h
  have hi := (List.getElem?_eq_some_iff.1 h1).1
  rw [List.getElem?_map, List.getElem?_range hi] at h2
  cases h2
  exact ⟨i, hi, rfl, h1, by rw [List.getD_eq_getElem?_getD, h1]; rfl⟩

theorem corr_off {l : List Nat} {x : Nat} (n : Nat) (h : x ∈ l) :
    Corr l ((List.range l.length).map (n + ·)) x (n + l.idxOf x) := by
  have hi := List.idxOf_lt_length_of_mem h
  exact ⟨l.idxOf x, by rw [List.getElem?_eq_getElem hi, List.getElem_idxOf], by
    rw [List.getElem?_map, List.getElem?_range hi]; rfl⟩

theorem forall₂_off {l : List Nat} (n : Nat) : ∀ {ps : List (Nat × Bool)}, (∀ p ∈ ps, p.1 ∈ l) →
    List.Forall₂ (fun p q => Corr l ((List.range l.length).map (n + ·)) p.1 q.1 ∧ q.2 = p.2) ps
      (ps.map fun p => (n + l.idxOf p.1, p.2))
  | [], _ => .nil
  | p :: ps, h => .cons ⟨corr_off n (h p (by simp)), rfl⟩ (forall₂_off n fun q hq => h q (List.mem_cons_of_mem _ hq))

/-- the entities of the copy -/
def newOf (S N0 : CMesh D) (k : Nat) : List Nat := (List.range (S.F.list k).length).map (off N0 k + ·)

theorem list_grown {l : List Nat} {st st' : Nat → Stat} {n k : Nat} (h : l.Nodup ∧ ∀ x, x ∈ l ↔ st x = .live)
    (hn : ∀ i, n ≤ i → st i = .unused) (hs : st' = ext n k (fun _ => .live) st) :
    (l ++ (List.range k).map (n + ·)).Nodup ∧ ∀ x, x ∈ l ++ (List.range k).map (n + ·) ↔ st' x = .live := by
  have hlt : ∀ x ∈ l, x < n := by
    intro x hx
    by_cases hlt : x < n
    · exact hlt
    · have := (h.2 x).1 hx
      rw [hn x (by omega)] at this
      cases this
  refine ⟨?_, fun x => ?_⟩
  · rw [List.nodup_append]
    refine ⟨h.1, nodup_shift List.nodup_range, ?_⟩
    intro a ha b hb
    obtain ⟨i, _, rfl⟩ := List.mem_map.1 hb
    have := hlt a ha
    omega
  · rw [List.mem_append, List.mem_map, hs]
    unfold ext
    by_cases hx : n ≤ x ∧ x < n + k
    · rw [if_pos hx]
      exact ⟨fun _ => rfl, fun _ => Or.inr ⟨x - n, by rw [List.mem_range]; omega, by omega⟩⟩
    · rw [if_neg hx]
      constructor
      · rintro (hl | ⟨i, hi, rfl⟩)
        · exact (h.2 x).1 hl
        · rw [List.mem_range] at hi; omega
      · intro hl; exact Or.inl ((h.2 x).2 hl)

theorem lt_of_mem {l : List Nat} {st : Nat → Stat} {n x : Nat} (h : l.Nodup ∧ ∀ x, x ∈ l ↔ st x = .live)
    (hn : ∀ i, n ≤ i → st i = .unused) (hx : x ∈ l) : x < n := by
  by_cases hlt : x < n
  · exact hlt
  · have := (h.2 x).1 hx
    rw [hn x (by omega)] at this
    cases this

theorem forall_tab {α : Type} {P : α → Prop} {l l0 : List Nat} {n : Nat} {src old f : Nat → α}
    (hf : f = tab n l.length l src old) (h0 : ∀ x ∈ l0, x < n ∧ P (old x)) (hs : ∀ x ∈ l, P (src x)) :
    ∀ x ∈ l0 ++ (List.range l.length).map (n + ·), P (f x) := by
  intro x hx
  rw [hf]
  unfold tab
  rcases List.mem_append.1 hx with hx | hx
  · rw [ext_old (h0 x hx).1]; exact (h0 x hx).2
  · obtain ⟨i, hi, rfl⟩ := List.mem_map.1 hx
    rw [List.mem_range] at hi
    rw [ext_at hi]
    exact hs _ (getD_mem hi)

theorem cop_sound {S N0 : CMesh D} (h : S.F.Sound) (h0 : N0.F.Sound) {s : St D}
    (hi : Cop S N0 s S.F.vl.length S.F.el.length S.F.fl.length S.F.rl.length) 
    (hsize : N0.F.vl.length + N0.F.el.length + N0.F.fl.length + N0.F.rl.length + (S.F.vl.length + S.F.el.length +
      S.F.fl.length + S.F.rl.length) < 2147483648) : s.N.F.Sound where
  cons := hi.cons
  vl := by
    rw [hi.vl]
    exact list_grown h0.vl h0.cons.newV (show s.N.F.T.view.sv = _ by rw [hi.view]; rfl)
  el := by
    rw [hi.el]
    exact list_grown h0.el h0.cons.newE (show s.N.F.T.view.se = _ by rw [hi.view]; rfl)
  fl := by
    rw [hi.fl]
    exact list_grown h0.fl h0.cons.newF (show s.N.F.T.view.sf = _ by rw [hi.view]; rfl)
  rl := by
    rw [hi.rl]
    exact list_grown h0.rl h0.cons.newR (show s.N.F.T.view.sr = _ by rw [hi.view]; rfl)
  ends := by
    intro e he
    rw [hi.el] at he
    rw [hi.view]
    rcases List.mem_append.1 he with he | he
    · rw [show (grown S.F N0.F _ _ _ _).ends e = _ from ext_old (lt_of_mem h0.el h0.cons.newE he)]
      exact h0.ends e he
    · obtain ⟨i, hi', rfl⟩ := List.mem_map.1 he
      rw [List.mem_range] at hi'
      obtain ⟨a, b, hab⟩ := h.ends _ (getD_mem hi')
      refine ⟨N0.F.T.nv + S.F.vl.idxOf a, N0.F.T.nv + S.F.vl.idxOf b, ?_⟩
      rw [show (grown S.F N0.F _ _ _ _).ends (N0.F.T.ne + i) = _ from ext_at hi']
      unfold endsC
      rw [hab]
      rfl
  edges := by
    intro f hf
    rw [hi.fl] at hf
    rw [hi.view]
    rcases List.mem_append.1 hf with hf | hf
    · have hlt := lt_of_mem h0.fl h0.cons.newF hf
      rw [show (grown S.F N0.F _ _ _ _).edges f = _ from ext_old hlt, hi.feOld f hlt]
      exact h0.edges f hf
    · obtain ⟨i, hi', rfl⟩ := List.mem_map.1 hf
      rw [List.mem_range] at hi'
      refine ⟨hi.fe i hi', ?_⟩
      rw [show (grown S.F N0.F _ _ _ _).edges (N0.F.T.nf + i) = _ from ext_at hi']
      unfold edgesC
      rw [List.length_map]
      exact (h.edges _ (getD_mem hi')).2
  faces := by
    intro r hr
    rw [hi.rl] at hr
    rcases List.mem_append.1 hr with hr | hr
    · rw [hi.rfOld r (lt_of_mem h0.rl h0.cons.newR hr)]
      exact h0.faces r hr
    · obtain ⟨i, hi', rfl⟩ := List.mem_map.1 hr
      rw [List.mem_range] at hi'
      exact hi.rf i hi'
  vc := by
    rw [hi.vl]
    exact forall_tab hi.vc (fun x hx => ⟨lt_of_mem h0.vl h0.cons.newV hx, h0.vc x hx⟩) h.vc
  ec := by
    rw [hi.el]
    exact forall_tab hi.ec (fun x hx => ⟨lt_of_mem h0.el h0.cons.newE hx, h0.ec x hx⟩) h.ec
  fc := by
    rw [hi.fl]
    exact forall_tab hi.fc (fun x hx => ⟨lt_of_mem h0.fl h0.cons.newF hx, h0.fc x hx⟩) h.fc
  rc := by
    rw [hi.rl]
    exact forall_tab hi.rc (fun x hx => ⟨lt_of_mem h0.rl h0.cons.newR hx, h0.rc x hx⟩) h.rc
  size := by
    rw [hi.vl, hi.el, hi.fl, hi.rl]
    simp only [List.length_append, List.length_map, List.length_range]
    omega

theorem tab_new {α : Type} {l : List Nat} {n i x : Nat} {src old f : Nat → α} (hf : f = tab n l.length l src old)
    (hi : i < l.length) (hx : l.getD i 0 = x) : f (n + i) = src x := by
  rw [hf]; unfold tab; rw [ext_at hi, hx]

theorem tab_old {α : Type} {l : List Nat} {n k x : Nat} {src old f : Nat → α} (hf : f = tab n k l src old)
    (hx : x < n) : f x = old x := by
  rw [hf]; unfold tab; rw [ext_old hx]

theorem cop_joined {S N0 : CMesh D} (h : S.F.Sound) (h0 : N0.F.Sound) {s : St D}
    (hi : Cop S N0 s S.F.vl.length S.F.el.length S.F.fl.length S.F.rl.length) 
    (hsize : N0.F.vl.length + N0.F.el.length + N0.F.fl.length + N0.F.rl.length + (S.F.vl.length + S.F.el.length +
      S.F.fl.length + S.F.rl.length) < 2147483648) : Joined S N0 s.N (newOf S N0) where
  mesh := cop_sound h h0 hi hsize
  lists := by
    intro k hk
    refine ⟨?_, by unfold newOf; simp⟩
    match k, hk with
    | 0, _ => exact hi.vl
    | 1, _ => exact hi.el
    | 2, _ => exact hi.fl
    | 3, _ => exact hi.rl
  oldV := by
    intro v hv
    have hlt := lt_of_mem h0.vl h0.cons.newV hv
    exact ⟨tab_old hi.xyz hlt, tab_old hi.vc hlt, tab_old hi.vid hlt, tab_old hi.par0 hlt⟩
  oldE := by
    intro e he
    have hlt := lt_of_mem h0.el h0.cons.newE he
    exact ⟨by rw [hi.view]; exact ext_old hlt, tab_old hi.ec hlt, tab_old hi.eid hlt, tab_old hi.par1 hlt⟩
  oldF := by
    intro e he
    have hlt := lt_of_mem h0.fl h0.cons.newF he
    exact ⟨by rw [hi.view]; exact ext_old hlt, tab_old hi.fc hlt, tab_old hi.fid hlt, tab_old hi.par2 hlt⟩
  oldR := by
    intro e he
    have hlt := lt_of_mem h0.rl h0.cons.newR he
    exact ⟨by rw [hi.view]; exact ext_old hlt, tab_old hi.rc hlt, tab_old hi.rid hlt, tab_old hi.par3 hlt⟩
  vertex := by
    intro v v' hc
    obtain ⟨i, hi', rfl, _, hx⟩ := corr_new hc
    exact ⟨tab_new hi.xyz hi' hx, tab_new hi.vc hi' hx, tab_new hi.vid hi' hx, tab_new hi.par0 hi' hx⟩
  edge := by
    intro e e' hc
    obtain ⟨i, hi', rfl, hxi, hx⟩ := corr_new hc
    have hm := List.mem_of_getElem? hxi
    obtain ⟨a, b, hab⟩ := h.ends _ hm
    obtain ⟨ha, hb⟩ := h.endsLive hm hab
    have he : s.N.F.T.view.ends (N0.F.T.ne + i) = (some (N0.F.T.nv + S.F.vl.idxOf a), some (N0.F.T.nv + S.F.vl.idxOf b)) := by
      rw [hi.view, show (grown S.F N0.F _ _ _ _).ends (N0.F.T.ne + i) = _ from ext_at hi']
      unfold endsC
      rw [hx, hab]
      rfl
    refine ⟨tab_new hi.ec hi' hx, tab_new hi.eid hi' hx, tab_new hi.par1 hi' hx, ?_⟩
    rw [show s.N.F.T.view.ends (off N0 1 + i) = _ from he, hab]
    exact ⟨.some (corr_off _ ha), .some (corr_off _ hb)⟩
  face := by
    intro f f' hc
    obtain ⟨i, hi', rfl, hxi, hx⟩ := corr_new hc
    have hm := List.mem_of_getElem? hxi
    have he : s.N.F.T.view.edges (N0.F.T.nf + i) = edgesC S.F N0.F i := by rw [hi.view]; exact ext_at hi'
    refine ⟨tab_new hi.fc hi' hx, tab_new hi.fid hi' hx, tab_new hi.par2 hi' hx, ?_⟩
    rw [show s.N.F.T.view.edges (off N0 2 + i) = _ from he]
    unfold edgesC
    rw [hx]
    exact forall₂_off _ fun p hp => h.edgesLive hm hp
  region := by
    intro f f' hc
    obtain ⟨i, hi', rfl, hxi, hx⟩ := corr_new hc
    have hm := List.mem_of_getElem? hxi
    have he : s.N.F.T.view.faces (N0.F.T.nr + i) = facesC S.F N0.F i := by rw [hi.view]; exact ext_at hi'
    have hp : s.N.par 3 (N0.F.T.nr + i) = noFlag (S.par 3 f) := tab_new hi.par3 hi' hx
    refine ⟨tab_new hi.rc hi' hx, tab_new hi.rid hi' hx, ?_, ?_, ?_, ?_⟩
    · rw [show s.N.par 3 (off N0 3 + i) = _ from hp]; rfl
    · rw [show s.N.par 3 (off N0 3 + i) = _ from hp]; rfl
    · rw [show s.N.par 3 (off N0 3 + i) = _ from hp]; rfl
    rw [show s.N.F.T.view.faces (off N0 3 + i) = _ from he]
    unfold facesC
    rw [hx]
    exact forall₂_off _ fun p hp => h.facesLive hm hp

theorem list_lt {N0 : CMesh D} (h0 : N0.F.Sound) {k x : Nat} (hx : x ∈ N0.F.list k) : x < off N0 k := by
  match k, hx with
  | 0, hx => exact lt_of_mem h0.vl h0.cons.newV hx
  | 1, hx => exact lt_of_mem h0.el h0.cons.newE hx
  | 2, hx => exact lt_of_mem h0.fl h0.cons.newF hx
  | 3, hx => exact lt_of_mem h0.rl h0.cons.newR hx
  | k+4, hx => cases hx

theorem carried_copy {nz : D → Bool} {S N0 : CMesh D} (h0 : N0.F.Sound) {a b : Attr D}
    (hc : a.ncomp = compsOf a.ty a.ncomp) (h : CarriedTo nz S N0 a b) : AttCopy nz S N0 (newOf S N0) a b where
  head := by
    obtain ⟨h1, h2, h3, h4⟩ := h.head
    exact ⟨h1, h2, h3.trans hc.symm, h4⟩
  vals := by
    intro hp k hk x x' hcor
    obtain ⟨i, _, rfl, hx, _⟩ := corr_new hcor
    rw [h.vals k hk i x hx]
    unfold keepIn
    rw [if_neg hp]
    cases a.val k x with
    | none => exact Or.inl rfl
    | some v =>
      rw [Option.bind_some]
      cases v with
      | int i =>
        unfold keep
        by_cases hz : i = 0
        · right; exact ⟨by simp [hz], _, rfl, hz⟩
        · left; simp [hz]
      | dbl x =>
        unfold keep
        cases hz : nz x with
        | true => left; simp [hz]
        | false => right; exact ⟨by simp [hz], _, rfl, hz⟩
      | arr xs => left; rfl
  nonzero := by
    intro hp k hk x x' hcor v hv hz
    obtain ⟨i, _, rfl, hx, _⟩ := corr_new hcor
    rw [h.vals k hk i x hx]
    unfold keepIn
    rw [if_neg hp, hv, Option.bind_some]
    cases v with
    | int i => unfold keep; exact if_pos hz
    | dbl x =>
      unfold keep
      cases hzx : nz x with
      | true => simp [hzx]
      | false => exact absurd hzx hz
    | arr xs => rfl
  old := fun k x hx => h.none k x (Or.inr (Or.inl (list_lt h0 hx)))

theorem setC_copy {S N0 : CMesh D} {m : SetD} (hm : ∀ p, some p ∈ m.ents → p.1 < 4 ∧ p.2 ∈ S.F.list p.1) :
    SetCopy S (newOf S N0) m (setC S N0 m) where
  head := ⟨rfl, rfl⟩
  ents := by
    unfold setC
    have : ∀ p ∈ m.ents.filterMap id, p.2 ∈ S.F.list p.1 := by
      intro p hp
      obtain ⟨o, ho, e⟩ := List.mem_filterMap.1 hp
      rw [show o = some p from e] at ho
      exact (hm p ho).2
    generalize m.ents.filterMap id = es at this
    induction es with
    | nil => exact .nil
    | cons p ps ih =>
      exact .cons ⟨_, rfl, corr_off _ (this p (by simp))⟩ (ih fun q hq => this q (List.mem_cons_of_mem _ hq))

/-! ### theorems -/

/-- `MESH_Copy` adds a copy of the source to the destination; if asked to, with the attributes but the
one called `copyatt`, and with the sets.  Missing from the property: values that are 0 are left out
(`C60_negation_zero`), faces with more than 30 edges are not copied (`C60_negation_edges`), and IDs the
destination gives later may be those of entities it has (`C60_negation_id`). -/
theorem C60_copy_partial {nz : D → Bool} {S N0 : CMesh D} (hS : S.Ok) (h0 : N0.F.Sound)
    (hsize : N0.F.vl.length + N0.F.el.length + N0.F.fl.length + N0.F.rl.length + (S.F.vl.length + S.F.el.length +
      S.F.fl.length + S.F.rl.length) < 2147483648) (withAttr withSets : Bool) :
    ∃ N new as ms, meshCopy nz S N0 withAttr withSets = .ok N ∧ Joined S N0 N new ∧
      N.F.atts = N0.F.atts ++ as ∧ N.sets = N0.sets ++ ms ∧
      (if withAttr then List.Forall₂ (AttCopy nz S N0 new) (S.F.atts.filter fun a => a.name ≠ copyName) as
        else as = []) ∧
      (if withSets then List.Forall₂ (SetCopy S new) S.sets ms else ms = []) := by
  obtain ⟨s1, s2, s3, s4, h1, h2, h3, h4, hi⟩ := loops_ok hS.mesh h0 hS.edges hS.faces
  obtain ⟨Bs, b1, b2⟩ := copyAtts_ok (nz := nz) hS.mesh hi S.F.atts fun a ha => ⟨(hS.atts a ha).1, (hS.atts a ha).2.2⟩
  have c1 := copySets_ok hS.mesh hi S.sets hS.sets
  have hj := cop_joined hS.mesh h0 hi hsize
  have hb : List.Forall₂ (AttCopy nz S N0 (newOf S N0)) (S.F.atts.filter fun a => a.name ≠ copyName) Bs := by
    have hc : ∀ a ∈ S.F.atts.filter (fun a => a.name ≠ copyName), a.ncomp = compsOf a.ty a.ncomp :=
      fun a ha => (hS.atts a (List.mem_filter.1 ha).1).2.1
    generalize S.F.atts.filter (fun a => a.name ≠ copyName) = as at b2 hc
    clear b1
    induction b2 with
    | nil => exact .nil
    | cons hh _ ih =>
      exact .cons (carried_copy h0 (hc _ (by simp)) hh) (ih fun a ha => hc a (List.mem_cons_of_mem _ ha))
  have hm : List.Forall₂ (SetCopy S (newOf S N0)) S.sets (S.sets.map (setC S N0)) := by
    have hs := hS.sets
    clear c1
    generalize S.sets = ms at hs
    induction ms with
    | nil => exact .nil
    | cons m ms ih => exact .cons (setC_copy (hs m (by simp)).2) (ih fun m' hm' => hs m' (List.mem_cons_of_mem _ hm'))
  refine ⟨{ s4.N with F := { s4.N.F with atts := N0.F.atts ++ if withAttr then Bs else [] },
                      sets := N0.sets ++ if withSets then S.sets.map (setC S N0) else [] }, newOf S N0,
    if withAttr then Bs else [], if withSets then S.sets.map (setC S N0) else [], ?_, { hj with mesh := { hj.mesh with } },
    rfl, rfl, ?_, ?_⟩
  · unfold meshCopy
    rw [h1, Res.bind_ok, h2, Res.bind_ok, h3, Res.bind_ok, h4, Res.bind_ok, ← hi.atts, ← hi.sets]
    cases withAttr <;> cases withSets <;> simp [b1, c1]
  · cases withAttr
    · simp
    · simpa using hb
  · cases withSets
    · simp
    · simpa using hm

/-! ### examples -/

theorem copyRefs_ub {s : St D} {k : Nat} {dir : Nat → Res Bool} {cap : Nat} {l : List Nat} {n : Nat}
    (hk : Known (s.cp k) l n l.length) : ∀ (ps : List (Nat × Bool)) (j : Nat), j ≤ cap → cap < j + ps.length →
    (∀ i p, ps[i]? = some p → dir (j+i) = .ok p.2) → (∀ p ∈ ps, p.1 ∈ l) →
    copyRefs s k dir cap j (ps.map (·.1)) = .ub
  | [], _, hj, hc, _, _ => absurd hc (by simp; omega)
  | p :: ps, j, hj, hc, h1, h2 => by
    rw [List.length_cons] at hc
    rw [List.map_cons]
    unfold copyRefs
    by_cases hjc : cap ≤ j
    · rw [if_pos hjc]
    · rw [if_neg hjc, copyOf_ok hk (h2 p (by simp)), Res.bind_ok, show dir j = Res.ok p.2 from h1 0 p rfl,
        Res.bind_ok, copyRefs_ub hk ps (j+1) (by omega) (by omega)
        (fun i q hq => by rw [Nat.add_assoc, Nat.add_comm 1 i]; exact h1 (i+1) q hq)
        (fun q hq => h2 q (List.mem_cons_of_mem _ hq))]
      rfl

theorem copyF_ub {S N0 : CMesh D} (h : S.F.Sound) {s : St D} {nf nr : Nat}
    (hi : Cop S N0 s S.F.vl.length S.F.el.length nf nr) {f : Nat} (hf : S.F.fl[nf]? = some f)
    (h30 : 30 < (S.F.T.view.edges f).length) : copyF S f s = .ub := by
  have hmem : f ∈ S.F.fl := List.mem_of_getElem? hf
  have hl := (h.fl.2 f).1 hmem
  obtain ⟨⟨l, hfe⟩, h32⟩ := h.edges f hmem
  have hvw : S.F.T.view.edges f = Topo.pairs l (Topo.fbit (S.F.T.fd f)) := Topo.edgesOf_some hfe
  have q1 : S.F.T.mfEdges f true none = .ok ((S.F.T.view.edges f).map (·.1)) := by
    rw [hvw, Topo.pairs_map_fst]; exact Topo.mfEdges_plain (Topo.alloc_of_live hl) hfe
  have q2 : copyRefs s 1 (S.F.T.mfEdgeDir_i f) 30 0 ((S.F.T.view.edges f).map (·.1)) = .ub := by
    refine copyRefs_ub hi.cp1 _ 0 (by omega) (by omega) ?_ fun p hp => h.edgesLive hmem hp
    intro i p hp
    have hi : i < (S.F.T.view.edges f).length := (List.getElem?_eq_some_iff.1 hp).1
    rw [Nat.zero_add]
    exact ((Topo.C49_view h.cons).2.1 f hl (by intro h0; rw [h0] at hi; exact absurd hi (by simp))).2 i p
      (by omega) hp
  unfold copyF
  simp only [q1, q2, Res.bind_ok, Res.bind_ub]

theorem loop_ub {σ : Type} {step : Nat → σ → Res σ} {l : List Nat} {P : σ → Nat → Prop} {bad : Nat → Prop}
    (hstep : ∀ k x s, l[k]? = some x → P s k → ¬ bad x → ∃ s', step x s = .ok s' ∧ P s' (k+1))
    (hbad : ∀ k x s, l[k]? = some x → P s k → bad x → step x s = .ub) :
    ∀ (xs : List Nat) (k : Nat) (s : σ), l.drop k = xs → P s k → (∃ x ∈ xs, bad x) → loop step xs s = .ub
  | [], _, s, _, h, ⟨x, hx, _⟩ => by cases hx
  | x :: xs, k, s, hd, h, hb => by
    have hv : l[k]? = some x := by rw [← List.head?_drop, hd]; rfl
    have hx : l.drop (k+1) = xs := by rw [← List.tail_drop, hd]; rfl
    unfold loop
    by_cases hbx : bad x
    · rw [hbad k x s hv h hbx]; rfl
    · obtain ⟨s1, h1, p1⟩ := hstep k x s hv h hbx
      rw [h1, Res.bind_ok]
      refine loop_ub hstep hbad xs (k+1) s1 hx p1 ?_
      obtain ⟨y, hy, hyb⟩ := hb
      rcases List.mem_cons.1 hy with rfl | hy
      · exact absurd hyb hbx
      · exact ⟨y, hy, hyb⟩

/-- The copy of a mesh that has a face with more than 30 edges (32 are possible) is undefined. -/
theorem C60_negation_edges {nz : D → Bool} {S N0 : CMesh D} (h : S.F.Sound) (h0 : N0.F.Sound) {f : Nat}
    (hf : f ∈ S.F.fl) (h30 : 30 < (S.F.T.view.edges f).length) (withAttr withSets : Bool) :
    meshCopy nz S N0 withAttr withSets = .ub := by
  obtain ⟨s1, h1, i1⟩ := loop_ok (l := S.F.vl) (P := fun s k => Cop S N0 s k 0 0 0)
    (fun k x s hx hs => cop_copyV h hs hx) S.F.vl 0 _ rfl (cop_start h0.cons)
  rw [Nat.zero_add] at i1
  obtain ⟨s2, h2, i2⟩ := loop_ok (l := S.F.el) (P := fun s k => Cop S N0 s S.F.vl.length k 0 0)
    (fun k x s hx hs => cop_copyE h hs hx) S.F.el 0 _ rfl i1
  rw [Nat.zero_add] at i2
  have h3 := loop_ub (l := S.F.fl) (P := fun s k => Cop S N0 s S.F.vl.length S.F.el.length k 0)
    (bad := fun f => 30 < (S.F.T.view.edges f).length)
    (fun k x s hx hs hb => cop_copyF h hs hx (by omega)) (fun k x s hx hs hb => copyF_ub h hs hx hb)
    S.F.fl 0 _ rfl i2 ⟨f, hf, h30⟩
  unfold meshCopy
  rw [h1, Res.bind_ok, h2, Res.bind_ok, h3]
  rfl

/-- a mesh: two tetrahedra, an edge, attributes with values that are 0 and one called `copyatt`, and two sets -/
def someC (T : Topo) : CMesh Int where
  F := someMesh T (someAtts ++ [⟨copyName, .int, 1, 0, fun _ _ => some (.int 5)⟩])
  par := fun k x => ⟨(k + x) % 4, x % 3, 100 + x, x % 2 = 0⟩
  sets := [⟨['s','1'], 2, [some (2, 3), none, some (2, 0)]⟩, ⟨['a','l','l'], 5, [some (0, 6), some (3, 1)]⟩]
  top := fun _ => 20

theorem someC_ok : ∃ T, Topo.empty.run twoTetsGap = .ok T ∧ (someC T).Ok := by
  obtain ⟨T, h1, h⟩ := someMesh_ok
  have hq : Topo.answer twoTetsGap (fun T => .ok (
      [0, 1, 2, 3, 4, 5, 6].all (fun f => decide ((T.edgesOf f).length ≤ 30)) &&
      [1, 0].all fun r => decide ((T.view.faces r).length ≤ 512))) = .ok true := by decide +kernel
  unfold Topo.answer at hq
  rw [h1, Res.bind_ok, Res.ok.injEq] at hq
  simp only [Bool.and_eq_true, List.all_eq_true, decide_eq_true_iff] at hq
  refine ⟨T, h1, { mesh := { h.toSound with }, edges := hq.1, faces := hq.2, atts := ?_, sets := ?_ }⟩
  · intro a ha
    have ha : a ∈ someAtts ++ [_] := ha
    unfold someAtts at ha
    simp only [List.mem_cons, List.not_mem_nil, or_false, List.cons_append, List.nil_append] at ha
    rcases ha with rfl | rfl | rfl | rfl | rfl | rfl
    · exact ⟨by decide, by decide, fun _ k x v h => by simp only at h; split at h <;> cases h; rfl⟩
    · exact ⟨by decide, by decide, fun _ k x v h => by simp only at h; split at h <;> cases h; rfl⟩
    · exact ⟨by decide, by decide, fun _ k x v h => by
        simp only at h; split at h <;> cases h; exact ⟨Or.inl rfl, rfl⟩⟩
    · exact ⟨by decide, by decide, fun _ k x v h => by cases h⟩
    · exact ⟨by decide, by decide, fun hp => absurd rfl hp⟩
    · exact ⟨by decide, by decide, fun _ k x v h => by cases h; rfl⟩
  · intro m hm
    have hm : m ∈ [SetD.mk ['s','1'] 2 [some (2, 3), none, some (2, 0)], ⟨['a','l','l'], 5, [some (0, 6), some (3, 1)]⟩] := hm
    simp only [List.mem_cons, List.not_mem_nil, or_false] at hm
    rcases hm with rfl | rfl
    · refine ⟨by decide, fun p hp => ?_⟩
      simp only [List.mem_cons, List.not_mem_nil, or_false, Option.some.injEq, reduceCtorEq, false_or] at hp
      rcases hp with rfl | rfl
      · exact ⟨by decide, show 3 ∈ [0, 1, 2, 3, 4, 5, 6] by decide⟩
      · exact ⟨by decide, show 0 ∈ [0, 1, 2, 3, 4, 5, 6] by decide⟩
    · refine ⟨by decide, fun p hp => ?_⟩
      simp only [List.mem_cons, List.not_mem_nil, or_false, Option.some.injEq] at hp
      rcases hp with rfl | rfl
      · exact ⟨by decide, show 6 ∈ [0, 1, 2, 3, 4, 6] by decide⟩
      · exact ⟨by decide, show 1 ∈ [1, 0] by decide⟩

/-- The hypotheses of `C60_copy_partial` hold for that mesh as source and as destination. -/
example : ∃ T N new, Topo.empty.run twoTetsGap = .ok T ∧
    meshCopy (fun x => x ≠ 0) (someC T) (someC T) true true = .ok N ∧ Joined (someC T) (someC T) N new ∧
    N.F.atts.length = 11 ∧ N.sets.length = 4 := by
  obtain ⟨T, h1, h⟩ := someC_ok
  obtain ⟨N, new, as, ms, a, b, c, d, e, f⟩ := C60_copy_partial (nz := fun x => x ≠ 0) h h.mesh
    (show 6 + 10 + 7 + 2 + (6 + 10 + 7 + 2) < 2147483648 by decide) true true
  simp only [if_true] at e f
  refine ⟨T, N, new, h1, a, b, ?_, ?_⟩
  · rw [c, List.length_append, ← e.length_eq]; rfl
  · rw [d, List.length_append, ← f.length_eq]; rfl

/-- one vertex with ID 2 and an attribute that is 0 on it -/
def dotC : CMesh Int :=
  let N := CMesh.new 0
  { N with F := { N.F with T := Topo.empty.mvNew.1, vl := [0], vid := fun _ => 2,
                           atts := [⟨['a'], .int, 1, 0, fun k x => if k = 0 ∧ x = 0 then some (.int 0) else none⟩] } }

/-- The values of `MESH_Copy` that are 0: the vertex has a value in the source, its copy has none. -/
theorem C60_negation_zero : ∃ N, meshCopy (fun x => x ≠ 0) dotC (CMesh.new 0) true true = .ok N ∧
    (dotC.F.atts.map fun a => a.val 0 0) = [some (.int 0)] ∧ N.F.vl = [0] ∧
    (N.F.atts.map fun a => a.val 0 0) = [none] := ⟨_, rfl, rfl, rfl, rfl⟩

/-- The IDs of `MESH_Copy`: those of the source are set, the largest ID of the destination does not
follow; a vertex made afterwards has an ID that is in use. -/
theorem C60_negation_id : ∃ N, meshCopy (fun x => x ≠ 0) dotC (CMesh.new 0) true true = .ok N ∧
    N.F.vl = [0] ∧ N.F.vid 0 = 2 ∧ (newVertex N).2 = 1 ∧ (newVertex N).1.F.vl = [0, 1] ∧
    (newVertex N).1.F.vid 0 = 2 ∧ (newVertex N).1.F.vid 1 = 2 := ⟨_, rfl, rfl, rfl, rfl, rfl, rfl, rfl⟩

/-- a polygon with `n` sides -/
def polygon (n : Nat) : List Topo.Op :=
  List.replicate n .newVertex ++ List.replicate n .newEdge ++
  (List.range n).flatMap (fun i => [.setVertex i false i, .setVertex i true ((i + 1) % n)]) ++
  [.newFace, .setEdges 0 ((List.range n).map fun i => (i, true))]

/-- The hypotheses of `C60_negation_edges` hold for a polygon with 31 sides. -/
example : ∃ T, Topo.empty.run (polygon 31) = .ok T ∧ ∃ S : CMesh Int, S.F.Sound ∧ S.F.T = T ∧ 0 ∈ S.F.fl ∧
    30 < (S.F.T.view.edges 0).length := by
  obtain ⟨T, h1, h2⟩ := Topo.reachable (os := polygon 31) (by decide +kernel)
  have hq : Topo.answer (polygon 31) (fun T => .ok (
      listB (List.range 31) T.sv T.nv && listB (List.range 31) T.se T.ne &&
      listB [0] T.sf T.nf && listB [] T.sr T.nr &&
      (List.range 31).all (fun e => (T.ev e).1.isSome && (T.ev e).2.isSome) &&
      [0].all (fun f => (T.fe f).isSome && decide ((T.edgesOf f).length ≤ 32)) &&
      decide (30 < (T.edgesOf 0).length))) = .ok true := by decide +kernel
  unfold Topo.answer at hq
  rw [h1, Res.bind_ok, Res.ok.injEq] at hq
  simp only [Bool.and_eq_true, List.all_eq_true, decide_eq_true_iff] at hq
  obtain ⟨⟨⟨⟨⟨⟨a, b⟩, c⟩, d⟩, e⟩, f⟩, g⟩ := hq
  refine ⟨T, h1, { CMesh.new (0 : Int) with F := { (CMesh.new (0 : Int)).F with T := T, vl := List.range 31, el := List.range 31, fl := [0] } },
    { cons := h2
      vl := listB_sound a h2.newV
      el := listB_sound b h2.newE
      fl := listB_sound c h2.newF
      rl := listB_sound d h2.newR
      ends := fun x hx => ?_
      edges := fun x hx => ⟨Option.isSome_iff_exists.1 (f x hx).1, (f x hx).2⟩
      faces := fun x hx => by cases hx
      vc := fun _ _ => show ClassOk (4, 0) from ⟨by decide, by decide, by decide, by decide⟩
      ec := fun _ _ => show ClassOk (4, 0) from ⟨by decide, by decide, by decide, by decide⟩
      fc := fun _ _ => show ClassOk (4, 0) from ⟨by decide, by decide, by decide, by decide⟩
      rc := fun _ _ => show ClassOk (4, 0) from ⟨by decide, by decide, by decide, by decide⟩
      size := show 31 + 31 + 1 + 0 < 2147483648 by decide }, rfl, by simp, g⟩
  obtain ⟨p, hp⟩ := Option.isSome_iff_exists.1 (e x hx).1
  obtain ⟨q, hq⟩ := Option.isSome_iff_exists.1 (e x hx).2
  exact ⟨p, q, Prod.ext hp hq⟩

end Copy
end MSTK
