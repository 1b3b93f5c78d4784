import Verif.GraphModel
import Verif.Props.Effects
import Verif.Props.Queries

/-!
C62: the element graph of a mesh lists for every element the elements next to it.

Specification: `Describes` reads the graph the way a partitioner does: the neighbours of element
`i` are the entries of `adjelems` from `adjbeg[i]` up to `adjbeg[i+1]`, elements are counted from 0
in the order of the mesh.  Element `j` has to be listed there once for every side the two elements
share.
-/
namespace MSTK
namespace Topo

/-- the entries for element `i` -/
def Graph.nbrs (g : Graph) (i : Nat) : List Int :=
  (g.adj.drop (g.beg.getD i 0)).take (g.beg.getD (i+1) 0 - g.beg.getD i 0)

/-- `g` is the adjacency graph of the elements `els`; `share x y` is the number of sides two elements
have in common. -/
structure Graph.Describes (g : Graph) (els : List Nat) (share : Nat → Nat → Nat) : Prop where
  num : g.n = els.length
  size : g.beg.length = els.length + 1
  first : g.beg[0]? = some 0
  last : g.beg[els.length]? = some g.adj.length
  mono : ∀ i : Nat, i < els.length → g.beg.getD i 0 ≤ g.beg.getD (i+1) 0
  /-- only elements of the mesh are listed -/
  range : ∀ (i : Nat) k, i < els.length → k ∈ g.nbrs i → ∃ j : Nat, j < els.length ∧ k = (j : Int)
  /-- every other element as often as it shares a side, the element itself not at all -/
  count : ∀ (i j : Nat) x y, els[i]? = some x → els[j]? = some y →
    (g.nbrs i).count (j : Int) = if x = y then 0 else share x y

/-- the number of faces two regions have in common -/
def sharedFaces (T : Topo) (x y : Nat) : Nat :=
  ((T.view.faces x).filter fun p => p.1 ∈ (T.view.faces y).map (·.1)).length

/-- the number of edges two faces have in common -/
def sharedEdges (T : Topo) (x y : Nat) : Nat :=
  ((T.view.edges x).filter fun p => p.1 ∈ (T.view.edges y).map (·.1)).length

/-- `l` lists the live entities of a kind, once each -/
def Lists (l : List Nat) (s : Nat → Stat) : Prop := l.Nodup ∧ ∀ x, x ∈ l ↔ s x = .live

/-- IDs count the entities from 1 in the order of the mesh -/
def Numbered (l : List Nat) (id : Nat → Int) : Prop := ∀ (i : Nat) x, l[i]? = some x → id x = i + 1

/-! ### proofs -/

/-- start of the next element after each of the lists -/
def offs : Nat → List (List Int) → List Nat
  | p, [] => [p]
  | p, l :: ls => p :: offs (p + l.length) ls

theorem offs_length : ∀ ls p, (offs p ls).length = ls.length + 1
  | [], _ => rfl
  | l :: ls, p => by simp [offs, offs_length ls]

theorem offs_first : ∀ ls p, (offs p ls)[0]? = some p
  | [], _ => rfl
  | _ :: _, _ => rfl

theorem offs_at : ∀ (ls : List (List Int)) (p i : Nat), i ≤ ls.length →
    (offs p ls)[i]? = some (p + (ls.take i).flatten.length)
  | ls, p, 0, _ => by rw [offs_first]; simp
  | [], _, i+1, h => by simp at h
  | l :: ls, p, i+1, h => by
    show (offs (p + l.length) ls)[i]? = _
    rw [offs_at ls _ i (by simpa using h)]
    simp [List.length_append, Nat.add_assoc]

theorem seg_at (ls : List (List Int)) (i : Nat) (l : List Int) (h : ls[i]? = some l) :
    (ls.flatten.drop (ls.take i).flatten.length).take l.length = l := by
  obtain ⟨hi, rfl⟩ := List.getElem?_eq_some_iff.1 h
  have e : ls = ls.take i ++ ls[i] :: ls.drop (i+1) := by simp
  have e2 : ls.flatten = (ls.take i).flatten ++ (ls[i] ++ (ls.drop (i+1)).flatten) := by
    rw [congrArg List.flatten e, List.flatten_append, List.flatten_cons]
  rw [e2, List.drop_left, List.take_left]

theorem describes_of {els : List Nat} {share : Nat → Nat → Nat} {id : Nat → Int} {nb : Nat → List Nat}
    (hid : Numbered els id) (hnd : els.Nodup) (hm : ∀ x ∈ els, ∀ y ∈ nb x, y ∈ els)
    (hc : ∀ x ∈ els, ∀ y ∈ els, (nb x).count y = if x = y then 0 else share x y) :
    (Graph.mk els.length (offs 0 (els.map fun x => (nb x).map (id · - 1)))
      ((els.map fun x => (nb x).map (id · - 1)).flatten)).Describes els share := by
  generalize hls : (els.map fun x => (nb x).map (id · - 1)) = ls
  have hlen : ls.length = els.length := by rw [← hls, List.length_map]
  have hat : ∀ (i : Nat), i ≤ els.length →
      (offs 0 ls).getD i 0 = (ls.take i).flatten.length := by
    intro i hi
    rw [List.getD_eq_getElem?_getD, offs_at _ _ _ (by omega)]; simp
  have hnext : ∀ (i : Nat) l, ls[i]? = some l →
      (ls.take (i+1)).flatten.length = (ls.take i).flatten.length + l.length := by
    intro i l h
    rw [List.take_add_one, h]; simp
  have hseg : ∀ (i : Nat) x, els[i]? = some x →
      (Graph.mk els.length (offs 0 ls) ls.flatten).nbrs i = (nb x).map (id · - 1) := by
    intro i x hx
    have hi : i < els.length := (List.getElem?_eq_some_iff.1 hx).1
    have hl : ls[i]? = some ((nb x).map (id · - 1)) := by rw [← hls, List.getElem?_map, hx]; rfl
    unfold Graph.nbrs
    rw [show (Graph.mk els.length (offs 0 ls) ls.flatten).beg = offs 0 ls from rfl,
      show (Graph.mk els.length (offs 0 ls) ls.flatten).adj = ls.flatten from rfl,
      hat i (by omega), hat (i+1) (by omega), hnext i _ hl, Nat.add_sub_cancel_left]
    exact seg_at ls i _ hl
  have hnum : ∀ y ∈ els, ∃ j : Nat, els[j]? = some y ∧ id y - 1 = (j : Int) := by
    intro y hy
    obtain ⟨j, hj⟩ := List.mem_iff_getElem?.1 hy
    exact ⟨j, hj, by rw [hid j y hj]; omega⟩
  refine ⟨rfl, by rw [offs_length, hlen], offs_first _ _, ?_, ?_, ?_, ?_⟩
  · rw [offs_at _ _ _ (by omega), List.take_of_length_le (by omega), Nat.zero_add]
  · intro i hi
    obtain ⟨l, hl⟩ : ∃ l, ls[i]? = some l := ⟨ls[i]'(by omega), by rw [List.getElem?_eq_getElem]⟩
    show (offs 0 ls).getD i 0 ≤ (offs 0 ls).getD (i+1) 0
    rw [hat i (by omega), hat (i+1) (by omega), hnext i _ hl]
    omega
  · intro i k hi hk
    rw [hseg i els[i] (List.getElem?_eq_getElem hi)] at hk
    obtain ⟨y, hy, rfl⟩ := List.mem_map.1 hk
    obtain ⟨j, hj, e⟩ := hnum y (hm _ (List.getElem_mem hi) y hy)
    exact ⟨j, (List.getElem?_eq_some_iff.1 hj).1, e⟩
  · intro i j x y hx hy
    have hxm : x ∈ els := List.mem_of_getElem? hx
    have hym : y ∈ els := List.mem_of_getElem? hy
    rw [hseg i x hx, ← hc x hxm y hym]
    rw [List.count_eq_length_filter, List.count_eq_length_filter, List.filter_map, List.length_map]
    congr 1
    apply List.filter_congr
    intro z hz
    obtain ⟨k, hk, e⟩ := hnum z (hm x hxm z hz)
    show (id z - 1 == (j : Int)) = (z == y)
    rw [e]
    by_cases hzy : z = y
    · subst hzy
      have : j = k := (List.getElem?_inj (List.getElem?_eq_some_iff.1 hy).1 hnd).1 (by rw [hy, hk])
      subst this; simp
    · have : k ≠ j := by rintro rfl; rw [hy] at hk; injection hk with hk; exact hzy hk.symm
      simp [hzy]; omega

theorem count_flatMap {p : Nat → Bool} {g : Nat → List Nat} {y : Nat} : ∀ (l : List Nat),
    (∀ f ∈ l, (g f).count y = if p f then 1 else 0) → (l.flatMap g).count y = (l.filter p).length
  | [], _ => rfl
  | f :: l, h => by
    rw [List.flatMap_cons, List.count_append, h f (by simp), count_flatMap l (fun x hx => h x (by simp [hx]))]
    cases hp : p f <;> simp [hp]; omega

theorem shared_eq (l l' : List Nat) (b b' : Nat → Bool) :
    ((pairs l b).filter fun p => p.1 ∈ (pairs l' b').map (·.1)).length =
      (l.filter fun f => f ∈ l').length := by
  rw [pairs_map_fst]
  have h : (l.filter fun f => decide (f ∈ l')) =
      ((pairs l b).filter fun p => decide (p.1 ∈ l')).map (·.1) := by
    conv => lhs; rw [← pairs_map_fst l b]
    rw [List.filter_map]; rfl
  rw [h, List.length_map]

/-! #### regions -/

/-- the region at the other side of a face -/
def oth (T : Topo) (r f : Nat) : List Nat :=
  let l := (T.fr f).1.toList ++ (T.fr f).2.toList
  if l.length = 1 then [] else (oppr l r).toList

/-- the regions next to a region, face by face -/
def nb3 (T : Topo) (r : Nat) : List Nat := ((T.rf r).getD []).flatMap (T.oth r)

theorem RegionHas_iff {T : Topo} (h : T.Consistent) {r f : Nat} :
    T.RegionHas r f ↔ T.sr r = .live ∧ f ∈ (T.rf r).getD [] := by
  rw [mem_facesOf_iff]
  unfold RegionHas
  constructor
  · rintro ⟨hr, d, hd⟩; exact ⟨hr, d, (mrFaceDir_iff h hr).1 hd⟩
  · rintro ⟨hr, d, hd⟩; exact ⟨hr, d, (mrFaceDir_iff h hr).2 hd⟩

theorem oth_count {T : Topo} (h : T.Consistent) {r f y : Nat} (hf : T.sf f = .live)
    (hr : T.RegionHas r f) : (T.oth r f).count y =
      if y ≠ r ∧ T.sr y = .live ∧ f ∈ (T.rf y).getD [] then 1 else 0 := by
  have hr' := (h.mem_fr hf (r := r)).2 hr
  have hy := (h.mem_fr hf (r := y)).trans (RegionHas_iff h)
  have hb := h.notBoth (r := r) (alloc_of_live hf)
  rw [← if_congr (and_congr Iff.rfl hy) rfl rfl]
  unfold oth
  rcases hfr : T.fr f with ⟨a, b⟩
  rw [hfr] at hr' hb
  cases a with
  | none =>
    cases b with
    | none => simp at hr'
    | some b => simp at hr'; subst hr'; simp
  | some a =>
    cases b with
    | none => simp at hr'; subst hr'; simp
    | some b =>
      simp at hr' hb
      by_cases har : a = r
      · subst har
        have hba : b ≠ a := hb rfl
        by_cases hyb : y = b
        · subst hyb; simp [oppr, hba]
        · have : b ≠ y := Ne.symm hyb
          by_cases hya : y = a
          · subst hya; simp [oppr, this]
          · simp [oppr, this, hya, hyb]
      · have hbr : r = b := by rcases hr' with e | e; exact absurd e.symm har; exact e
        subst hbr
        by_cases hya : y = a
        · subst hya; simp [oppr, har]
        · have : a ≠ y := Ne.symm hya
          by_cases hyb : y = r
          · subst hyb; simp [oppr, har]
          · simp [oppr, this, hya, hyb, har]

/-- what the loop over the faces of a region does -/
theorem nbrs3_eq {T : Topo} (h : T.Consistent) {rid : Nat → Int} {r : Nat} :
    ∀ (fs : List Nat) (b : Buf), (∀ f ∈ fs, T.RegionHas r f ∧ T.sf f = .live) → b.out.length ≤ b.cap →
    T.nbrs3 rid r fs b =
      if b.out.length + (fs.flatMap (T.oth r)).length ≤ b.cap then
        .ok ⟨b.cap, b.out ++ (fs.flatMap (T.oth r)).map (rid · - 1)⟩ else .ub := by
  intro fs
  induction fs with
  | nil => intro b _ hb; simp [nbrs3, hb]
  | cons f fs ih =>
    intro b hfs hb
    obtain ⟨hr, hf⟩ := hfs f (by simp)
    have ih' := fun b hb => ih b (fun x hx => hfs x (by simp [hx])) hb
    have hr' := (h.mem_fr hf (r := r)).2 hr
    rw [show T.nbrs3 rid r (f :: fs) b = (do
      let L ← T.mfRegions f
      let l ← Res.ofOption L
      if l.length = 1 then nbrs3 T rid r fs b
      else
        let o ← Res.ofOption (oppr l r)
        T.derefR o
        let b ← b.put3 (rid o - 1)
        nbrs3 T rid r fs b) from rfl]
    unfold mfRegions
    rw [derefF_ok (alloc_of_live hf), Res.bind_ok, Res.pure_eq, Res.bind_ok, List.flatMap_cons]
    have hlive : ∀ o ∈ T.oth r f, T.sr o = .live := by
      intro o ho
      have := oth_count h hf hr (y := o)
      have h2 : 0 < (T.oth r f).count o := List.count_pos_iff.2 ho
      by_cases hc : o ≠ r ∧ T.sr o = .live ∧ f ∈ (T.rf o).getD []
      · exact hc.2.1
      · rw [if_neg hc] at this; omega
    unfold orNull
    generalize hl : (T.fr f).1.toList ++ (T.fr f).2.toList = l
    have hne : l.length ≠ 0 := by
      intro hz
      rw [List.eq_nil_of_length_eq_zero hz] at hl
      rw [List.append_eq_nil_iff] at hl
      rw [hl.1, hl.2] at hr'; simp at hr'
    rw [if_neg hne, Res.ofOption_some, Res.bind_ok]
    have hoth : T.oth r f = if l.length = 1 then [] else (oppr l r).toList := by
      unfold oth; simp only [hl]
    by_cases h1 : l.length = 1
    · rw [if_pos h1, hoth, if_pos h1, List.nil_append, ih' b hb]
    · rw [if_neg h1]
      have h2 : 2 ≤ l.length := by omega
      obtain ⟨o, ho⟩ : ∃ o, oppr l r = some o := by
        unfold oppr
        split
        · exact ⟨l[1], List.getElem?_eq_getElem _⟩
        · exact ⟨l[0], List.getElem?_eq_getElem _⟩
      have hoth' : T.oth r f = [o] := by rw [hoth, if_neg h1, ho]; rfl
      rw [ho, Res.ofOption_some, Res.bind_ok, derefR_ok (alloc_of_live (hlive o (by rw [hoth']; simp))),
        Res.bind_ok, hoth']
      unfold Buf.put3
      by_cases hc : b.out.length = b.cap
      · rw [if_pos hc, Res.bind_ub, if_neg]
        rw [List.length_append, List.length_singleton]; omega
      · have hlt : b.out.length < b.cap := by omega
        rw [if_neg hc, if_pos hlt, Res.bind_ok, ih' _ (by simp; omega)]
        simp only [List.length_append, List.length_singleton, List.map_append, List.map_cons, List.map_nil,
          List.append_assoc, Nat.add_assoc]

theorem loop3_eq {T : Topo} (h : T.Consistent) {rid : Nat → Int} :
    ∀ (rs : List Nat) (beg : List Nat) (b : Buf),
    (∀ r ∈ rs, T.sr r = .live ∧ ∃ l, T.rf r = some l) → b.out.length ≤ b.cap →
    T.loop3 rid rs beg b =
      if b.out.length + (rs.flatMap T.nb3).length ≤ b.cap then
        .ok (beg ++ offs b.out.length (rs.map fun x => (T.nb3 x).map (rid · - 1)),
          ⟨b.cap, b.out ++ (rs.map fun x => (T.nb3 x).map (rid · - 1)).flatten⟩) else .ub := by
  intro rs
  induction rs with
  | nil => intro beg b _ hb; simp [loop3, hb, offs]
  | cons r rs ih =>
    intro beg b hrs hb
    obtain ⟨hr, l, hl⟩ := hrs r (by simp)
    rw [show T.loop3 rid (r :: rs) beg b = (do
      let l ← T.mrFaces r
      let b' ← T.nbrs3 rid r l b
      loop3 T rid rs (beg ++ [b.out.length]) b') from rfl]
    unfold mrFaces
    have hF : ∀ f ∈ l, T.RegionHas r f ∧ T.sf f = .live := by
      intro f hf
      refine ⟨?_, h.rfacesLive hr (by rw [hl]; exact hf)⟩
      have : f ∈ (T.rf r).getD [] := by rw [hl]; exact hf
      rw [mem_facesOf_iff] at this
      obtain ⟨d, hd⟩ := this
      exact ⟨hr, d, (mrFaceDir_iff h hr).2 hd⟩
    have hnb : l.flatMap (T.oth r) = T.nb3 r := by unfold nb3; rw [hl]; rfl
    rw [rfaces_ok (alloc_of_live hr) hl, Res.bind_ok, nbrs3_eq h l b hF hb, hnb, List.flatMap_cons,
      List.length_append]
    by_cases hc : b.out.length + (T.nb3 r).length ≤ b.cap
    · rw [if_pos hc, Res.bind_ok, ih _ _ (fun x hx => hrs x (by simp [hx])) (by simp; omega)]
      simp only [List.length_append, List.length_map, Nat.add_assoc, List.map_cons, List.flatten_cons, offs,
        List.append_assoc, List.cons_append, List.nil_append]
    · rw [if_neg hc, Res.bind_ub, if_neg (by omega)]

theorem flatMap_length_eq {nb : Nat → List Nat} {g : Nat → Int} (els : List Nat) :
    ((els.map fun x => (nb x).map g).flatten).length = (els.flatMap nb).length := by
  induction els with
  | nil => rfl
  | cons x xs ih => simp only [List.map_cons, List.flatten_cons, List.length_append, List.length_map,
      List.flatMap_cons, ih]

/-! #### faces -/

/-- the faces next to a face, edge by edge -/
def nb2 (T : Topo) (f : Nat) : List Nat := ((T.fe f).getD []).flatMap fun e => (T.ef e).filter (· ≠ f)

theorem put2_ok {b : Buf} (h : b.out.length ≤ b.cap) (h0 : 0 < b.cap) (x : Int) :
    ∃ b', b.put2 x = .ok b' ∧ b'.out = b.out ++ [x] ∧ b'.out.length ≤ b'.cap ∧ 0 < b'.cap := by
  unfold Buf.put2
  by_cases hc : b.out.length = b.cap
  · simp only [if_pos hc]
    rw [if_pos (by omega)]
    exact ⟨_, rfl, rfl, by simp; omega, by simp; omega⟩
  · simp only [if_neg hc]
    rw [if_pos (by omega)]
    exact ⟨_, rfl, rfl, by simp; omega, h0⟩

theorem around_ok {T : Topo} {fid : Nat → Int} {f : Nat} : ∀ (gs : List Nat) (b : Buf),
    (∀ g ∈ gs, T.sf g = .live) → b.out.length ≤ b.cap → 0 < b.cap →
    ∃ b', T.around fid f gs b = .ok b' ∧ b'.out = b.out ++ (gs.filter (· ≠ f)).map (fid · - 1) ∧
      b'.out.length ≤ b'.cap ∧ 0 < b'.cap := by
  intro gs
  induction gs with
  | nil => intro b _ h h0; exact ⟨b, rfl, by simp, h, h0⟩
  | cons g gs ih =>
    intro b hg h h0
    have hg' : ∀ x ∈ gs, T.sf x = .live := fun x hx => hg x (by simp [hx])
    rw [show T.around fid f (g :: gs) b = (if g ≠ f then do
      T.derefF g
      let b ← b.put2 (fid g - 1)
      around T fid f gs b
    else around T fid f gs b) from rfl]
    by_cases hgf : g ≠ f
    · obtain ⟨b1, e1, e2, e3, e4⟩ := put2_ok h h0 (fid g - 1)
      obtain ⟨b2, e5, e6, e7, e8⟩ := ih b1 hg' e3 e4
      refine ⟨b2, ?_, ?_, e7, e8⟩
      · rw [if_pos hgf, derefF_ok (alloc_of_live (hg g (by simp))), Res.bind_ok, e1, Res.bind_ok, e5]
      · rw [e6, e2, List.filter_cons_of_pos (by simpa using hgf), List.map_cons, List.append_assoc]; rfl
    · obtain ⟨b2, e5, e6, e7, e8⟩ := ih b hg' h h0
      refine ⟨b2, ?_, ?_, e7, e8⟩
      · rw [if_neg hgf, e5]
      · rw [e6, List.filter_cons_of_neg (by simpa using hgf)]

theorem nbrs2_ok {T : Topo} (h : T.Consistent) {fid : Nat → Int} {f : Nat} : ∀ (es : List Nat) (b : Buf),
    (∀ e ∈ es, T.se e = .live ∧ f ∈ T.ef e) → b.out.length ≤ b.cap → 0 < b.cap →
    ∃ b', T.nbrs2 fid f es b = .ok b' ∧
      b'.out = b.out ++ (es.flatMap fun e => (T.ef e).filter (· ≠ f)).map (fid · - 1) ∧
      b'.out.length ≤ b'.cap ∧ 0 < b'.cap := by
  intro es
  induction es with
  | nil => intro b _ hb h0; exact ⟨b, rfl, by simp, hb, h0⟩
  | cons e es ih =>
    intro b hes hb h0
    obtain ⟨he, hf⟩ := hes e (by simp)
    have hes' : ∀ x ∈ es, T.se x = .live ∧ f ∈ T.ef x := fun x hx => hes x (by simp [hx])
    rw [show T.nbrs2 fid f (e :: es) b = (do
      let L ← T.meFaces e
      let l ← Res.ofOption L
      if l.length = 1 then nbrs2 T fid f es b
      else
        let b ← T.around fid f l b
        nbrs2 T fid f es b) from rfl]
    have hmf : T.meFaces e = .ok (some (T.ef e)) := by
      unfold meFaces
      rw [derefE_ok (alloc_of_live he), Res.bind_ok, if_neg]
      · rfl
      · intro hz; rw [List.eq_nil_of_length_eq_zero hz] at hf; cases hf
    rw [hmf, Res.bind_ok, Res.ofOption_some, Res.bind_ok, List.flatMap_cons]
    by_cases h1 : (T.ef e).length = 1
    · obtain ⟨b2, e1, e2, e3⟩ := ih b hes' hb h0
      have : (T.ef e).filter (fun g => decide (g ≠ f)) = [] := by
        obtain ⟨x, hx⟩ := List.length_eq_one_iff.1 h1
        rw [hx] at hf ⊢
        rw [List.mem_singleton] at hf
        subst hf; simp
      rw [if_pos h1, this]
      exact ⟨b2, e1, e2, e3⟩
    · obtain ⟨b1, e1, e2, e3, e4⟩ := around_ok (T := T) (fid := fid) (f := f) (T.ef e) b
        (fun g hg => ((h.ef.mem e (alloc_of_live he) g).1 hg).1) hb h0
      obtain ⟨b2, e5, e6, e7⟩ := ih b1 hes' e3 e4
      rw [if_neg h1, e1, Res.bind_ok]
      exact ⟨b2, e5, by rw [e6, e2, List.map_append, List.append_assoc], e7⟩

theorem loop2_ok {T : Topo} (h : T.Consistent) {fid : Nat → Int} :
    ∀ (fs : List Nat) (beg : List Nat) (b : Buf),
    (∀ f ∈ fs, T.sf f = .live ∧ ∃ l, T.fe f = some l) → b.out.length ≤ b.cap → (fs ≠ [] → 0 < b.cap) →
    ∃ c, T.loop2 fid fs beg b =
        .ok (beg ++ offs b.out.length (fs.map fun x => (T.nb2 x).map (fid · - 1)),
          ⟨c, b.out ++ (fs.map fun x => (T.nb2 x).map (fid · - 1)).flatten⟩) := by
  intro fs
  induction fs with
  | nil => intro beg b _ hb _; exact ⟨b.cap, by simp [loop2, offs]⟩
  | cons f fs ih =>
    intro beg b hfs hb h0
    obtain ⟨hf, l, hl⟩ := hfs f (by simp)
    rw [show T.loop2 fid (f :: fs) beg b = (do
      let l ← T.mfEdges f true none
      let b' ← T.nbrs2 fid f l b
      loop2 T fid fs (beg ++ [b.out.length]) b') from rfl]
    have hlive := h.fedgesLive hf hl
    have hE : ∀ e ∈ l, T.se e = .live ∧ f ∈ T.ef e := by
      intro e he
      refine ⟨hlive e he, (h.ef.mem e (alloc_of_live (hlive e he)) f).2 ⟨hf, ?_⟩⟩
      unfold bounds; rw [hl]; exact he
    obtain ⟨b1, e1, e2, e3, e4⟩ := nbrs2_ok h (fid := fid) l b hE hb (h0 (by simp))
    have hnb : (l.flatMap fun e => (T.ef e).filter (· ≠ f)) = T.nb2 f := by unfold nb2; rw [hl]; rfl
    rw [hnb] at e2
    obtain ⟨c, e5⟩ := ih (beg ++ [b.out.length]) b1 (fun x hx => hfs x (by simp [hx])) e3 (fun _ => e4)
    rw [mfEdges_plain (alloc_of_live hf) hl, Res.bind_ok, e1, Res.bind_ok, e5]
    refine ⟨c, ?_⟩
    rw [e2]
    simp only [List.length_append, List.length_map, List.map_cons, List.flatten_cons, offs,
        List.append_assoc, List.cons_append, List.nil_append]

theorem nb3_count {T : Topo} (h : T.Consistent) {x y : Nat} (hx : T.sr x = .live) (hy : T.sr y = .live) :
    (T.nb3 x).count y = if x = y then 0 else T.sharedFaces x y := by
  have hs : T.sharedFaces x y = (((T.rf x).getD []).filter fun f => f ∈ (T.rf y).getD []).length :=
    shared_eq _ _ _ _
  have hF : ∀ f ∈ (T.rf x).getD [], T.RegionHas x f ∧ T.sf f = .live := fun f hf =>
    ⟨(RegionHas_iff h).2 ⟨hx, hf⟩, h.rfacesLive hx hf⟩
  unfold nb3
  by_cases hxy : x = y
  · rw [if_pos hxy]
    rw [count_flatMap (p := fun _ => false)]
    · simp
    · intro f hf
      rw [oth_count h (hF f hf).2 (hF f hf).1, if_neg (fun hc => hc.1 hxy.symm)]
      rfl
  · rw [if_neg hxy, hs]
    apply count_flatMap
    intro f hf
    rw [oth_count h (hF f hf).2 (hF f hf).1]
    by_cases hc : f ∈ (T.rf y).getD []
    · rw [if_pos ⟨Ne.symm hxy, hy, hc⟩, if_pos (by simpa using hc)]
    · rw [if_neg (fun k => hc k.2.2), if_neg (by simpa using hc)]

theorem nb3_live {T : Topo} (h : T.Consistent) {x y : Nat} (hx : T.sr x = .live) (hy : y ∈ T.nb3 x) :
    T.sr y = .live := by
  obtain ⟨f, hf, h2⟩ := List.mem_flatMap.1 hy
  have h3 := oth_count h (h.rfacesLive hx hf) ((RegionHas_iff h).2 ⟨hx, hf⟩) (y := y)
  have h4 : 0 < (T.oth x f).count y := List.count_pos_iff.2 h2
  by_cases hc : y ≠ x ∧ T.sr y = .live ∧ f ∈ (T.rf y).getD []
  · exact hc.2.1
  · rw [if_neg hc] at h3; omega

theorem nb2_count {T : Topo} (h : T.Consistent) {x y : Nat} (hx : T.sf x = .live) (hy : T.sf y = .live) :
    (T.nb2 x).count y = if x = y then 0 else T.sharedEdges x y := by
  have hs : T.sharedEdges x y = (((T.fe x).getD []).filter fun e => e ∈ (T.fe y).getD []).length :=
    shared_eq _ _ _ _
  have hE : ∀ e ∈ (T.fe x).getD [], T.se e = .live := fun e he => h.ef.down x e hx he
  unfold nb2
  by_cases hxy : x = y
  · rw [if_pos hxy]
    rw [count_flatMap (p := fun _ => false)]
    · simp
    · intro e _
      rw [List.count_eq_zero.2]
      · rfl
      · rw [List.mem_filter, hxy]; simp
  · rw [if_neg hxy, hs]
    apply count_flatMap
    intro e he
    have hm := h.ef.mem e (alloc_of_live (hE e he)) y
    have hn := h.ef.nodup e (alloc_of_live (hE e he))
    by_cases hc : e ∈ (T.fe y).getD []
    · rw [if_pos (by simpa using hc), List.count_eq_one_of_mem (hn.filter _)]
      rw [List.mem_filter]
      exact ⟨hm.2 ⟨hy, hc⟩, by simpa using Ne.symm hxy⟩
    · rw [if_neg (by simpa using hc), List.count_eq_zero.2]
      rw [List.mem_filter]
      rintro ⟨h1, _⟩
      exact hc (hm.1 h1).2

theorem nb2_live {T : Topo} (h : T.Consistent) {x y : Nat} (hx : T.sf x = .live) (hy : y ∈ T.nb2 x) :
    T.sf y = .live := by
  obtain ⟨e, he, h2⟩ := List.mem_flatMap.1 hy
  have h3 := (List.mem_filter.1 h2).1
  exact ((h.ef.mem e (alloc_of_live (h.ef.down x e hx he)) y).1 h3).1

theorem sum_ite {els : List Nat} (hnd : els.Nodup) {z : Nat} (hz : z ∈ els) :
    (els.map fun y => if z = y then 1 else 0).sum = 1 := by
  induction els with
  | nil => cases hz
  | cons a els ih =>
    rw [List.nodup_cons] at hnd
    rw [List.map_cons, List.sum_cons]
    by_cases h : z = a
    · subst h
      have : (els.map fun y => if z = y then 1 else 0) = els.map fun _ => 0 := by
        apply List.map_congr_left
        intro y hy
        rw [if_neg]; rintro rfl; exact hnd.1 hy
      rw [if_pos rfl, this]; simp
    · rw [if_neg h, ih hnd.2 (by rcases List.mem_cons.1 hz with h' | h'; exact absurd h' h; exact h')]

theorem sum_add (a b : Nat → Nat) : ∀ (l : List Nat),
    (l.map fun y => a y + b y).sum = (l.map a).sum + (l.map b).sum
  | [] => rfl
  | x :: l => by simp only [List.map_cons, List.sum_cons, sum_add a b l]; omega

theorem sum_count {els : List Nat} (hnd : els.Nodup) : ∀ (l : List Nat), (∀ z ∈ l, z ∈ els) →
    (els.map fun y => l.count y).sum = l.length
  | [], _ => by simp
  | z :: l, h => by
    have e : (els.map fun y => (z :: l).count y) =
        els.map fun y => l.count y + if z = y then 1 else 0 := by
      apply List.map_congr_left
      intro y _
      rw [List.count_cons]
      by_cases hzy : z = y <;> simp [hzy]
    rw [e, sum_add, sum_count hnd l (fun x hx => h x (by simp [hx])), sum_ite hnd (h z (by simp))]
    rfl

/-! ### the property -/

/-- the number of entries of the graph: for every region the faces it shares with another one -/
def neighbours (T : Topo) (rl : List Nat) : Nat :=
  (rl.map fun x => (rl.map fun y => if x = y then 0 else T.sharedFaces x y).sum).sum

theorem neighbours_eq {T : Topo} (h : T.Consistent) {rl : List Nat} (hrl : Lists rl T.sr) :
    (rl.flatMap T.nb3).length = T.neighbours rl := by
  unfold neighbours
  have : ∀ x ∈ rl, (rl.map fun y => if x = y then 0 else T.sharedFaces x y).sum = (T.nb3 x).length := by
    intro x hx
    have hxl := (hrl.2 x).1 hx
    rw [← sum_count hrl.1 (T.nb3 x) (fun z hz => (hrl.2 z).2 (nb3_live h hxl hz))]
    congr 1
    apply List.map_congr_left
    intro y hy
    exact (nb3_count h hxl ((hrl.2 y).1 hy)).symm
  rw [List.map_congr_left this, List.length_flatMap]

/-- **C62, regions.**  `MESH_GetElementGraph` of a mesh with regions whose IDs count them gives their
adjacency graph, provided that the regions have on average at most four neighbours. -/
theorem C62_region_graph_partial {T : Topo} (h : T.Consistent) {fl rl : List Nat} {fid rid : Nat → Int}
    (hrl : Lists rl T.sr) (hdef : ∀ r ∈ rl, ∃ l, T.rf r = some l) (h0 : rl ≠ [])
    (hid : Numbered rl rid) (hsize : T.neighbours rl ≤ 4 * rl.length) :
    ∃ g, T.elementGraph fl rl fid rid = .ok g ∧ g.Describes rl T.sharedFaces := by
  have hlive : ∀ r ∈ rl, T.sr r = .live := fun r hr => (hrl.2 r).1 hr
  refine ⟨_, ?_, describes_of (nb := T.nb3) hid hrl.1
    (fun x hx y hy => (hrl.2 y).2 (nb3_live h (hlive x hx) hy))
    (fun x hx y hy => nb3_count h (hlive x hx) (hlive y hy))⟩
  unfold elementGraph
  rw [if_pos (by simpa using h0), loop3_eq h _ _ _ (fun r hr => ⟨hlive r hr, hdef r hr⟩) (Nat.zero_le _),
    if_pos (show ([] : List Int).length + _ ≤ _ by
      rw [neighbours_eq h hrl]; simpa using hsize), Res.bind_ok]
  rfl

/-- **C62, faces.**  `MESH_GetElementGraph` of a mesh without regions gives the adjacency graph of the
faces, whatever the number of neighbours. -/
theorem C62_face_graph_partial {T : Topo} (h : T.Consistent) {fl : List Nat} {fid rid : Nat → Int}
    (hfl : Lists fl T.sf) (hdef : ∀ f ∈ fl, ∃ l, T.fe f = some l) (hid : Numbered fl fid) :
    ∃ g, T.elementGraph fl [] fid rid = .ok g ∧ g.Describes fl T.sharedEdges := by
  have hlive : ∀ f ∈ fl, T.sf f = .live := fun f hf => (hfl.2 f).1 hf
  refine ⟨_, ?_, describes_of (nb := T.nb2) hid hfl.1
    (fun x hx y hy => (hfl.2 y).2 (nb2_live h (hlive x hx) hy))
    (fun x hx y hy => nb2_count h (hlive x hx) (hlive y hy))⟩
  unfold elementGraph
  obtain ⟨c, e⟩ := loop2_ok h (fid := fid) fl [] ⟨4 * fl.length, []⟩
    (fun r hr => ⟨hlive r hr, hdef r hr⟩) (Nat.zero_le _) (fun hne => by
      have := List.length_pos_iff.2 hne
      show 0 < 4 * fl.length
      omega)
  rw [if_neg (by simp), e, Res.bind_ok]
  rfl

/-- number of entries two lists without repetitions have in common -/
theorem common_symm {l l' : List (Nat × Bool)} (h : (l.map (·.1)).Nodup) (h' : (l'.map (·.1)).Nodup) :
    (l.filter fun p => p.1 ∈ l'.map (·.1)).length = (l'.filter fun p => p.1 ∈ l.map (·.1)).length := by
  have e : ∀ (a b : List (Nat × Bool)), (a.filter fun p => p.1 ∈ b.map (·.1)).length =
      ((a.map (·.1)).filter fun x => x ∈ b.map (·.1)).length := by
    intro a b
    rw [List.filter_map, List.length_map]; rfl
  rw [e, e]
  apply List.Perm.length_eq
  rw [List.perm_ext_iff_of_nodup (h.filter _) (h'.filter _)]
  intro x
  rw [List.mem_filter, List.mem_filter]
  simp [and_comm]

/-- **C62, symmetry.**  In the graph of the regions `j` is listed for `i` as often as `i` for `j`, as
partitioners demand. -/
theorem C62_symmetric_partial {T : Topo} (h : T.Consistent) {fl rl : List Nat} {fid rid : Nat → Int}
    (hrl : Lists rl T.sr) (hdef : ∀ r ∈ rl, ∃ l, T.rf r = some l) (h0 : rl ≠ [])
    (hid : Numbered rl rid) (hsize : T.neighbours rl ≤ 4 * rl.length) :
    ∃ g, T.elementGraph fl rl fid rid = .ok g ∧
      ∀ i j : Nat, i < rl.length → j < rl.length → (g.nbrs i).count (j : Int) = (g.nbrs j).count (i : Int) := by
  obtain ⟨g, h1, h2⟩ := C62_region_graph_partial (fl := fl) (fid := fid) h hrl hdef h0 hid hsize
  refine ⟨g, h1, fun i j hi hj => ?_⟩
  have ei := List.getElem?_eq_getElem hi
  have ej := List.getElem?_eq_getElem hj
  rw [h2.count i j _ _ ei ej, h2.count j i _ _ ej ei]
  by_cases hxy : rl[i] = rl[j]
  · rw [if_pos hxy, if_pos hxy.symm]
  · rw [if_neg hxy, if_neg (Ne.symm hxy)]
    have hn : ∀ x ∈ rl, ((T.view.faces x).map (·.1)).Nodup := by
      intro x hx
      obtain ⟨l, hl⟩ := hdef x hx
      show ((pairs ((T.rf x).getD []) _).map (·.1)).Nodup
      rw [pairs_map_fst, hl]
      exact (h.reg x l (alloc_of_live ((hrl.2 x).1 hx)) hl).1
    exact common_symm (hn _ (List.getElem_mem hi)) (hn _ (List.getElem_mem hj))

/-- **C62, symmetry for faces.**  The same for faces none of which uses an edge twice. -/
theorem C62_face_symmetric_partial {T : Topo} (h : T.Consistent) {fl : List Nat} {fid rid : Nat → Int}
    (hfl : Lists fl T.sf) (hdef : ∀ f ∈ fl, ∃ l, T.fe f = some l ∧ l.Nodup) (hid : Numbered fl fid) :
    ∃ g, T.elementGraph fl [] fid rid = .ok g ∧
      ∀ i j : Nat, i < fl.length → j < fl.length → (g.nbrs i).count (j : Int) = (g.nbrs j).count (i : Int) := by
  obtain ⟨g, h1, h2⟩ := C62_face_graph_partial (rid := rid) h hfl
    (fun f hf => (hdef f hf).imp fun _ h => h.1) hid
  refine ⟨g, h1, fun i j hi hj => ?_⟩
  have ei := List.getElem?_eq_getElem hi
  have ej := List.getElem?_eq_getElem hj
  rw [h2.count i j _ _ ei ej, h2.count j i _ _ ej ei]
  by_cases hxy : fl[i] = fl[j]
  · rw [if_pos hxy, if_pos hxy.symm]
  · rw [if_neg hxy, if_neg (Ne.symm hxy)]
    have hn : ∀ x ∈ fl, ((T.view.edges x).map (·.1)).Nodup := by
      intro x hx
      obtain ⟨l, hl, hnd⟩ := hdef x hx
      show ((pairs ((T.fe x).getD []) _).map (·.1)).Nodup
      rw [pairs_map_fst, hl]
      exact hnd
    exact common_symm (hn _ (List.getElem_mem hi)) (hn _ (List.getElem_mem hj))

/-! ### concrete cases -/

/-- the entities `l` are the live ones among the first `n` -/
def listsB (l : List Nat) (s : Nat → Stat) (n : Nat) : Bool :=
  decide l.Nodup && l.all (fun x => decide (s x = .live)) &&
  (List.range n).all fun x => decide (s x = .live → x ∈ l)

theorem listsB_sound {l : List Nat} {s : Nat → Stat} {n : Nat} (h : listsB l s n = true)
    (hn : ∀ i, n ≤ i → s i = .unused) : Lists l s := by
  unfold listsB at h
  simp only [Bool.and_eq_true, decide_eq_true_iff, List.all_eq_true, List.mem_range] at h
  refine ⟨h.1.1, fun x => ⟨h.1.2 x, fun hx => ?_⟩⟩
  by_cases hlt : x < n
  · exact h.2 x hlt hx
  · rw [hn x (by omega)] at hx; cases hx

/-- in an ordered list of handles counted from 1 -/
theorem numbered_two {a b : Nat} {id : Nat → Int} (ha : id a = 1) (hb : id b = 2) : Numbered [a, b] id := by
  intro i x h
  match i, h with
  | 0, h => injection h with h; subst h; exact ha
  | 1, h => injection h with h; subst h; exact hb

/-- The mesh of two tetrahedra meets the hypotheses of `C62_region_graph_partial`, here with the
regions in the order 1, 0; the graph lists each for the other. -/
example : ∃ T, empty.run twoTets = .ok T ∧ T.Consistent ∧ Lists [1,0] T.sr ∧
    (∀ r ∈ [1,0], ∃ l, T.rf r = some l) ∧ Numbered [1,0] (fun r => 2 - (r : Int)) ∧
    T.neighbours [1,0] ≤ 4 * [1,0].length ∧
    T.elementGraph [] [1,0] (fun _ => 0) (fun r => 2 - (r : Int)) = .ok ⟨2, [0,1,2], [1,0]⟩ := by
  obtain ⟨T, h1, h2⟩ := reachable (os := twoTets) (by decide +kernel)
  have hq : answer twoTets (fun T => .ok (listsB [1,0] T.sr T.nr &&
      [1,0].all (fun r => (T.rf r).isSome) && decide (T.neighbours [1,0] ≤ 4 * [1,0].length) &&
      decide (T.elementGraph [] [1,0] (fun _ => 0) (fun r => 2 - (r : Int)) = .ok ⟨2, [0,1,2], [1,0]⟩)))
      = .ok true := by decide +kernel
  unfold answer at hq
  rw [h1, Res.bind_ok, Res.ok.injEq] at hq
  simp only [Bool.and_eq_true, decide_eq_true_iff, List.all_eq_true] at hq
  obtain ⟨⟨⟨a, b⟩, c⟩, d⟩ := hq
  exact ⟨T, h1, h2, listsB_sound a h2.newR, fun r hr => Option.isSome_iff_exists.1 (b r hr),
    numbered_two rfl rfl, c, d⟩

/-- two triangles sharing an edge, and a third face on that edge -/
def fins : List Op :=
  [.newVertex, .newVertex, .newVertex, .newVertex, .newVertex, .newFace, .setVertices 0 [0,1,2], .newFace,
   .setVertices 1 [1,0,3], .newFace, .setVertices 2 [0,1,4]]

/-- They meet the hypotheses of `C62_face_graph_partial`. -/
example : ∃ T, empty.run fins = .ok T ∧ T.Consistent ∧ Lists [0,1,2] T.sf ∧
    (∀ f ∈ [0,1,2], ∃ l, T.fe f = some l) ∧ Numbered [0,1,2] (fun f => (f : Int) + 1) ∧
    T.elementGraph [0,1,2] [] (fun f => (f : Int) + 1) (fun _ => 0) =
      .ok ⟨3, [0,2,4,6], [1,2,0,2,0,1]⟩ := by
  obtain ⟨T, h1, h2⟩ := reachable (os := fins) (by decide +kernel)
  have hq : answer fins (fun T => .ok (listsB [0,1,2] T.sf T.nf &&
      [0,1,2].all (fun f => (T.fe f).isSome) &&
      decide (T.elementGraph [0,1,2] [] (fun f => (f : Int) + 1) (fun _ => 0) =
        .ok ⟨3, [0,2,4,6], [1,2,0,2,0,1]⟩))) = .ok true := by decide +kernel
  unfold answer at hq
  rw [h1, Res.bind_ok, Res.ok.injEq] at hq
  simp only [Bool.and_eq_true, decide_eq_true_iff, List.all_eq_true] at hq
  obtain ⟨⟨a, b⟩, d⟩ := hq
  refine ⟨T, h1, h2, listsB_sound a h2.newF, fun r hr => Option.isSome_iff_exists.1 (b r hr), ?_, d⟩
  intro i x h
  match i, h with
  | 0, h => injection h with h; subst h; rfl
  | 1, h => injection h with h; subst h; rfl
  | 2, h => injection h with h; subst h; rfl

/-! ### where the library fails -/

/-- **C62, too many neighbours.**  When the regions have on average more than four neighbours, the
array has to grow, and growing it is undefined. -/
theorem C62_negation_realloc {T : Topo} (h : T.Consistent) {fl rl : List Nat} {fid rid : Nat → Int}
    (hrl : Lists rl T.sr) (hdef : ∀ r ∈ rl, ∃ l, T.rf r = some l) (h0 : rl ≠ [])
    (hsize : 4 * rl.length < T.neighbours rl) : T.elementGraph fl rl fid rid = .ub := by
  have hlive : ∀ r ∈ rl, T.sr r = .live := fun r hr => (hrl.2 r).1 hr
  unfold elementGraph
  rw [if_pos (by simpa using h0), loop3_eq h _ _ _ (fun r hr => ⟨hlive r hr, hdef r hr⟩) (Nat.zero_le _),
    if_neg (show ¬ ([] : List Int).length + _ ≤ _ by
      rw [neighbours_eq h hrl]; simpa using hsize), Res.bind_ub]

/-- two prisms with all their faces in common -/
def twoPrisms : List Op :=
  [.newVertex, .newVertex, .newVertex, .newVertex, .newVertex, .newVertex,
   .newFace, .setVertices 0 [0,2,1], .newFace, .setVertices 1 [3,4,5], .newFace, .setVertices 2 [0,1,4,3],
   .newFace, .setVertices 3 [1,2,5,4], .newFace, .setVertices 4 [2,0,3,5],
   .newRegion, .setFaces 0 [(0,true),(1,true),(2,true),(3,true),(4,true)],
   .newRegion, .setFaces 1 [(0,false),(1,false),(2,false),(3,false),(4,false)]]

/-- They meet the hypotheses of `C62_negation_realloc`. -/
example : ∃ T, empty.run twoPrisms = .ok T ∧ T.Consistent ∧ Lists [0,1] T.sr ∧
    (∀ r ∈ [0,1], ∃ l, T.rf r = some l) ∧ 4 * [0,1].length < T.neighbours [0,1] := by
  obtain ⟨T, h1, h2⟩ := reachable (os := twoPrisms) (by decide +kernel)
  have hq : answer twoPrisms (fun T => .ok (listsB [0,1] T.sr T.nr &&
      [0,1].all (fun r => (T.rf r).isSome) && decide (4 * [0,1].length < T.neighbours [0,1])))
      = .ok true := by decide +kernel
  unfold answer at hq
  rw [h1, Res.bind_ok, Res.ok.injEq] at hq
  simp only [Bool.and_eq_true, decide_eq_true_iff, List.all_eq_true] at hq
  obtain ⟨⟨a, b⟩, c⟩ := hq
  exact ⟨T, h1, h2, listsB_sound a h2.newR, fun r hr => Option.isSome_iff_exists.1 (b r hr), c⟩

/-- **C62, IDs.**  When a region was deleted the IDs have a gap, and the graph of the two remaining
elements names a third one. -/
theorem C62_negation_ids :
    answer twoTets (fun T => T.elementGraph [] [0,1] (fun _ => 0) (fun r => if r = 0 then 1 else 3)) =
      .ok ⟨2, [0,1,2], [2,0]⟩ ∧
    ¬ ∃ share, (Graph.mk 2 [0,1,2] [2,0]).Describes [0,1] share := by
  refine ⟨by decide +kernel, ?_⟩
  rintro ⟨share, h⟩
  obtain ⟨j, hj, e⟩ := h.range 0 2 (by decide) (by decide)
  have : j < 2 := hj
  omega

/-- **C62, symmetry for faces.**  A face that uses an edge twice lists its neighbour at that edge twice
and is listed by it once. -/
theorem C62_negation_symmetric :
    answer [.newVertex, .newVertex, .newEdge, .setVertex 0 false 0, .setVertex 0 true 1,
      .newFace, .setEdges 0 [(0,true), (0,false)], .newFace, .setEdges 1 [(0,true)]]
      (fun T => T.elementGraph [0,1] [] (fun f => (f : Int) + 1) (fun _ => 0)) = .ok ⟨2, [0,2,3], [1,1,0]⟩ := by
  decide +kernel

end Topo
end MSTK
