import Verif.FileBuild
import Verif.Props.Adjacency
import Verif.TopoCheck

/-!
C59: what is written to a file in the format of the library and read again is the same mesh.
-/
namespace MSTK
namespace File

/-! ### specification -/

/-- `x` and `x'` are at the same position of their lists -/
def Corr (l l' : List Nat) (x x' : Nat) : Prop := ∃ i : Nat, l[i]? = some x ∧ l'[i]? = some x'

/-- the same integer, numbers in the relation `R` -/
inductive ValRel (R : D → D → Prop) : AVal D → AVal D → Prop
  | int (i : Int) : ValRel R (.int i) (.int i)
  | dbl {x y : D} (h : R x y) : ValRel R (.dbl x) (.dbl y)
  | arr {xs ys : List D} (h : List.Forall₂ R xs ys) : ValRel R (.arr xs) (.arr ys)

/-- both absent or in relation -/
inductive OptRel (R : α → β → Prop) : Option α → Option β → Prop
  | none : OptRel R none none
  | some {x y} (h : R x y) : OptRel R (some x) (some y)

/-- The attributes have the same name, type, number of components and kind of entities, and entities
that correspond have the same values. -/
structure SameAttr (R : D → D → Prop) (M M' : FMesh D) (a a' : Attr D) : Prop where
  head : a'.name = a.name ∧ a'.ty = a.ty ∧ a'.ncomp = a.ncomp ∧ a'.ent = a.ent
  vals : ∀ k ∈ a.kinds, ∀ x x', Corr (M.list k) (M'.list k) x x' → OptRel (ValRel R) (a.val k x) (a'.val k x')

/-- `M'` is the same mesh as `M` with coordinates in the relation `R 16` and attribute values in the
relation `R 6`: the mesh is a mesh; there are as many entities of each kind; entities at the same
position have the same classification and are bounded by entities at the same positions in the same
directions; attributes that hold pointers or have no value are gone, the others are the same. -/
structure Same (R : Nat → D → D → Prop) (M M' : FMesh D) : Prop where
  ok : M'.Ok
  nv : M'.vl.length = M.vl.length
  ne : M'.el.length = M.el.length
  nf : M'.fl.length = M.fl.length
  nr : M'.rl.length = M.rl.length
  vertex : ∀ v v', Corr M.vl M'.vl v v' → M'.vc v' = M.vc v ∧ R 16 (M.xyz v).1 (M'.xyz v').1 ∧
    R 16 (M.xyz v).2.1 (M'.xyz v').2.1 ∧ R 16 (M.xyz v).2.2 (M'.xyz v').2.2
  edge : ∀ e e', Corr M.el M'.el e e' → M'.ec e' = M.ec e ∧
    OptRel (Corr M.vl M'.vl) (M.T.view.ends e).1 (M'.T.view.ends e').1 ∧
    OptRel (Corr M.vl M'.vl) (M.T.view.ends e).2 (M'.T.view.ends e').2
  face : ∀ f f', Corr M.fl M'.fl f f' → M'.fc f' = M.fc f ∧
    List.Forall₂ (fun p q => Corr M.el M'.el p.1 q.1 ∧ q.2 = p.2) (M.T.view.edges f) (M'.T.view.edges f')
  region : ∀ r r', Corr M.rl M'.rl r r' → M'.rc r' = M.rc r ∧
    List.Forall₂ (fun p q => Corr M.fl M'.fl p.1 q.1 ∧ q.2 = p.2) (M.T.view.faces r) (M'.T.view.faces r')
  atts : List.Forall₂ (SameAttr (R 6) M M') (M.atts.filter fun a => a.ty ≠ .ptr && hasValue M a) M'.atts

/-- `y` is what is read where `x` was printed with `k` decimals -/
def Dbl.Reads (dbl : Dbl D) (k : Nat) (x y : D) : Prop := dbl.scan (dbl.fmt k x) = some y

/-! ### proof -/

theorem corr_range {l : List Nat} {x x' : Nat} (h : Corr l (List.range l.length) x x') :
    x' < l.length ∧ l[x']? = some x ∧ l.getD x' 0 = x := by
  obtain ⟨i, h1, h2⟩ := h
  have hi := (List.getElem?_eq_some_iff.1 h1).1
  rw [List.getElem?_range hi] at h2
  cases h2
  exact ⟨hi, h1, by rw [List.getD_eq_getElem?_getD, h1]; rfl⟩

theorem corr_idx {l : List Nat} {x : Nat} (h : x ∈ l) : Corr l (List.range l.length) x (l.idxOf x) := by
  have hi := List.idxOf_lt_length_of_mem h
  exact ⟨l.idxOf x, by rw [List.getElem?_eq_getElem hi, List.getElem_idxOf], List.getElem?_range hi⟩

theorem getD_mem {l : List Nat} {i : Nat} (h : i < l.length) : l.getD i 0 ∈ l := by
  rw [List.getD_eq_getElem?_getD, List.getElem?_eq_getElem h]
  exact List.getElem_mem h

theorem forall₂_pos {l : List Nat} : ∀ {ps : List (Nat × Bool)}, (∀ p ∈ ps, p.1 ∈ l) →
    List.Forall₂ (fun p q => Corr l (List.range l.length) p.1 q.1 ∧ q.2 = p.2) ps
      (ps.map fun p => (l.idxOf p.1, p.2))
  | [], _ => .nil
  | p :: ps, h => .cons ⟨corr_idx (h p (by simp)), rfl⟩ (forall₂_pos fun q hq => h q (List.mem_cons_of_mem _ hq))

theorem upto_live {n i : Nat} : upto n (fun _ => Stat.live) Stat.unused i = .live ↔ i < n := by
  unfold upto
  by_cases h : i < n
  · rw [if_pos h]; exact ⟨fun _ => h, fun _ => rfl⟩
  · rw [if_neg h]
    constructor
    · intro h; cases h
    · intro h'; exact absurd h' h

theorem valFit_back {dbl : Dbl D} {ty : ATy} {n : Int} {v : AVal D} (h : ValFit ty n v) :
    ValFit ty n (backVal dbl v) := by
  cases v with
  | int i => exact h
  | dbl x => exact h
  | arr xs => exact ⟨h.1, by rw [List.length_map]; exact h.2⟩

theorem Carried.ok {dbl : Dbl D} {M : FMesh D} {a B : Attr D} (h : Carried dbl M a B) (ha : a.Ok) : B.Ok where
  name := by rw [h.head.1]; exact ha.name
  short := by rw [h.head.1]; exact ha.short
  ent := by rw [h.head.2.2.2]; exact ha.ent
  comps := by rw [h.head.2.2.1]; exact ha.comps
  vector := by rw [h.head.2.1, h.head.2.2.1]; exact ha.vector
  scalar := by rw [h.head.2.1, h.head.2.2.1]; exact ha.scalar
  vals := by
    intro k i v hv
    rw [h.head.2.1, h.head.2.2.1]
    by_cases hk : k ∈ a.kinds
    · by_cases hi : i < (M.list k).length
      · rw [h.vals k hk i _ (List.getElem?_eq_getElem hi)] at hv
        obtain ⟨w, hw, rfl⟩ := Option.map_eq_some_iff.1 hv
        exact valFit_back (ha.vals k _ w hw)
      · rw [h.none k i (Or.inr (by omega))] at hv; cases hv
    · rw [h.none k i (Or.inl hk)] at hv; cases hv

theorem img_ok {dbl : Dbl D} {M N : FMesh D} (hM : M.Ok)
    (hi : Img dbl M N M.vl.length M.el.length M.fl.length M.rl.length) {Bs : List (Attr D)}
    (hB : ∀ b ∈ Bs, b.Ok) : FMesh.Ok { N with atts := Bs } where
  cons := hi.cons
  vl := by
    show N.vl.Nodup ∧ _
    rw [hi.vl]
    refine ⟨List.nodup_range, fun v => ?_⟩
    show _ ↔ N.T.view.sv v = _
    rw [List.mem_range, hi.view]
    exact upto_live.symm
  el := by
    show N.el.Nodup ∧ _
    rw [hi.el]
    refine ⟨List.nodup_range, fun v => ?_⟩
    show _ ↔ N.T.view.se v = _
    rw [List.mem_range, hi.view]
    exact upto_live.symm
  fl := by
    show N.fl.Nodup ∧ _
    rw [hi.fl]
    refine ⟨List.nodup_range, fun v => ?_⟩
    show _ ↔ N.T.view.sf v = _
    rw [List.mem_range, hi.view]
    exact upto_live.symm
  rl := by
    show N.rl.Nodup ∧ _
    rw [hi.rl]
    refine ⟨List.nodup_range, fun v => ?_⟩
    show _ ↔ N.T.view.sr v = _
    rw [List.mem_range, hi.view]
    exact upto_live.symm
  ends := by
    intro e he
    have he : e < M.el.length := by rwa [show N.el = _ from hi.el, List.mem_range] at he
    obtain ⟨a, b, hab⟩ := hM.ends _ (getD_mem he)
    refine ⟨M.vl.idxOf a, M.vl.idxOf b, ?_⟩
    show N.T.view.ends e = _
    rw [hi.view, show (image M M.vl.length M.el.length M.fl.length M.rl.length).ends e = endsI M e from
      upto_at he]
    unfold endsI
    rw [hab]
    rfl
  edges := by
    intro f hf
    have hf : f < M.fl.length := by rwa [show N.fl = _ from hi.fl, List.mem_range] at hf
    refine ⟨hi.fe f hf, ?_⟩
    show (N.T.view.edges f).length ≤ 32
    rw [hi.view, show (image M M.vl.length M.el.length M.fl.length M.rl.length).edges f = edgesI M f from
      upto_at hf]
    unfold edgesI
    rw [List.length_map]
    exact (hM.edges _ (getD_mem hf)).2
  faces := by
    intro r hr
    have hr : r < M.rl.length := by rwa [show N.rl = _ from hi.rl, List.mem_range] at hr
    exact hi.rf r hr
  vc := by
    intro v hv
    have hv : v < M.vl.length := by rwa [show N.vl = _ from hi.vl, List.mem_range] at hv
    show ClassOk (N.vc v)
    rw [hi.vc v hv]; exact hM.vc _ (getD_mem hv)
  ec := by
    intro v hv
    have hv : v < M.el.length := by rwa [show N.el = _ from hi.el, List.mem_range] at hv
    show ClassOk (N.ec v)
    rw [hi.ec v hv]; exact hM.ec _ (getD_mem hv)
  fc := by
    intro v hv
    have hv : v < M.fl.length := by rwa [show N.fl = _ from hi.fl, List.mem_range] at hv
    show ClassOk (N.fc v)
    rw [hi.fc v hv]; exact hM.fc _ (getD_mem hv)
  rc := by
    intro v hv
    have hv : v < M.rl.length := by rwa [show N.rl = _ from hi.rl, List.mem_range] at hv
    show ClassOk (N.rc v)
    rw [hi.rc v hv]; exact hM.rc _ (getD_mem hv)
  atts := fun a ha _ => hB a ha
  size := by
    show N.vl.length + N.el.length + N.fl.length + N.rl.length < _
    rw [hi.vl, hi.el, hi.fl, hi.rl]
    simp only [List.length_range]
    exact hM.size

theorem carried_same {dbl : Dbl D} (hd : dbl.Sane) {M N : FMesh D} (hN : ∀ k, N.list k = List.range (M.list k).length)
    {a B : Attr D} (h : Carried dbl M a B) : SameAttr (dbl.Reads 6) M N a B where
  head := h.head
  vals := by
    intro k hk x x' hc
    rw [hN k] at hc
    obtain ⟨h1, h2, h3⟩ := corr_range hc
    rw [h.vals k hk x' x h2]
    cases a.val k x with
    | none => exact .none
    | some v =>
      refine .some ?_
      cases v with
      | int i => exact .int i
      | dbl y => exact .dbl (hd.read 6 y)
      | arr ys =>
        refine .arr ?_
        induction ys with
        | nil => exact .nil
        | cons y ys ih => exact .cons (hd.read 6 y) ih

theorem img_same {dbl : Dbl D} (hd : dbl.Sane) {M N : FMesh D} (hM : M.Ok)
    (hi : Img dbl M N M.vl.length M.el.length M.fl.length M.rl.length) {Bs : List (Attr D)}
    (hB : List.Forall₂ (Carried dbl M) (written M) Bs) : Same dbl.Reads M { N with atts := Bs } where
  ok := by
    refine img_ok hM hi ?_
    have hw : ∀ a ∈ written M, a.Ok := by
      intro a ha
      obtain ⟨ha, hw⟩ := List.mem_filter.1 ha
      simp only [ne_eq, decide_not, Bool.and_eq_true, Bool.not_eq_eq_eq_not, Bool.not_true,
        decide_eq_false_iff_not] at hw
      exact hM.atts a ha hw.1
    clear hi
    generalize written M = as at hB hw
    induction hB with
    | nil => simp
    | cons h _ ih =>
      intro b hb
      rcases List.mem_cons.1 hb with rfl | hb
      · exact h.ok (hw _ (by simp))
      · exact ih (fun a ha => hw a (List.mem_cons_of_mem _ ha)) b hb
  nv := by show N.vl.length = _; rw [hi.vl, List.length_range]
  ne := by show N.el.length = _; rw [hi.el, List.length_range]
  nf := by show N.fl.length = _; rw [hi.fl, List.length_range]
  nr := by show N.rl.length = _; rw [hi.rl, List.length_range]
  vertex := by
    intro v v' hc
    obtain ⟨h1, h2, h3⟩ := corr_range (show Corr _ (List.range _) _ _ from hi.vl ▸ hc)
    subst h3
    show N.vc v' = _ ∧ dbl.Reads 16 _ (N.xyz v').1 ∧ dbl.Reads 16 _ (N.xyz v').2.1 ∧ dbl.Reads 16 _ (N.xyz v').2.2
    rw [hi.vc v' h1, hi.xyz v' h1]
    exact ⟨rfl, hd.read 16 _, hd.read 16 _, hd.read 16 _⟩
  edge := by
    intro e e' hc
    obtain ⟨h1, h2, h3⟩ := corr_range (show Corr _ (List.range _) _ _ from hi.el ▸ hc)
    subst h3
    obtain ⟨a, b, hab⟩ := hM.ends _ (getD_mem h1)
    obtain ⟨ha, hb⟩ := hM.endsLive (getD_mem h1) hab
    have he : N.T.view.ends e' = (some (M.vl.idxOf a), some (M.vl.idxOf b)) := by
      rw [hi.view, show (image M M.vl.length M.el.length M.fl.length M.rl.length).ends e' = endsI M e' from
        upto_at h1]
      unfold endsI
      rw [hab]
      rfl
    show N.ec e' = _ ∧ OptRel (Corr M.vl N.vl) _ (N.T.view.ends e').1 ∧ OptRel (Corr M.vl N.vl) _ (N.T.view.ends e').2
    rw [hi.ec e' h1, he, hab, hi.vl]
    exact ⟨rfl, .some (corr_idx ha), .some (corr_idx hb)⟩
  face := by
    intro f f' hc
    obtain ⟨h1, h2, h3⟩ := corr_range (show Corr _ (List.range _) _ _ from hi.fl ▸ hc)
    subst h3
    have he : N.T.view.edges f' = edgesI M f' := by
      rw [hi.view]; exact upto_at h1
    show N.fc f' = _ ∧ List.Forall₂ (fun (p q : Nat × Bool) => Corr M.el N.el p.1 q.1 ∧ q.2 = p.2) _ (N.T.view.edges f')
    rw [hi.fc f' h1, he, hi.el]
    exact ⟨rfl, forall₂_pos fun p hp => hM.edgesLive (getD_mem h1) hp⟩
  region := by
    intro r r' hc
    obtain ⟨h1, h2, h3⟩ := corr_range (show Corr _ (List.range _) _ _ from hi.rl ▸ hc)
    subst h3
    have he : N.T.view.faces r' = facesI M r' := by
      rw [hi.view]; exact upto_at h1
    show N.rc r' = _ ∧ List.Forall₂ (fun (p q : Nat × Bool) => Corr M.fl N.fl p.1 q.1 ∧ q.2 = p.2) _ (N.T.view.faces r')
    rw [hi.rc r' h1, he, hi.fl]
    exact ⟨rfl, forall₂_pos fun p hp => hM.facesLive (getD_mem h1) hp⟩
  atts := by
    refine hB.imp fun a B h => carried_same hd ?_ h
    intro k
    match k with
    | 0 => exact hi.vl
    | 1 => exact hi.el
    | 2 => exact hi.fl
    | 3 => exact hi.rl
    | k+4 => rfl

/-! ### theorems -/

/-- Writing a mesh that has edges and reading the file gives the same mesh, up to what printing
coordinates with 16 and attribute values with 6 decimals changes.  `f4`: the representation named in
the file. -/
theorem C59_round_trip {dbl : Dbl D} (hd : dbl.Sane) {M : FMesh D} (hM : M.Ok) (he : M.el ≠ []) (f4 : Bool) :
    ∃ text M', writeFile dbl M f4 = .ok text ∧ readFile dbl text = .ok (some (true, M')) ∧
      Same dbl.Reads M M' := by
  obtain ⟨M1, M2, M3, Bs, h1, h2, h3, h4, hi, hB⟩ := build_ok (dbl := dbl) hM f4
  refine ⟨render dbl (contentsOf M f4), { M3 with atts := Bs }, ?_, ?_, img_same hd hM hi hB⟩
  · unfold writeFile
    rw [contents_ok hM, Res.bind_ok]
    rfl
  · exact readFile_show hd (contents_fit hM f4) (by
      show M.el.map _ ≠ []
      intro h0; exact he (List.map_eq_nil_iff.1 h0)) h1 h2 h3 h4

theorem ValRel.imp {R S : D → D → Prop} (h : ∀ x y, R x y → S x y) {v w : AVal D} (hv : ValRel R v w) :
    ValRel S v w := by
  cases hv with
  | int i => exact .int i
  | dbl hh => exact .dbl (h _ _ hh)
  | arr hh => exact .arr (hh.imp h)

theorem OptRel.imp {R S : α → β → Prop} (h : ∀ x y, R x y → S x y) {v : Option α} {w : Option β}
    (hv : OptRel R v w) : OptRel S v w := by
  cases hv with
  | none => exact .none
  | some hh => exact .some (h _ _ hh)

/-- If the numbers survive being printed the mesh is the same altogether. -/
theorem C59_exact {dbl : Dbl D} (hd : dbl.Sane) (hx : ∀ k x, dbl.scan (dbl.fmt k x) = some x)
    {M : FMesh D} (hM : M.Ok) (he : M.el ≠ []) (f4 : Bool) :
    ∃ text M', writeFile dbl M f4 = .ok text ∧ readFile dbl text = .ok (some (true, M')) ∧
      Same (fun _ x y => x = y) M M' := by
  obtain ⟨text, M', h1, h2, h⟩ := C59_round_trip hd hM he f4
  have hr : ∀ k x y, dbl.Reads k x y → x = y := fun k x y h =>
    Option.some.inj ((hx k x).symm.trans h)
  refine ⟨text, M', h1, h2,
    { h with
      vertex := fun v v' hc => ?_
      atts := h.atts.imp fun a b hab => ⟨hab.head, fun k hk x x' hc => ?_⟩ }⟩
  · obtain ⟨a, b, c, d⟩ := h.vertex v v' hc
    exact ⟨a, hr 16 _ _ b, hr 16 _ _ c, hr 16 _ _ d⟩
  · exact (hab.vals k hk x x' hc).imp fun v w hv => hv.imp (hr 6)

/-- A mesh without edges is written, but what is written cannot be read. -/
theorem C59_negation_no_edges {dbl : Dbl D} (hd : dbl.Sane) {M : FMesh D} (hM : M.Ok) (he : M.el = [])
    (f4 : Bool) : ∃ text M', writeFile dbl M f4 = .ok text ∧ readFile dbl text = .ok (some (false, M')) := by
  refine ⟨render dbl (contentsOf M f4), buildVs dbl 0 (contentsOf M f4).vs (FMesh.new dbl), ?_, ?_⟩
  · unfold writeFile
    rw [contents_ok hM, Res.bind_ok]
    rfl
  · exact readFile_no_edges hd (contents_fit hM f4) (by
      show M.el.map _ = []
      rw [he]; rfl)

/-! ### writing again what was read -/

theorem map_positions {β : Type} (l : List Nat) (g : Nat → β) :
    l.map g = (List.range l.length).map fun i => g (l.getD i 0) := by
  apply List.ext_getElem?
  intro i
  rw [List.getElem?_map, List.getElem?_map]
  by_cases hi : i < l.length
  · rw [List.getElem?_range hi, List.getElem?_eq_getElem hi]
    simp only [Option.map_some]
    rw [List.getD_eq_getElem?_getD, List.getElem?_eq_getElem hi]
    rfl
  · rw [List.getElem?_eq_none (by omega), List.getElem?_eq_none (by simp; omega)]
    rfl

theorem num_range {n i : Nat} (h : i < n) : num (List.range n) i = (i : Int) + 1 := by
  rw [num_mem (List.mem_range.2 h)]
  congr 1
  have h1 := List.idxOf_lt_length_of_mem (List.mem_range.2 h)
  have h2 := List.getElem_idxOf h1
  rw [List.getElem_range] at h2
  rw [h2]

theorem num_idx {l : List Nat} {x : Nat} (h : x ∈ l) : num (List.range l.length) (l.idxOf x) = num l x := by
  rw [num_range (List.idxOf_lt_length_of_mem h), num_mem h]

theorem vals_again {dbl : Dbl D} (hs : ∀ k x, dbl.fmt k (dbl.back k x) = dbl.fmt k x) (v : AVal D) :
    showVal dbl (backVal dbl v) = showVal dbl v := by
  cases v with
  | int i => rfl
  | dbl x => show ' ' :: (dbl.fmt 6 (dbl.back 6 x) ++ [' ']) = _; rw [hs]; rfl
  | arr xs =>
    show (xs.map (dbl.back 6)).flatMap _ = xs.flatMap _
    rw [List.flatMap_map]
    congr 1
    funext x
    rw [hs]

theorem lines_again {dbl : Dbl D} {M N : FMesh D} (hN : ∀ k, N.list k = List.range (M.list k).length)
    (hM : M.Ok) {a B : Attr D} (h : Carried dbl M a B) :
    allLines N B = (allLines M a).map fun l => ⟨l.dim, l.id, backVal dbl l.val⟩ := by
  have hk : B.kinds = a.kinds := by unfold Attr.kinds; rw [h.head.2.2.2]
  unfold allLines
  rw [hk, List.map_flatMap]
  apply List.flatMap_congr
  intro k hk
  unfold linesOf
  rw [hN k, List.map_filterMap]
  have : ∀ (xs : List Nat) (off : Nat), (M.list k).drop off = xs →
      ((List.range' off xs.length).filterMap fun x =>
        (B.val k x).map fun v => (⟨k, num (List.range (M.list k).length) x, v⟩ : ALine D)) =
      xs.filterMap fun x => Option.map (fun l : ALine D => (⟨l.dim, l.id, backVal dbl l.val⟩ : ALine D))
        ((a.val k x).map fun v => ⟨k, num (M.list k) x, v⟩) := by
    intro xs
    induction xs with
    | nil => intro off _; rfl
    | cons x xs ih =>
      intro off hoff
      have hx : (M.list k)[off]? = some x := by rw [← List.head?_drop, hoff]; rfl
      have hxs : (M.list k).drop (off+1) = xs := by rw [← List.tail_drop, hoff]; rfl
      have hlt := (List.getElem?_eq_some_iff.1 hx).1
      have hnum : num (List.range (M.list k).length) off = num (M.list k) x := by
        have hmem : x ∈ M.list k := List.mem_of_getElem? hx
        have h2 := List.idxOf_lt_length_of_mem hmem
        have : (M.list k).idxOf x = off :=
          (List.getElem?_inj h2 (hM.nodup k)).1 (by rw [hx, List.getElem?_eq_getElem h2, List.getElem_idxOf])
        rw [← this, num_idx hmem]
      rw [List.length_cons, List.range'_succ, List.filterMap_cons, List.filterMap_cons, ih (off+1) hxs,
        h.vals k hk off x hx, hnum]
      cases a.val k x <;> rfl
  have h0 := this (M.list k) 0 rfl
  rwa [← List.range_eq_range'] at h0

theorem block_again {dbl : Dbl D} (hs : ∀ k x, dbl.fmt k (dbl.back k x) = dbl.fmt k x) {M N : FMesh D}
    (hN : ∀ k, N.list k = List.range (M.list k).length) (hM : M.Ok) {a B : Attr D} (h : Carried dbl M a B) :
    showBlock dbl (blockOf N B) = showBlock dbl (blockOf M a) := by
  have hl := lines_again hN hM h
  have e : blockOf N B = { blockOf M a with lines := allLines N B } := by
    obtain ⟨h1, h2, h3, h4⟩ := h.head
    unfold blockOf
    rw [h1, h2, h3, h4]
  rw [e]
  unfold showBlock
  simp only
  rw [hl, List.length_map, List.flatMap_map]
  show _ = _ ++ ('\n' :: (_ ++ ('\n' :: (_ ++ ('\n' :: (_ ++ ('\n' :: (showInt (allLines M a).length ++
    ('\n' :: (allLines M a).flatMap _)))))))))
  congr 11
  funext l
  unfold showA
  simp only
  rw [vals_again hs]

theorem written_again {dbl : Dbl D} {M N : FMesh D} (hN : ∀ k, N.list k = List.range (M.list k).length)
    (hM : M.Ok) : ∀ {as Bs : List (Attr D)}, List.Forall₂ (Carried dbl M) as Bs →
    (∀ a ∈ as, a.ty ≠ .ptr ∧ hasValue M a = true) →
    (Bs.filter fun a => a.ty ≠ .ptr && hasValue N a) = Bs
  | [], [], _, _ => rfl
  | a :: as, B :: Bs, .cons h hf, hw => by
    have h1 := (hw a (by simp)).1
    have h2 := (hw a (by simp)).2
    have h3 : B.ty ≠ .ptr := by rw [h.head.2.1]; exact h1
    have h4 : hasValue N B = true := by
      cases hv : hasValue N B with
      | true => rfl
      | false =>
        have := allLines_nil.2 hv
        rw [lines_again hN hM h, List.map_eq_nil_iff] at this
        rw [allLines_nil.1 this] at h2
        cases h2
    rw [List.filter_cons, if_pos (by simp [h3, h4]),
      written_again hN hM hf fun b hb => hw b (List.mem_cons_of_mem _ hb)]

/-- If a number that was read is printed as it was before, a mesh that was read is written as it was
before.  (But for the heading `attributes` in the case that no attribute was written.) -/
theorem C59_again {dbl : Dbl D} (hd : dbl.Sane)
    (hs : ∀ k x y, dbl.scan (dbl.fmt k x) = some y → dbl.fmt k y = dbl.fmt k x)
    {M : FMesh D} (hM : M.Ok) (he : M.el ≠ [])
    (ha : M.atts ≠ [] → ∃ a ∈ M.atts, a.ty ≠ .ptr ∧ hasValue M a = true) (f4 : Bool) :
    ∃ text M', writeFile dbl M f4 = .ok text ∧ readFile dbl text = .ok (some (true, M')) ∧
      writeFile dbl M' f4 = .ok text := by
  have hs' : ∀ k x, dbl.fmt k (dbl.back k x) = dbl.fmt k x := fun k x => hs k x _ (hd.read k x)
  obtain ⟨M1, M2, M3, Bs, h1, h2, h3, h4, hi, hB⟩ := build_ok (dbl := dbl) hM f4
  have hS := img_same hd hM hi hB
  have hN : ∀ k, FMesh.list { M3 with atts := Bs } k = List.range (M.list k).length := by
    intro k
    match k with
    | 0 => exact hi.vl
    | 1 => exact hi.el
    | 2 => exact hi.fl
    | 3 => exact hi.rl
    | k+4 => rfl
  refine ⟨render dbl (contentsOf M f4), { M3 with atts := Bs }, ?_, ?_, ?_⟩
  · unfold writeFile
    rw [contents_ok hM, Res.bind_ok]
    rfl
  · exact readFile_show hd (contents_fit hM f4) (by
      show M.el.map _ ≠ []
      intro h0; exact he (List.map_eq_nil_iff.1 h0)) h1 h2 h3 h4
  · unfold writeFile
    rw [contents_ok hS.ok, Res.bind_ok]
    show Res.ok _ = _
    congr 1
    have hv : (M3.vl.map (vL { M3 with atts := Bs })).flatMap (showV dbl) =
        (M.vl.map (vL M)).flatMap (showV dbl) := by
      rw [hi.vl, List.flatMap_map, List.flatMap_map, List.flatMap_def, List.flatMap_def, map_positions M.vl]
      congr 1
      apply List.map_congr_left
      intro i hi'
      rw [List.mem_range] at hi'
      unfold vL showV
      simp only
      rw [hi.xyz i hi', hi.vc i hi']
      unfold back3
      simp only
      rw [hs', hs', hs']
    have he : M3.el.map (eL { M3 with atts := Bs }) = M.el.map (eL M) := by
      rw [hi.el, map_positions M.el]
      apply List.map_congr_left
      intro i hi'
      rw [List.mem_range] at hi'
      obtain ⟨a, b, hab⟩ := hM.ends _ (getD_mem hi')
      obtain ⟨ha, hb⟩ := hM.endsLive (getD_mem hi') hab
      have hends : M3.T.view.ends i = (some (M.vl.idxOf a), some (M.vl.idxOf b)) := by
        rw [hi.view, show (image M M.vl.length M.el.length M.fl.length M.rl.length).ends i = endsI M i from
          upto_at hi']
        unfold endsI
        rw [hab]
        rfl
      unfold eL
      simp only
      rw [hends, hab, hi.vl, hi.ec i hi']
      simp only [Option.getD_some]
      rw [num_idx ha, num_idx hb]
    have hf : M3.fl.map (fL { M3 with atts := Bs }) = M.fl.map (fL M) := by
      rw [hi.fl, map_positions M.fl]
      apply List.map_congr_left
      intro i hi'
      rw [List.mem_range] at hi'
      have hed : M3.T.view.edges i = edgesI M i := by rw [hi.view]; exact upto_at hi'
      unfold fL
      simp only
      rw [hed, hi.el, hi.fc i hi']
      unfold edgesI
      rw [List.map_map]
      congr 1
      apply List.map_congr_left
      intro p hp
      show signed p.2 (num _ (M.el.idxOf p.1)) = _
      rw [num_idx (hM.edgesLive (getD_mem hi') hp)]
    have hr : M3.rl.map (rL { M3 with atts := Bs }) = M.rl.map (rL M) := by
      rw [hi.rl, map_positions M.rl]
      apply List.map_congr_left
      intro i hi'
      rw [List.mem_range] at hi'
      have hed : M3.T.view.faces i = facesI M i := by rw [hi.view]; exact upto_at hi'
      unfold rL
      simp only
      rw [hed, hi.fl, hi.rc i hi']
      unfold facesI
      rw [List.map_map]
      congr 1
      apply List.map_congr_left
      intro p hp
      show signed p.2 (num _ (M.fl.idxOf p.1)) = _
      rw [num_idx (hM.facesLive (getD_mem hi') hp)]
    have hatt : showAtts dbl (contentsOf { M3 with atts := Bs } f4).as = showAtts dbl (contentsOf M f4).as := by
      have hw : ∀ a ∈ written M, a.ty ≠ .ptr ∧ hasValue M a = true := by
        intro a ha
        obtain ⟨_, hw⟩ := List.mem_filter.1 ha
        simpa using hw
      have hwr : written { M3 with atts := Bs } = Bs := written_again hN hM hB hw
      show showAtts dbl (if Bs = [] then none else some ((written { M3 with atts := Bs }).map _)) =
        showAtts dbl (if M.atts = [] then none else some ((written M).map _))
      rw [hwr]
      by_cases h0 : M.atts = []
      · have hwn : written M = [] := by unfold written; rw [h0]; rfl
        rw [hwn] at hB
        cases hB
        rw [if_pos rfl, if_pos h0]
      · obtain ⟨a, ham, hap, hav⟩ := ha h0
        have hwm : a ∈ written M := List.mem_filter.2 ⟨ham, by simp [hap, hav]⟩
        have hbn : Bs ≠ [] := by
          intro hb
          rw [hb] at hB
          have := hB.length_eq
          rw [List.length_nil, List.length_eq_zero_iff] at this
          rw [this] at hwm
          cases hwm
        rw [if_neg hbn, if_neg h0]
        show _ ++ ('\n' :: _) = _ ++ ('\n' :: _)
        congr 2
        rw [List.flatMap_map, List.flatMap_map]
        clear hwr hw hwm hbn h4 hS hv he hf hr
        generalize written M = as at hB
        generalize hNN : ({ M3 with atts := Bs } : FMesh D) = N at hN ⊢
        clear hNN
        induction hB with
        | nil => rfl
        | cons h _ ih => rw [List.flatMap_cons, List.flatMap_cons, block_again hs' hN hM h, ih]
    unfold render
    rw [hatt]
    have e1 : (contentsOf { M3 with atts := Bs } f4).es = (contentsOf M f4).es := he
    have e2 : (contentsOf { M3 with atts := Bs } f4).fs = (contentsOf M f4).fs := hf
    have e3 : (contentsOf { M3 with atts := Bs } f4).rs = (contentsOf M f4).rs := hr
    have e4 : showVerts dbl (contentsOf { M3 with atts := Bs } f4).vs = showVerts dbl (contentsOf M f4).vs := by
      unfold showVerts
      congr 2
    have e5 : (contentsOf { M3 with atts := Bs } f4).vs.length = (contentsOf M f4).vs.length := by
      show (M3.vl.map _).length = (M.vl.map _).length
      rw [hi.vl]; simp
    unfold showHead
    rw [e1, e2, e3, e4, e5]
    rfl

/-! ### numbers to test with

Decimal fractions with 18 digits, printed and scanned as the C library does with numbers. -/

/-- the last `k` digits of a number -/
def lastDigits : Nat → Nat → List Char → List Char
  | 0, _, acc => acc
  | k+1, n, acc => lastDigits k (n/10) (digit (n % 10) :: acc)

/-- `"%.klf"` of `x * 10^-18` cut off after `k` digits -/
def decFmt (k : Nat) (x : Int) : List Char :=
  let q := x.natAbs / 10^(18 - min k 18)
  (if x < 0 then ['-'] else []) ++ (showNat (q / 10^(min k 18)) ++ ('.' :: lastDigits (min k 18) q []))

/-- digits, a point, at most 18 digits -/
def decPos (w : List Char) : Option Nat :=
  match w.dropWhile isDig with
  | '.' :: f =>
    if f.all isDig && decide (f.length ≤ 18) then
      some (readNat (w.takeWhile isDig ++ f) * 10^(18 - f.length)) else none
  | _ => none

/-- the same with a sign -/
def decScan (w : List Char) : Option Int :=
  if w.head? = some '-' then (decPos w.tail).map fun n : Nat => -(n : Int)
  else (decPos w).map fun n : Nat => (n : Int)

/-- decimal fractions -/
def dec : Dbl Int := ⟨decFmt, decScan, 0⟩

theorem lastDigits_dig : ∀ (k n : Nat) (acc : List Char), (∀ c ∈ acc, isDig c = true) →
    (∀ c ∈ lastDigits k n acc, isDig c = true) ∧ (lastDigits k n acc).length = k + acc.length
  | 0, _, acc, h => ⟨h, (Nat.zero_add _).symm⟩
  | k+1, n, acc, h => by
    have := lastDigits_dig k (n/10) (digit (n % 10) :: acc) (by
      intro c hc
      rcases List.mem_cons.1 hc with rfl | hc
      · exact digit_dig (Nat.mod_lt _ (by decide))
      · exact h c hc)
    refine ⟨this.1, ?_⟩
    show (lastDigits k (n/10) (digit (n % 10) :: acc)).length = _
    rw [this.2, List.length_cons]; omega

theorem dig_not_blank {c : Char} (h : isDig c = true) : blank c = false := by
  cases hb : blank c with
  | false => rfl
  | true => rw [blank_not_dig hb] at h; cases h

theorem decPos_some {i f : List Char} (hi : ∀ c ∈ i, isDig c = true) (hf : ∀ c ∈ f, isDig c = true)
    (hl : f.length ≤ 18) : (decPos (i ++ ('.' :: f))).isSome := by
  unfold decPos
  rw [dropWhile_append_sep hi (fun c t h => by cases h; rfl)]
  simp only
  rw [if_pos (by rw [Bool.and_eq_true, List.all_eq_true]; exact ⟨hf, decide_eq_true hl⟩)]
  rfl

theorem dec_sane : dec.Sane where
  word := by
    intro k x
    have hl := lastDigits_dig (min k 18) (x.natAbs / 10^(18 - min k 18)) [] (by simp)
    refine ⟨by show decFmt k x ≠ []; unfold decFmt; simp, ?_⟩
    intro c hc
    unfold dec decFmt at hc
    simp only [List.mem_append, List.mem_cons] at hc
    rcases hc with hc | hc | hc | hc
    · split at hc
      · rw [List.mem_singleton] at hc; rw [hc]; decide
      · cases hc
    · exact dig_not_blank (showNat_dig _ c hc)
    · rw [hc]; decide
    · exact dig_not_blank (hl.1 c hc)
  back := by
    intro k x
    have hl := lastDigits_dig (min k 18) (x.natAbs / 10^(18 - min k 18)) [] (by simp)
    have hp := decPos_some (showNat_dig (x.natAbs / 10^(18 - min k 18) / 10^(min k 18))) hl.1
      (by rw [hl.2, List.length_nil]; omega)
    show (decScan (decFmt k x)).isSome
    unfold decScan decFmt
    simp only
    by_cases hx : x < 0
    · rw [if_pos hx]
      simp only [List.singleton_append, List.head?_cons, if_true, List.tail_cons, Option.isSome_map]
      exact hp
    · rw [if_neg hx, List.nil_append, if_neg, Option.isSome_map]
      · exact hp
      · cases hs : showNat (x.natAbs / 10^(18 - min k 18) / 10^(min k 18)) with
        | nil => exact absurd hs (showNat_ne _)
        | cons c t =>
          intro h
          simp only [List.cons_append, List.head?_cons, Option.some.injEq] at h
          have := showNat_dig (x.natAbs / 10^(18 - min k 18) / 10^(min k 18)) c (by rw [hs]; simp)
          rw [h] at this
          cases this
  one := by decide

/-! ### non-vacuity -/

/-- a list that holds the entities that exist -/
def listB (l : List Nat) (st : Nat → Stat) (n : Nat) : Bool :=
  decide l.Nodup && l.all (fun x => decide (st x = .live)) && (List.range n).all fun x => decide (st x = .live → x ∈ l)

theorem listB_sound {l : List Nat} {st : Nat → Stat} {n : Nat} (h : listB l st n = true)
    (hn : ∀ i, n ≤ i → st i = .unused) : l.Nodup ∧ ∀ x, x ∈ l ↔ st x = .live := by
  unfold listB at h
  simp only [Bool.and_eq_true, decide_eq_true_iff, List.all_eq_true, List.mem_range] at h
  refine ⟨h.1.1, fun x => ⟨h.1.2 x, fun hx => ?_⟩⟩
  by_cases hlt : x < n
  · exact h.2 x hlt hx
  · rw [hn x (by omega)] at hx; cases hx

/-- a mesh of two tetrahedra after some changes that left gaps in the handles, with a negative and a
long coordinate, and attributes of each type, one without values -/
def twoTetsGap : List Topo.Op :=
  Topo.twoTets ++ [.newVertex, .newVertex, .newEdge, .setVertex 9 false 0, .setVertex 9 true 6, .delVertex 5 false]

/-- its attributes -/
def someAtts : List (Attr Int) :=
  [⟨['t','e','m','p'], .dbl, 1, 0, fun k x => if k = 0 ∧ x ≠ 3 then some (.dbl (-1234567891234567890)) else none⟩,
   ⟨['m','a','t'], .int, 1, 5, fun k x => if k = 3 ∧ x = 1 ∨ k = 1 then some (.int (x % 100 - 7)) else none⟩,
   ⟨['f','l','u','x'], .vec, 2, 2, fun k x => if k = 2 then some (.arr [x, 5000000000000]) else none⟩,
   ⟨['e','m','p','t','y'], .int, 1, 1, fun _ _ => none⟩,
   ⟨['p','t','r'], .ptr, 1, 1, fun _ _ => none⟩]

/-- the mesh; edges and regions in another order than that of their handles -/
def someMesh (T : Topo) (as : List (Attr Int)) : FMesh Int where
  T := T
  vl := [0, 1, 2, 3, 4, 6]
  el := [9, 0, 1, 2, 3, 4, 5, 6, 7, 8]
  fl := [0, 1, 2, 3, 4, 5, 6]
  rl := [1, 0]
  xyz := fun v => (1000000000000000000 * v, -123456789012345678, 7)
  vc := fun v => (v % 4, 17)
  ec := fun _ => (1, 67108863)
  fc := fun _ => (2, 5)
  rc := fun r => (3, r)
  vid := fun _ => 0
  eid := fun _ => 0
  fid := fun _ => 0
  rid := fun _ => 0
  atts := as

theorem someMesh_ok : ∃ T, Topo.empty.run twoTetsGap = .ok T ∧ (someMesh T someAtts).Ok := by
  obtain ⟨T, h1, h2⟩ := Topo.reachable (os := twoTetsGap) (by decide +kernel)
  have hq : Topo.answer twoTetsGap (fun T => .ok (
      listB [0, 1, 2, 3, 4, 6] T.sv T.nv && listB [9, 0, 1, 2, 3, 4, 5, 6, 7, 8] T.se T.ne &&
      listB [0, 1, 2, 3, 4, 5, 6] T.sf T.nf && listB [1, 0] T.sr T.nr &&
      [9, 0, 1, 2, 3, 4, 5, 6, 7, 8].all (fun e => (T.ev e).1.isSome && (T.ev e).2.isSome) &&
      [0, 1, 2, 3, 4, 5, 6].all (fun f => (T.fe f).isSome && decide ((T.edgesOf f).length ≤ 32)) &&
      [1, 0].all fun r => (T.rf r).isSome)) = .ok true := by decide +kernel
  unfold Topo.answer at hq
  rw [h1, Res.bind_ok, Res.ok.injEq] at hq
  simp only [Bool.and_eq_true, List.all_eq_true, decide_eq_true_iff] at hq
  obtain ⟨⟨⟨⟨⟨⟨a, b⟩, c⟩, d⟩, e⟩, f⟩, g⟩ := hq
  refine ⟨T, h1,
    { cons := h2
      vl := listB_sound a h2.newV
      el := listB_sound b h2.newE
      fl := listB_sound c h2.newF
      rl := listB_sound d h2.newR
      ends := fun x hx => ?_
      edges := fun x hx => ⟨Option.isSome_iff_exists.1 (f x hx).1, (f x hx).2⟩
      faces := fun x hx => Option.isSome_iff_exists.1 (g x hx)
      vc := fun v _ => ?_
      ec := fun _ _ => show ClassOk (1, 67108863) from ⟨by decide, by decide, by decide, by decide⟩
      fc := fun _ _ => show ClassOk (2, 5) from ⟨by decide, by decide, by decide, by decide⟩
      rc := fun r hr => ?_
      atts := fun a ha hp => ?_
      size := show 6 + 10 + 7 + 2 < 2147483648 by decide }⟩
  · obtain ⟨p, hp⟩ := Option.isSome_iff_exists.1 (e x hx).1
    obtain ⟨q, hq⟩ := Option.isSome_iff_exists.1 (e x hx).2
    exact ⟨p, q, Prod.ext hp hq⟩
  · unfold ClassOk; show 0 ≤ ((v : Int) % 4) ∧ ((v : Int) % 4) < 8 ∧ (0 : Int) ≤ 17 ∧ (17 : Int) < 67108864; omega
  · have : r = 1 ∨ r = 0 := by simpa [someMesh] using hr
    rcases this with rfl | rfl
    · exact show ClassOk (3, 1) from ⟨by decide, by decide, by decide, by decide⟩
    · exact show ClassOk (3, 0) from ⟨by decide, by decide, by decide, by decide⟩
  · have ha : a ∈ someAtts := ha
    unfold someAtts at ha
    simp only [List.mem_cons, List.not_mem_nil, or_false] at ha
    rcases ha with rfl | rfl | rfl | rfl | rfl
    · exact ⟨by unfold Word; decide, by decide, by decide, by decide, by decide, by decide, fun k x v h => by
        simp only at h; split at h <;> cases h; rfl⟩
    · refine ⟨by unfold Word; decide, by decide, by decide, by decide, by decide, by decide, fun k x v h => ?_⟩
      simp only at h
      split at h
      · cases h
        exact ⟨rfl, by unfold Fits; omega⟩
      · cases h
    · exact ⟨by unfold Word; decide, by decide, by decide, by decide, by decide, by decide, fun k x v h => by
        simp only at h; split at h <;> cases h; exact ⟨Or.inl rfl, rfl⟩⟩
    · exact ⟨by unfold Word; decide, by decide, by decide, by decide, by decide, by decide, fun k x v h => by cases h⟩
    · exact absurd rfl hp

/-- The hypotheses of `C59_round_trip` hold for that mesh. -/
example : ∃ T text M', Topo.empty.run twoTetsGap = .ok T ∧ writeFile dec (someMesh T someAtts) true = .ok text ∧
    readFile dec text = .ok (some (true, M')) ∧ Same dec.Reads (someMesh T someAtts) M' := by
  obtain ⟨T, h1, h⟩ := someMesh_ok
  obtain ⟨text, M', a, b, c⟩ := C59_round_trip dec_sane h (by show [9, 0, 1, 2, 3, 4, 5, 6, 7, 8] ≠ []; simp) true
  exact ⟨T, text, M', h1, a, b, c⟩

/-- numbers that are printed exactly: whole numbers -/
def whole : Dbl Int where
  fmt := fun _ x => showInt x
  scan := fun w =>
    if w = ['1','.','0'] then some 1
    else if w.head? = some '-' then some (-(readNat w.tail : Int)) else some (readNat w : Int)
  zero := 0

theorem showNat_no_minus (n : Nat) : (showNat n).head? ≠ some '-' := by
  intro h
  have := showNat_dig n '-' (List.mem_of_head? h)
  cases this

theorem whole_exact (k : Nat) (x : Int) : whole.scan (whole.fmt k x) = some x := by
  unfold whole
  simp only
  have hno : showInt x ≠ ['1','.','0'] := by
    intro h
    have : '.' ∈ showInt x := by rw [h]; simp
    unfold showInt at this
    split at this
    · rcases List.mem_cons.1 this with h | h
      · cases h
      · cases showNat_dig _ _ h
    · cases showNat_dig _ _ this
  rw [if_neg hno]
  unfold showInt
  by_cases hx : x < 0
  · rw [if_pos hx]
    simp only [List.head?_cons, if_true, List.tail_cons]
    rw [showNat_read]
    congr 1
    omega
  · rw [if_neg hx, if_neg (showNat_no_minus _), showNat_read]
    congr 1
    omega

theorem whole_sane : whole.Sane where
  word := by
    intro k x
    show Word (showInt x)
    unfold showInt
    split
    · refine ⟨by simp, fun c hc => ?_⟩
      rcases List.mem_cons.1 hc with rfl | hc
      · decide
      · exact dig_not_blank (showNat_dig _ c hc)
    · exact ⟨showNat_ne _, fun c hc => dig_not_blank (showNat_dig _ c hc)⟩
  back := fun k x => by rw [whole_exact]; rfl
  one := by decide

/-- The hypotheses of `C59_exact` and `C59_again` hold for that mesh with whole numbers. -/
example : ∃ T text M' text' M'', Topo.empty.run twoTetsGap = .ok T ∧
    writeFile whole (someMesh T someAtts) true = .ok text ∧
    readFile whole text = .ok (some (true, M')) ∧ Same (fun _ x y => x = y) (someMesh T someAtts) M' ∧
    writeFile whole (someMesh T someAtts) false = .ok text' ∧
    readFile whole text' = .ok (some (true, M'')) ∧ writeFile whole M'' false = .ok text' := by
  obtain ⟨T, h1, h⟩ := someMesh_ok
  have he : (someMesh T someAtts).el ≠ [] := by show [9, 0, 1, 2, 3, 4, 5, 6, 7, 8] ≠ []; simp
  obtain ⟨text, M', a, b, c⟩ := C59_exact whole_sane whole_exact h he true
  obtain ⟨text', M'', a', b', c'⟩ := C59_again whole_sane (fun k x y hxy => by
    rw [whole_exact] at hxy; cases hxy; rfl) h he (fun _ => ⟨_, List.mem_cons_self, by decide, rfl⟩) false
  exact ⟨T, text, M', text', M'', h1, a, b, c, a', b', c'⟩

/-- The hypotheses of `C59_negation_no_edges` hold for a mesh of one vertex. -/
example : ∃ M : FMesh Int, M.Ok ∧ M.el = [] ∧ M.vl.length = 1 :=
  ⟨{ FMesh.new dec with T := Topo.empty.mvNew.1, vl := [0] },
   { cons := Topo.empty_consistent.newVertex
     vl := listB_sound (n := 1) (by decide) Topo.empty_consistent.newVertex.newV
     el := listB_sound (n := 0) (by decide) Topo.empty_consistent.newVertex.newE
     fl := listB_sound (n := 0) (by decide) Topo.empty_consistent.newVertex.newF
     rl := listB_sound (n := 0) (by decide) Topo.empty_consistent.newVertex.newR
     ends := by intro e he; cases he
     edges := by intro e he; cases he
     faces := by intro e he; cases he
     vc := fun _ _ => show ClassOk (4, 0) from ⟨by decide, by decide, by decide, by decide⟩
     ec := by intro e he; cases he
     fc := by intro e he; cases he
     rc := by intro e he; cases he
     atts := by intro a ha; cases ha
     size := by decide }, rfl, rfl⟩

/-! ### what is lost -/

/-- 0.0000001 as the value of an attribute, and 10^-17 as a coordinate, are read as 0. -/
theorem C59_negation_precision : dec.Reads 6 100000000000 0 ∧ dec.Reads 16 10 0 ∧
    dec.Reads 16 100 100 ∧ dec.Reads 6 (-2500000000000000000) (-2500000000000000000) := by
  unfold Dbl.Reads
  decide +kernel

/-- An attribute with a blank in its name makes the file unreadable: what comes after the blank is
taken for the type of the attribute. -/
theorem C59_negation_blank_name :
    let as : List (Attr Int) := [⟨['a',' ','b'], .int, 1, 0, fun k x => if k = 0 ∧ x = 1 then some (.int 3) else none⟩]
    Topo.answer twoTetsGap (fun T => do
      let text ← writeFile dec (someMesh T as) false
      pure (decide (readFile dec text matches .fatal))) = .ok true := by
  decide +kernel

/-- An empty file: a word is used that was never read. -/
theorem C59_negation_empty_file (dbl : Dbl D) : readFile dbl [] = .ub := rfl

end File
end MSTK
