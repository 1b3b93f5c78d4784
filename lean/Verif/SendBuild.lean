import Verif.SendModel
import Verif.CopyBuild

/-!
What `MESH_SendMesh` sends and the mesh `MESH_RecvMesh` builds (SendModel.lean).
-/
namespace MSTK
namespace Send
open File Copy

variable {D : Type}

/-! ### specification of meshes that can be sent -/

/-- the place in a distributed mesh fits into one integer -/
def PDat.Fits (p : PDat) : Prop := p.ptype < 4 ∧ p.master < 268435456

/-! ### what is sent -/

/-- the word for a classification -/
def gW (c : Int × Int) : Int := 8 * c.2 + c.1
/-- the word for the place in a distributed mesh -/
def pW (p : PDat) : Int := 8 * (p.master : Int) + ((if p.onPB then 4 else 0) + (p.ptype : Int))

theorem pack_class {c : Int × Int} (h : ClassOk c) : pack c.2 c.1 = .ok (gW c) := by
  unfold ClassOk at h; unfold pack; rw [if_pos (by omega)]; rfl

theorem unpack_class {c : Int × Int} (h : ClassOk c) : unpack (gW c) = c := by
  unfold ClassOk at h
  unfold unpack gW
  ext <;> simp only <;> omega

theorem packP_ok {p : PDat} (h : PDat.Fits p) : packP p = .ok (pW p) := by
  unfold PDat.Fits at h; unfold packP pack; rw [if_pos (by omega)]; rfl

theorem unpackP_ok {p old : PDat} (h : PDat.Fits p) (ho : old.onPB = false) : unpackP old (pW p) p.gid = p := by
  unfold PDat.Fits at h
  obtain ⟨a, b, c, d⟩ := p
  simp only at h
  unfold unpackP pW
  rw [ho]
  cases d with
  | true =>
    simp only [if_true]
    have h1 : (8 * (b : Int) + (4 + (a : Int))) / 4 % 2 ≠ 0 := by omega
    rw [if_pos h1]
    congr 1 <;> omega
  | false =>
    simp only [Bool.false_eq_true, if_false]
    have h1 : ¬ (8 * (b : Int) + (0 + (a : Int))) / 4 % 2 ≠ 0 := by omega
    rw [if_neg h1]
    congr 1 <;> omega

/-- what is sent for a vertex -/
def vI (S : CMesh D) (v : Nat) : List Int := [gW (S.F.vc v), pW (S.par 0 v), (S.par 0 v).gid]
/-- what is sent for an edge -/
def eI (S : CMesh D) (e : Nat) : List Int :=
  [S.F.vid ((S.F.T.view.ends e).1.getD 0), S.F.vid ((S.F.T.view.ends e).2.getD 0), gW (S.F.ec e), pW (S.par 1 e),
    (S.par 1 e).gid]
/-- what is sent for a face -/
def fI (S : CMesh D) (f : Nat) : List Int :=
  ((S.F.T.view.edges f).length : Int) :: ((S.F.T.view.edges f).map (fun p => signed p.2 (S.F.eid p.1)) ++
    [gW (S.F.fc f), pW (S.par 2 f), (S.par 2 f).gid])
/-- what is sent for a region -/
def rI (S : CMesh D) (r : Nat) : List Int :=
  ((S.F.T.view.faces r).length : Int) :: ((S.F.T.view.faces r).map (fun p => signed p.2 (S.F.fid p.1)) ++
    [gW (S.F.rc r), pW (noFlag (S.par 3 r)), (S.par 3 r).gid])

theorem vInts_ok {S : CMesh D} (h : S.F.Sound) {v : Nat} (hv : v ∈ S.F.vl) (hp : PDat.Fits (S.par 0 v)) :
    vInts S v = .ok (vI S v) := by
  unfold vInts
  rw [Topo.derefV_ok (Topo.alloc_of_live ((h.vl.2 v).1 hv)), Res.bind_ok, pack_class (h.vc v hv), Res.bind_ok,
    packP_ok hp, Res.bind_ok]
  rfl

theorem idOf_ok {S : CMesh D} (h : S.F.Sound) {v : Nat} (hv : v ∈ S.F.vl) : idOf S (some v) = .ok (S.F.vid v) := by
  unfold idOf
  simp only [Topo.derefV_ok (Topo.alloc_of_live ((h.vl.2 v).1 hv)), Res.bind_ok, Res.pure_eq]

theorem eInts_ok {S : CMesh D} (h : S.F.Sound) {e : Nat} (he : e ∈ S.F.el) (hp : PDat.Fits (S.par 1 e)) :
    eInts S e = .ok (eI S e) := by
  obtain ⟨a, b, hab⟩ := h.ends e he
  obtain ⟨ha, hb⟩ := h.endsLive he hab
  have hq := (Topo.C49_view h.cons).1
  have hl := (h.el.2 e).1 he
  have q0 : S.F.T.meVertex e false = .ok (some a) := by rw [hq e false hl, hab]; rfl
  have q1 : S.F.T.meVertex e true = .ok (some b) := by rw [hq e true hl, hab]; rfl
  unfold eInts
  rw [q0, Res.bind_ok, idOf_ok h ha, Res.bind_ok, q1, Res.bind_ok, idOf_ok h hb, Res.bind_ok, pack_class (h.ec e he),
    Res.bind_ok, packP_ok hp, Res.bind_ok]
  unfold eI
  rw [hab]
  rfl

theorem refIds_ok {ids : Nat → Int} {dir : Nat → Res Bool} : ∀ (ps : List (Nat × Bool)) (j : Nat),
    (∀ i p, ps[i]? = some p → dir (j+i) = .ok p.2) →
    refIds ids dir j (ps.map (·.1)) = .ok (ps.map fun p => signed p.2 (ids p.1))
  | [], _, _ => rfl
  | p :: ps, j, h1 => by
    rw [List.map_cons]
    unfold refIds
    rw [show dir j = Res.ok p.2 from h1 0 p rfl, Res.bind_ok, refIds_ok ps (j+1)
      (fun i q hq => by rw [Nat.add_assoc, Nat.add_comm 1 i]; exact h1 (i+1) q hq)]
    rfl

theorem fInts_ok {S : CMesh D} (h : S.F.Sound) {f : Nat} (hf : f ∈ S.F.fl) (hp : PDat.Fits (S.par 2 f)) :
    fInts S f = .ok (fI S f) := by
  have hl := (h.fl.2 f).1 hf
  obtain ⟨⟨l, hfe⟩, h32⟩ := h.edges f hf
  have hv : S.F.T.view.edges f = Topo.pairs l (Topo.fbit (S.F.T.fd f)) := Topo.edgesOf_some hfe
  have h1 : S.F.T.mfEdges f true none = .ok ((S.F.T.view.edges f).map (·.1)) := by
    rw [hv, Topo.pairs_map_fst]; exact Topo.mfEdges_plain (Topo.alloc_of_live hl) hfe
  unfold fInts
  rw [h1, Res.bind_ok, refIds_ok (S.F.T.view.edges f) 0, Res.bind_ok, pack_class (h.fc f hf),
    Res.bind_ok, packP_ok hp, Res.bind_ok, List.length_map]
  · rfl
  · intro i p hp
    have hi : i < (S.F.T.view.edges f).length := (List.getElem?_eq_some_iff.1 hp).1
    rw [Nat.zero_add]
    exact ((Topo.C49_view h.cons).2.1 f hl (by intro h0; rw [h0] at hi; exact absurd hi (by simp))).2 i p
      (by omega) hp

theorem rInts_ok {S : CMesh D} (h : S.F.Sound) {r : Nat} (hr : r ∈ S.F.rl) (hp : PDat.Fits (S.par 3 r)) :
    rInts S r = .ok (rI S r) := by
  have hl := (h.rl.2 r).1 hr
  obtain ⟨l, hrf⟩ := h.faces r hr
  have hv : S.F.T.view.faces r = Topo.pairs l (Topo.rbit (S.F.T.rd r)) := Topo.facesOf_some hrf
  have h1 : S.F.T.mrFaces r = .ok ((S.F.T.view.faces r).map (·.1)) := by
    rw [hv, Topo.pairs_map_fst]; exact Topo.rfaces_ok (Topo.alloc_of_live hl) hrf
  unfold rInts
  rw [h1, Res.bind_ok, refIds_ok (S.F.T.view.faces r) 0, Res.bind_ok, pack_class (h.rc r hr),
    Res.bind_ok, packP_ok (p := noFlag (S.par 3 r)) hp, Res.bind_ok, List.length_map]
  · rfl
  · intro i p hp
    have hi : i < (S.F.T.view.faces r).length := (List.getElem?_eq_some_iff.1 hp).1
    rw [Nat.zero_add]
    exact ((Topo.C49_view h.cons).2.2 r hl (by intro h0; rw [h0] at hi; exact absurd hi (by simp))).2 i p hp

/-- The entities of a mesh that can be sent: consistent, at most 30 edges to a face and 512 faces to
a region, IDs that are positions, places that fit. -/
structure Sendable (S : CMesh D) : Prop where
  mesh : S.F.Sound
  edges : ∀ f ∈ S.F.fl, (S.F.T.view.edges f).length ≤ 30
  faces : ∀ r ∈ S.F.rl, (S.F.T.view.faces r).length ≤ 512
  vid : ∀ (i : Nat) v, S.F.vl[i]? = some v → S.F.vid v = i+1
  eid : ∀ (i : Nat) e, S.F.el[i]? = some e → S.F.eid e = i+1
  fid : ∀ (i : Nat) f, S.F.fl[i]? = some f → S.F.fid f = i+1
  rid : ∀ (i : Nat) r, S.F.rl[i]? = some r → S.F.rid r = i+1
  par : ∀ k < 4, ∀ x ∈ S.F.list k, PDat.Fits (S.par k x)

/-- the messages about entities -/
def entMsgs (S : CMesh D) : List (Msg D) :=
  metaMsg S :: .ints (S.F.vl.map (vI S)).flatten :: .dbls (S.F.vl.flatMap (vDbls S)) ::
    .ints (S.F.el.map (eI S)).flatten :: .ints (S.F.fl.map (fI S)).flatten ::
    if S.F.rl = [] then [] else [.ints (S.F.rl.map (rI S)).flatten]

theorem sendEnts_ok {S : CMesh D} (h : Sendable S) : sendEnts S = .ok (entMsgs S) := by
  unfold sendEnts
  rw [each_ok (fun v hv => vInts_ok h.mesh hv (h.par 0 (by omega) v hv)), Res.bind_ok,
    each_ok (fun e he => eInts_ok h.mesh he (h.par 1 (by omega) e he)), Res.bind_ok,
    each_ok (fun e he => fInts_ok h.mesh he (h.par 2 (by omega) e he)), Res.bind_ok,
    each_ok (fun e he => rInts_ok h.mesh he (h.par 3 (by omega) e he)), Res.bind_ok]
  rfl

/-! ### buffers -/

theorem flatten_at {α β : Type} {g : α → List β} {c : Nat} : ∀ {l : List α} {i : Nat} {x : α}, (∀ x ∈ l, (g x).length = c) →
    l[i]? = some x → ∀ {j : Nat}, j < c → (l.map g).flatten[c*i+j]? = (g x)[j]?
  | [], i, x, _, h, _, _ => by simp at h
  | y :: ys, 0, x, hc, h, j, hj => by
    simp only [List.getElem?_cons_zero, Option.some.injEq] at h
    subst h
    rw [List.map_cons, List.flatten_cons, List.getElem?_append_left (by rw [hc y (by simp)]; omega)]
    simp
  | y :: ys, i+1, x, hc, h, j, hj => by
    rw [List.getElem?_cons_succ] at h
    rw [List.map_cons, List.flatten_cons, List.getElem?_append_right (by rw [hc y (by simp), Nat.mul_succ]; omega),
      hc y (by simp), show c * (i+1) + j - c = c*i+j by rw [Nat.mul_succ]; omega]
    exact flatten_at (fun z hz => hc z (List.mem_cons_of_mem _ hz)) h hj

theorem flatten_len {α β : Type} {g : α → List β} {c : Nat} : ∀ {l : List α}, (∀ x ∈ l, (g x).length ≤ c) →
    (l.map g).flatten.length ≤ c * l.length
  | [], _ => by simp
  | y :: ys, hc => by
    rw [List.map_cons, List.flatten_cons, List.length_append, List.length_cons, Nat.mul_succ]
    have := flatten_len (l := ys) fun z hz => hc z (List.mem_cons_of_mem _ hz)
    have := hc y (by simp)
    omega

theorem rd_ok {α : Type} {l : List α} {i : Nat} {x : α} (h : l[i]? = some x) : rd l i = .ok x := by
  unfold rd; rw [h]; rfl

theorem rd_flat {α β : Type} {g : α → List β} {c : Nat} {l : List α} {i : Nat} {x : α} (hc : ∀ x ∈ l, (g x).length = c)
    (h : l[i]? = some x) {j : Nat} (hj : j < c) {y : β} (hy : (g x)[j]? = some y) :
    rd (l.map g).flatten (c*i+j) = .ok y := rd_ok ((flatten_at hc h hj).trans hy)

/-! ### filling entities that exist -/

/-- the ends of an edge without any -/
theorem setEnds {T : Topo} (hc : T.Consistent) {e x y : Nat} (he : T.se e = .live) (hev : T.ev e = (none, none))
    (hx : T.sv x = .live) (hy : T.sv y = .live) :
    ∃ T2 T', T.meSetVertex e false x = .ok T2 ∧ T2.meSetVertex e true y = .ok T' ∧
      T'.Consistent ∧ T'.nv = T.nv ∧ T'.ne = T.ne ∧ T'.nf = T.nf ∧ T'.nr = T.nr ∧ T'.fe = T.fe ∧ T'.rf = T.rf ∧
      T'.view = { T.view with ends := upd T.view.ends e (some x, some y) } := by
  have s2 := Topo.meSetVertex_ok (i := false) (v := x) (Topo.alloc_of_live he) (Topo.alloc_of_live hx)
  obtain ⟨T2, hs2, c2⟩ := hc.step (.setVertex e false x) ⟨he, hx, by rw [hev]; rfl⟩
  have h2 := Res.ok.inj (hs2.symm.trans s2)
  have e2 : T2.se e = .live := by rw [h2]; exact he
  have v2 : T2.ev e = (some x, none) := by
    rw [h2]; show upd _ _ _ _ = _; rw [upd_same, hev]; rfl
  have y2 : T2.sv y = .live := by rw [h2]; exact hy
  have s3 := Topo.meSetVertex_ok (i := true) (Topo.alloc_of_live e2) (Topo.alloc_of_live y2)
  obtain ⟨T3, hs3, c3⟩ := c2.step (.setVertex e true y) ⟨e2, y2, by rw [v2]; rfl⟩
  have h3 := Res.ok.inj (hs3.symm.trans s3)
  refine ⟨T2, T3, hs2, hs3, c3, by rw [h3, h2], by rw [h3, h2], by rw [h3, h2],
    by rw [h3, h2], by rw [h3, h2], by rw [h3, h2], ?_⟩
  have hev : T3.ev = upd T.ev e (some x, some y) := by
    rw [h3]
    show upd T2.ev e (Topo.setEnd (T2.ev e) true (some y)) = _
    rw [v2, h2]
    show upd (upd T.ev e _) e _ = _
    rw [Topo.upd_upd]
    rfl
  show Topo.View.mk T3.sv T3.se T3.sf T3.sr T3.ev T3.edgesOf (Topo.facesOf T3.rf T3.rd) = _
  rw [hev, h3, h2]
  rfl

/-- the edges of a face without any -/
theorem setEdgesOn {T : Topo} (hc : T.Consistent) {f : Nat} (he : T.sf f = .live) (hfe : T.fe f = none)
    {es : List (Nat × Bool)} (h32 : es.length ≤ 32) (hes : ∀ p ∈ es, T.se p.1 = .live) :
    ∃ T', T.mfSetEdges f es = .ok T' ∧
      T'.Consistent ∧ T'.nv = T.nv ∧ T'.ne = T.ne ∧ T'.nf = T.nf ∧ T'.nr = T.nr ∧
      (∃ l, T'.fe f = some l) ∧ (∀ g, g ≠ f → T'.fe g = T.fe g) ∧ T'.rf = T.rf ∧
      T'.view = { T.view with edges := upd T.view.edges f es } := by
  obtain ⟨d, s2, hd⟩ := Topo.mfSetEdges_ok (Topo.alloc_of_live he) h32 (fun p hp => Topo.alloc_of_live (hes p hp))
  obtain ⟨T2, hs2, c2⟩ := hc.step (.setEdges f es) ⟨he, by rw [hfe]; rfl, h32, hes⟩
  have h2 := Res.ok.inj (hs2.symm.trans s2)
  refine ⟨T2, hs2, c2, by rw [h2], by rw [h2], by rw [h2],
    by rw [h2], ⟨_, by rw [h2]; exact upd_same _ _ _⟩, ?_, by rw [h2], ?_⟩
  · intro g hg
    rw [h2]
    show upd T.fe f _ g = _
    rw [upd_ne _ _ hg]
  have hed : T2.edgesOf = upd T.edgesOf f es := by
    refine Topo.edgesOf_upd (l := es.map (·.1)) (d := d) ?_ ?_ hd
    · rw [h2]
    · rw [h2]
  show Topo.View.mk T2.sv T2.se T2.sf T2.sr T2.ev T2.edgesOf (Topo.facesOf T2.rf T2.rd) = _
  rw [hed, h2]
  rfl

/-- the faces of a region without any -/
theorem setFacesOn {T : Topo} (hc : T.Consistent) {r : Nat} (hr : T.sr r = .live) (hrf : T.rf r = none)
    {fs : List (Nat × Bool)} (hn : (fs.map (·.1)).Nodup)
    (hfs : ∀ p ∈ fs, T.sf p.1 = .live ∧ Topo.endAt (T.fr p.1) (!p.2) = none) (hsz : T.Sized (fs.map (·.1))) :
    ∃ T', T.mrSetFaces r fs = .ok T' ∧
      T'.Consistent ∧ T'.nv = T.nv ∧ T'.ne = T.ne ∧ T'.nf = T.nf ∧ T'.nr = T.nr ∧ T'.fe = T.fe ∧
      (∃ l, T'.rf r = some l) ∧ (∀ z, z ≠ r → T'.rf z = T.rf z) ∧
      T'.view = { T.view with faces := upd T.view.faces r fs } := by
  obtain ⟨w, s2, _, hd⟩ := Topo.mrSetFaces_ok (Topo.alloc_of_live hr) (fun p hp => Topo.alloc_of_live (hfs p hp).1) hsz
  obtain ⟨T2, hs2, c2⟩ := hc.step (.setFaces r fs) ⟨hr, by rw [hrf]; rfl, hn, hfs, hsz⟩
  have h2 := Res.ok.inj (hs2.symm.trans s2)
  refine ⟨T2, hs2, c2, by rw [h2], by rw [h2], by rw [h2],
    by rw [h2], by rw [h2], ⟨_, by rw [h2]; exact upd_same _ _ _⟩, ?_, ?_⟩
  · intro f hf
    rw [h2]
    show upd T.rf r _ f = _
    rw [upd_ne _ _ hf]
  have hrf : T2.rf = upd T.rf r (some (fs.map (·.1))) := by rw [h2]
  have hrd : T2.rd = upd T.rd r w := by rw [h2]
  have hed : Topo.facesOf T2.rf T2.rd = upd (Topo.facesOf T.rf T.rd) r fs := by
    refine Topo.facesOf_upd (fun z hz => by rw [hrf, upd_ne _ _ hz]) (fun z hz => by rw [hrd, upd_ne _ _ hz]) ?_
    unfold Topo.facesOf
    rw [hrf, hrd, upd_same, upd_same]
    exact hd
  show Topo.View.mk T2.sv T2.se T2.sf T2.sr T2.ev T2.edgesOf (Topo.facesOf T2.rf T2.rd) = _
  rw [hed, h2]
  rfl

/-! ### the mesh while it is received -/

/-- `nv`, `ne`, `nf`, `nr` entities, of which the first `pe` edges, `pf` faces and `pr` regions know
what bounds them -/
def partly (S : FMesh D) (nv ne nf nr pe pf pr : Nat) : Topo.View where
  sv := upto nv (fun _ => .live) .unused
  se := upto ne (fun _ => .live) .unused
  sf := upto nf (fun _ => .live) .unused
  sr := upto nr (fun _ => .live) .unused
  ends := upto pe (endsI S) (none, none)
  edges := upto pf (edgesI S) []
  faces := upto pr (facesI S) []

/-- how far the mesh has been received: numbers of entities, and of those for which the data has been
filled in -/
structure Cnt where
  nv : Nat
  ne : Nat
  nf : Nat
  nr : Nat
  pv : Nat
  px : Nat
  pe : Nat
  pf : Nat
  pr : Nat

/-- the state while `S` is received -/
structure Rcv (zero : D) (S N : CMesh D) (c : Cnt) : Prop where
  cons : N.F.T.Consistent
  cv : N.F.T.nv = c.nv
  ce : N.F.T.ne = c.ne
  cf : N.F.T.nf = c.nf
  cr : N.F.T.nr = c.nr
  vl : N.F.vl = List.range c.nv
  el : N.F.el = List.range c.ne
  fl : N.F.fl = List.range c.nf
  rl : N.F.rl = List.range c.nr
  view : N.F.T.view = partly S.F c.nv c.ne c.nf c.nr c.pe c.pf c.pr
  fe : ∀ i < c.pf, ∃ l, N.F.T.fe i = some l
  feN : ∀ i, c.pf ≤ i → N.F.T.fe i = none
  rf : ∀ i < c.pr, ∃ l, N.F.T.rf i = some l
  rfN : ∀ i, c.pr ≤ i → N.F.T.rf i = none
  xyz : N.F.xyz = tab 0 c.px S.F.vl S.F.xyz (CMesh.new zero).F.xyz
  vc : N.F.vc = tab 0 c.pv S.F.vl S.F.vc (CMesh.new zero).F.vc
  ec : N.F.ec = tab 0 c.pe S.F.el S.F.ec (CMesh.new zero).F.ec
  fc : N.F.fc = tab 0 c.pf S.F.fl S.F.fc (CMesh.new zero).F.fc
  rc : N.F.rc = tab 0 c.pr S.F.rl S.F.rc (CMesh.new zero).F.rc
  vid : N.F.vid = upto c.nv (fun i => (i : Int) + 1) 0
  eid : N.F.eid = upto c.ne (fun i => (i : Int) + 1) 0
  fid : N.F.fid = upto c.nf (fun i => (i : Int) + 1) 0
  rid : N.F.rid = upto c.nr (fun i => (i : Int) + 1) 0
  par0 : N.par 0 = tab 0 c.pv S.F.vl (S.par 0) ((CMesh.new zero).par 0)
  par1 : N.par 1 = tab 0 c.pe S.F.el (S.par 1) ((CMesh.new zero).par 1)
  par2 : N.par 2 = tab 0 c.pf S.F.fl (S.par 2) ((CMesh.new zero).par 2)
  par3 : N.par 3 = tab 0 c.pr S.F.rl (fun r => noFlag (S.par 3 r)) ((CMesh.new zero).par 3)
  top0 : N.top 0 = c.nv
  top1 : N.top 1 = c.ne
  top2 : N.top 2 = c.nf
  top3 : N.top 3 = c.nr
  atts : N.F.atts = []
  sets : N.sets = []

theorem rcv_new (zero : D) (S : CMesh D) : Rcv zero S (CMesh.new zero) ⟨0, 0, 0, 0, 0, 0, 0, 0, 0⟩ where
  cons := Topo.empty_consistent
  cv := rfl
  ce := rfl
  cf := rfl
  cr := rfl
  vl := rfl
  el := rfl
  fl := rfl
  rl := rfl
  view := rfl
  fe := by intro i hi; exact absurd hi (by simp)
  feN := fun _ _ => rfl
  rf := by intro i hi; exact absurd hi (by simp)
  rfN := fun _ _ => rfl
  xyz := (tab_zero _ _ _ _).symm
  vc := (tab_zero _ _ _ _).symm
  ec := (tab_zero _ _ _ _).symm
  fc := (tab_zero _ _ _ _).symm
  rc := (tab_zero _ _ _ _).symm
  vid := rfl
  eid := rfl
  fid := rfl
  rid := rfl
  par0 := (tab_zero _ _ _ _).symm
  par1 := (tab_zero _ _ _ _).symm
  par2 := (tab_zero _ _ _ _).symm
  par3 := (tab_zero _ _ _ _).symm
  top0 := rfl
  top1 := rfl
  top2 := rfl
  top3 := rfl
  atts := rfl
  sets := rfl

theorem upd_top {f : Nat → Int} {k : Nat} {n : Nat} (h : f k = n) : upd f k (f k + 1) k = ((n + 1 : Nat) : Int) := by
  rw [upd_same, h]; rfl

theorem rcv_newV {zero : D} {S N : CMesh D} {c : Cnt} (hi : Rcv zero S N c) :
    Rcv zero S (newVertex N).1 { c with nv := c.nv + 1 } := by
  have hp : N.F.T.mvNew.2 = c.nv := hi.cv
  unfold newVertex
  simp only [hp]
  exact
  { hi with
    cons := hi.cons.newVertex
    cv := by show N.F.T.nv + 1 = _; rw [hi.cv]
    vl := by show N.F.vl ++ [c.nv] = _; rw [hi.vl]; exact List.range_succ.symm
    view := by
      show Topo.View.mk (upd N.F.T.sv N.F.T.nv .live) N.F.T.view.se N.F.T.view.sf N.F.T.view.sr N.F.T.view.ends
        N.F.T.view.edges N.F.T.view.faces = _
      rw [hi.cv, show N.F.T.sv = N.F.T.view.sv from rfl, hi.view]
      unfold partly
      simp only
      rw [upto_succ]
    vid := by show upd N.F.vid c.nv (N.top 0 + 1) = _; rw [hi.vid, hi.top0]; exact (upto_succ _ _ _).symm
    top0 := upd_top hi.top0
    top1 := by dsimp only; rw [upd_ne _ _ (by omega)]; exact hi.top1
    top2 := by dsimp only; rw [upd_ne _ _ (by omega)]; exact hi.top2
    top3 := by dsimp only; rw [upd_ne _ _ (by omega)]; exact hi.top3 }

theorem rcv_newE {zero : D} {S N : CMesh D} {c : Cnt} (hi : Rcv zero S N c) (hle : c.pe ≤ c.ne) :
    Rcv zero S (newE N) { c with ne := c.ne + 1 } := by
  have hp : N.F.T.meNew.2 = c.ne := hi.ce
  unfold newE
  simp only [hp]
  exact
  { hi with
    cons := hi.cons.newEdge
    ce := by show N.F.T.ne + 1 = _; rw [hi.ce]
    el := by show N.F.el ++ [c.ne] = _; rw [hi.el]; exact List.range_succ.symm
    view := by
      show Topo.View.mk N.F.T.view.sv (upd N.F.T.se N.F.T.ne .live) N.F.T.view.sf N.F.T.view.sr
        (upd N.F.T.ev N.F.T.ne (none, none)) N.F.T.view.edges N.F.T.view.faces = _
      have hev : N.F.T.ev c.ne = (none, none) := by
        rw [show N.F.T.ev = N.F.T.view.ends from rfl, hi.view]; exact upto_out hle
      have hu : upd N.F.T.ev c.ne (none, none) = N.F.T.ev := by
        have := Topo.upd_self N.F.T.ev c.ne
        rwa [hev] at this
      rw [hi.ce, hu, show N.F.T.se = N.F.T.view.se from rfl,
        show N.F.T.ev = N.F.T.view.ends from rfl, hi.view]
      unfold partly
      simp only
      rw [upto_succ]
    eid := by show upd N.F.eid c.ne (N.top 1 + 1) = _; rw [hi.eid, hi.top1]; exact (upto_succ _ _ _).symm
    top1 := upd_top hi.top1
    top0 := by dsimp only; rw [upd_ne _ _ (by omega)]; exact hi.top0
    top2 := by dsimp only; rw [upd_ne _ _ (by omega)]; exact hi.top2
    top3 := by dsimp only; rw [upd_ne _ _ (by omega)]; exact hi.top3 }

theorem rcv_newF {zero : D} {S N : CMesh D} {c : Cnt} (hi : Rcv zero S N c) (hle : c.pf ≤ c.nf) :
    Rcv zero S (newF N) { c with nf := c.nf + 1 } := by
  have hp : N.F.T.mfNew.2 = c.nf := hi.cf
  unfold newF
  simp only [hp]
  have hfe : N.F.T.fe c.nf = none := hi.feN _ hle
  exact
  { hi with
    cons := hi.cons.newFace
    cf := by show N.F.T.nf + 1 = _; rw [hi.cf]
    fl := by show N.F.fl ++ [c.nf] = _; rw [hi.fl]; exact List.range_succ.symm
    view := by
      have h1 : N.F.T.mfNew.1.edgesOf = N.F.T.edgesOf := by
        funext g
        by_cases hg : g = c.nf
        · unfold Topo.edgesOf
          rw [hg, show N.F.T.mfNew.1.fe = upd N.F.T.fe N.F.T.nf none from rfl, hi.cf, upd_same, hfe]
          rfl
        · unfold Topo.edgesOf
          rw [show N.F.T.mfNew.1.fe = upd N.F.T.fe N.F.T.nf none from rfl,
            show N.F.T.mfNew.1.fd = upd N.F.T.fd N.F.T.nf 0 from rfl, hi.cf, upd_ne _ _ hg, upd_ne _ _ hg]
      show Topo.View.mk N.F.T.view.sv N.F.T.view.se (upd N.F.T.sf N.F.T.nf .live) N.F.T.view.sr
        N.F.T.view.ends N.F.T.mfNew.1.edgesOf N.F.T.view.faces = _
      rw [h1, hi.cf, show N.F.T.sf = N.F.T.view.sf from rfl,
        show N.F.T.edgesOf = N.F.T.view.edges from rfl, hi.view]
      unfold partly
      simp only
      rw [upto_succ]
    fe := fun i hi' => by
      show ∃ l, upd N.F.T.fe N.F.T.nf none i = some l
      rw [hi.cf, upd_ne _ _ (by have : i < c.pf := hi'; omega)]
      exact hi.fe i hi'
    feN := fun i hi' => by
      show upd N.F.T.fe N.F.T.nf none i = none
      by_cases e : i = N.F.T.nf
      · rw [e, upd_same]
      · rw [upd_ne _ _ e]; exact hi.feN i hi'
    fid := by show upd N.F.fid c.nf (N.top 2 + 1) = _; rw [hi.fid, hi.top2]; exact (upto_succ _ _ _).symm
    top2 := upd_top hi.top2
    top0 := by dsimp only; rw [upd_ne _ _ (by omega)]; exact hi.top0
    top1 := by dsimp only; rw [upd_ne _ _ (by omega)]; exact hi.top1
    top3 := by dsimp only; rw [upd_ne _ _ (by omega)]; exact hi.top3 }

theorem rcv_newR {zero : D} {S N : CMesh D} {c : Cnt} (hi : Rcv zero S N c) (hle : c.pr ≤ c.nr) :
    Rcv zero S (newR N) { c with nr := c.nr + 1 } := by
  have hp : N.F.T.mrNew.2 = c.nr := hi.cr
  unfold newR
  simp only [hp]
  have hrf : N.F.T.rf c.nr = none := hi.rfN _ hle
  exact
  { hi with
    cons := hi.cons.newRegion
    cr := by show N.F.T.nr + 1 = _; rw [hi.cr]
    rl := by show N.F.rl ++ [c.nr] = _; rw [hi.rl]; exact List.range_succ.symm
    view := by
      have h1 : Topo.facesOf N.F.T.mrNew.1.rf N.F.T.mrNew.1.rd = Topo.facesOf N.F.T.rf N.F.T.rd := by
        funext g
        by_cases hg : g = c.nr
        · unfold Topo.facesOf
          rw [hg, show N.F.T.mrNew.1.rf = upd N.F.T.rf N.F.T.nr none from rfl, hi.cr, upd_same, hrf]
          rfl
        · unfold Topo.facesOf
          rw [show N.F.T.mrNew.1.rf = upd N.F.T.rf N.F.T.nr none from rfl,
            show N.F.T.mrNew.1.rd = upd N.F.T.rd N.F.T.nr [] from rfl, hi.cr, upd_ne _ _ hg, upd_ne _ _ hg]
      show Topo.View.mk N.F.T.view.sv N.F.T.view.se N.F.T.view.sf (upd N.F.T.sr N.F.T.nr .live)
        N.F.T.view.ends N.F.T.view.edges (Topo.facesOf N.F.T.mrNew.1.rf N.F.T.mrNew.1.rd) = _
      rw [h1, hi.cr, show N.F.T.sr = N.F.T.view.sr from rfl,
        show Topo.facesOf N.F.T.rf N.F.T.rd = N.F.T.view.faces from rfl, hi.view]
      unfold partly
      simp only
      rw [upto_succ]
    rf := fun i hi' => by
      show ∃ l, upd N.F.T.rf N.F.T.nr none i = some l
      rw [hi.cr, upd_ne _ _ (by have : i < c.pr := hi'; omega)]
      exact hi.rf i hi'
    rfN := fun i hi' => by
      show upd N.F.T.rf N.F.T.nr none i = none
      by_cases e : i = N.F.T.nr
      · rw [e, upd_same]
      · rw [upd_ne _ _ e]; exact hi.rfN i hi'
    rid := by show upd N.F.rid c.nr (N.top 3 + 1) = _; rw [hi.rid, hi.top3]; exact (upto_succ _ _ _).symm
    top3 := upd_top hi.top3
    top0 := by dsimp only; rw [upd_ne _ _ (by omega)]; exact hi.top0
    top1 := by dsimp only; rw [upd_ne _ _ (by omega)]; exact hi.top1
    top2 := by dsimp only; rw [upd_ne _ _ (by omega)]; exact hi.top2 }

theorem times_newV {zero : D} {S : CMesh D} : ∀ (n : Nat) {N : CMesh D} {c : Cnt}, Rcv zero S N c →
    Rcv zero S (times (fun N => (newVertex N).1) n N) { c with nv := c.nv + n }
  | 0, _, _, h => h
  | n+1, N, c, h => by
    have := times_newV n (rcv_newV h)
    rw [show c.nv + (n+1) = c.nv + 1 + n by omega]
    exact this

theorem times_newE {zero : D} {S : CMesh D} : ∀ (n : Nat) {N : CMesh D} {c : Cnt}, Rcv zero S N c → c.pe ≤ c.ne →
    Rcv zero S (times newE n N) { c with ne := c.ne + n }
  | 0, _, _, h, _ => h
  | n+1, N, c, h, hle => by
    have := times_newE n (rcv_newE h hle) (Nat.le_succ_of_le hle)
    rw [show c.ne + (n+1) = c.ne + 1 + n by omega]
    exact this

theorem times_newF {zero : D} {S : CMesh D} : ∀ (n : Nat) {N : CMesh D} {c : Cnt}, Rcv zero S N c → c.pf ≤ c.nf →
    Rcv zero S (times newF n N) { c with nf := c.nf + n }
  | 0, _, _, h, _ => h
  | n+1, N, c, h, hle => by
    have := times_newF n (rcv_newF h hle) (Nat.le_succ_of_le hle)
    rw [show c.nf + (n+1) = c.nf + 1 + n by omega]
    exact this

theorem times_newR {zero : D} {S : CMesh D} : ∀ (n : Nat) {N : CMesh D} {c : Cnt}, Rcv zero S N c → c.pr ≤ c.nr →
    Rcv zero S (times newR n N) { c with nr := c.nr + n }
  | 0, _, _, h, _ => h
  | n+1, N, c, h, hle => by
    have := times_newR n (rcv_newR h hle) (Nat.le_succ_of_le hle)
    rw [show c.nr + (n+1) = c.nr + 1 + n by omega]
    exact this

theorem tab0_succ {α : Type} {k : Nat} {l : List Nat} {src old : Nat → α} {x : Nat} (h : l[k]? = some x)
    {f : Nat → α} (hf : f = tab 0 k l src old) {y : α} (hy : y = src x) : upd f k y = tab 0 (k+1) l src old := by
  have := tab_succ h hf
  rw [Nat.zero_add] at this
  rw [hy]; exact this

theorem tab0_out {α : Type} {k : Nat} {l : List Nat} {src old f : Nat → α} (hf : f = tab 0 k l src old) : f k = old k := by
  rw [hf]; unfold tab; rw [ext_out (by omega)]

theorem rcv_recvV {zero : D} {S N : CMesh D} (h : Sendable S) {c : Cnt} (hi : Rcv zero S N c) (hn : c.nv = S.F.vl.length)
    {v : Nat} (hv : S.F.vl[c.pv]? = some v) :
    ∃ N', recvV (S.F.vl.map (vI S)).flatten c.pv N = .ok N' ∧ Rcv zero S N' { c with pv := c.pv + 1 } := by
  have hmem : v ∈ S.F.vl := List.mem_of_getElem? hv
  have hlt : c.pv < S.F.vl.length := (List.getElem?_eq_some_iff.1 hv).1
  have hc : ∀ x ∈ S.F.vl, (vI S x).length = 3 := fun _ _ => rfl
  have r0 : rd N.F.vl c.pv = .ok c.pv := rd_ok (by rw [hi.vl, List.getElem?_range (by omega)])
  have r1 : rd (S.F.vl.map (vI S)).flatten (3*c.pv) = _ := rd_flat hc hv (j := 0) (by omega) rfl
  have r2 := rd_flat hc hv (j := 1) (by omega) rfl
  have r3 := rd_flat hc hv (j := 2) (by omega) rfl
  unfold recvV
  simp only [r0, r1, r2, r3, Res.bind_ok]
  refine ⟨_, rfl, ?_⟩
  exact
  { hi with
    vc := tab0_succ hv hi.vc (unpack_class (h.mesh.vc v hmem))
    par0 := by
      dsimp only
      rw [upd2_same]
      exact tab0_succ hv hi.par0 (unpackP_ok (h.par 0 (by omega) v hmem) (by rw [tab0_out hi.par0]; rfl))
    par1 := by dsimp only; rw [upd2_ne _ _ _ (by omega)]; exact hi.par1
    par2 := by dsimp only; rw [upd2_ne _ _ _ (by omega)]; exact hi.par2
    par3 := by dsimp only; rw [upd2_ne _ _ _ (by omega)]; exact hi.par3 }

theorem rcv_recvX {zero : D} {S N : CMesh D} {c : Cnt} (hi : Rcv zero S N c) (hn : c.nv = S.F.vl.length)
    {v : Nat} (hv : S.F.vl[c.px]? = some v) :
    ∃ N', recvX (S.F.vl.flatMap (vDbls S)) c.px N = .ok N' ∧ Rcv zero S N' { c with px := c.px + 1 } := by
  have hlt : c.px < S.F.vl.length := (List.getElem?_eq_some_iff.1 hv).1
  have hc : ∀ x ∈ S.F.vl, (vDbls S x).length = 3 := fun _ _ => rfl
  have r0 : rd N.F.vl c.px = .ok c.px := rd_ok (by rw [hi.vl, List.getElem?_range (by omega)])
  have r1 : rd (S.F.vl.map (vDbls S)).flatten (3*c.px) = _ := rd_flat hc hv (j := 0) (by omega) rfl
  have r2 := rd_flat hc hv (j := 1) (by omega) rfl
  have r3 := rd_flat hc hv (j := 2) (by omega) rfl
  unfold recvX
  rw [show S.F.vl.flatMap (vDbls S) = (S.F.vl.map (vDbls S)).flatten from List.flatMap_def ..]
  simp only [r0, r1, r2, r3, Res.bind_ok]
  exact ⟨_, rfl, { hi with xyz := tab0_succ hv hi.xyz rfl }⟩

theorem Sendable.vid_num {S : CMesh D} (h : Sendable S) {v : Nat} (hv : v ∈ S.F.vl) : S.F.vid v = num S.F.vl v := by
  have hi := List.idxOf_lt_length_of_mem hv
  rw [num_mem hv]
  exact h.vid _ v (by rw [List.getElem?_eq_getElem hi, List.getElem_idxOf])

theorem Sendable.eid_num {S : CMesh D} (h : Sendable S) {v : Nat} (hv : v ∈ S.F.el) : S.F.eid v = num S.F.el v := by
  have hi := List.idxOf_lt_length_of_mem hv
  rw [num_mem hv]
  exact h.eid _ v (by rw [List.getElem?_eq_getElem hi, List.getElem_idxOf])

theorem Sendable.fid_num {S : CMesh D} (h : Sendable S) {v : Nat} (hv : v ∈ S.F.fl) : S.F.fid v = num S.F.fl v := by
  have hi := List.idxOf_lt_length_of_mem hv
  rw [num_mem hv]
  exact h.fid _ v (by rw [List.getElem?_eq_getElem hi, List.getElem_idxOf])

theorem rcv_recvE {zero : D} {S N : CMesh D} (h : Sendable S) {c : Cnt} (hi : Rcv zero S N c)
    (hv : c.nv = S.F.vl.length) (hn : c.ne = S.F.el.length) {e : Nat} (he : S.F.el[c.pe]? = some e) :
    ∃ N', recvE (S.F.el.map (eI S)).flatten c.pe N = .ok N' ∧ Rcv zero S N' { c with pe := c.pe + 1 } := by
  have hmem : e ∈ S.F.el := List.mem_of_getElem? he
  have hlt : c.pe < S.F.el.length := (List.getElem?_eq_some_iff.1 he).1
  have hg : S.F.el.getD c.pe 0 = e := by rw [List.getD_eq_getElem?_getD, he]; rfl
  obtain ⟨a, b, hab⟩ := h.mesh.ends e hmem
  obtain ⟨ha, hb⟩ := h.mesh.endsLive hmem hab
  have hc : ∀ x ∈ S.F.el, (eI S x).length = 5 := fun _ _ => rfl
  have r0 : rd N.F.el c.pe = .ok c.pe := rd_ok (by rw [hi.el, List.getElem?_range (by omega)])
  have ra : rd (S.F.el.map (eI S)).flatten (5*c.pe) = .ok (num S.F.vl a) :=
    rd_flat hc he (j := 0) (by omega) (by unfold eI; rw [hab, ← h.vid_num ha]; rfl)
  have rb : rd (S.F.el.map (eI S)).flatten (5*c.pe+1) = .ok (num S.F.vl b) :=
    rd_flat hc he (j := 1) (by omega) (by unfold eI; rw [hab, ← h.vid_num hb]; rfl)
  have r2 := rd_flat hc he (j := 2) (by omega) rfl
  have r3 := rd_flat hc he (j := 3) (by omega) rfl
  have r4 := rd_flat hc he (j := 4) (by omega) rfl
  have hid : ∀ i < S.F.vl.length, N.F.vid i = i+1 := by
    intro i hi'; rw [hi.vid]; exact upto_at (by omega)
  have fa : fromID N.F.vl N.F.vid (num S.F.vl a) = some (S.F.vl.idxOf a) := by
    rw [hi.vl, hv]; exact fromID_num hid ha rfl
  have fb : fromID N.F.vl N.F.vid (num S.F.vl b) = some (S.F.vl.idxOf b) := by
    rw [hi.vl, hv]; exact fromID_num hid hb rfl
  have hsv : ∀ x ∈ S.F.vl, N.F.T.sv (S.F.vl.idxOf x) = .live := by
    intro x hx
    rw [show N.F.T.sv = N.F.T.view.sv from rfl, hi.view]
    exact upto_at (g := fun _ => Stat.live) (by have := List.idxOf_lt_length_of_mem hx; omega)
  obtain ⟨T2, T3, s2, s3, c3, n1, n2, n3, n4, n5, n7, hvw⟩ := setEnds hi.cons (e := c.pe)
    (by rw [show N.F.T.se = N.F.T.view.se from rfl, hi.view]; exact upto_at (g := fun _ => Stat.live) (by omega))
    (by rw [show N.F.T.ev = N.F.T.view.ends from rfl, hi.view]; exact upto_out (by omega))
    (hsv a ha) (hsv b hb)
  unfold recvE
  simp only [r0, ra, rb, r2, r3, r4, fa, fb, s2, s3, Res.ofOption_some, Res.bind_ok]
  refine ⟨_, rfl, ?_⟩
  exact
  { hi with
    cons := c3
    cv := n1.trans hi.cv
    ce := n2.trans hi.ce
    cf := n3.trans hi.cf
    cr := n4.trans hi.cr
    fe := fun i hi' => by rw [show T3.fe = _ from n5]; exact hi.fe i hi'
    feN := fun i hi' => by rw [show T3.fe = _ from n5]; exact hi.feN i hi'
    rf := fun i hi' => by rw [show T3.rf = _ from n7]; exact hi.rf i hi'
    rfN := fun i hi' => by rw [show T3.rf = _ from n7]; exact hi.rfN i hi'
    view := by
      have hei : endsI S.F c.pe = (some (S.F.vl.idxOf a), some (S.F.vl.idxOf b)) := by
        unfold endsI; rw [hg, hab]; rfl
      show T3.view = _
      rw [hvw, hi.view]
      unfold partly
      rw [upto_succ, hei]
    ec := tab0_succ he hi.ec (unpack_class (h.mesh.ec e hmem))
    par0 := by dsimp only; rw [upd2_ne _ _ _ (by omega)]; exact hi.par0
    par1 := by
      dsimp only
      rw [upd2_same]
      exact tab0_succ he hi.par1 (unpackP_ok (h.par 1 (by omega) e hmem) (by rw [tab0_out hi.par1]; rfl))
    par2 := by dsimp only; rw [upd2_ne _ _ _ (by omega)]; exact hi.par2
    par3 := by dsimp only; rw [upd2_ne _ _ _ (by omega)]; exact hi.par3 }

theorem recvRefs_ok {n cap : Nat} {l : List Nat} (hn : l.length = n) : ∀ (ps : List (Nat × Bool)) (j : Nat),
    j + ps.length ≤ cap → (∀ p ∈ ps, p.1 ∈ l) →
    recvRefs (List.range n) cap j (ps.map fun p => signed p.2 (num l p.1)) = .ok (ps.map fun p => (l.idxOf p.1, p.2))
  | [], _, _, _ => rfl
  | p :: ps, j, hc, h => by
    have hp := h p (by simp)
    have hlt := List.idxOf_lt_length_of_mem hp
    have h0 : signed p.2 (num l p.1) ≠ 0 := by
      rw [num_mem hp]; unfold signed; split <;> omega
    have h1 : (signed p.2 (num l p.1)).natAbs - 1 = l.idxOf p.1 := by
      rw [num_mem hp]; unfold signed; split <;> omega
    have h2 : decide (0 < signed p.2 (num l p.1)) = p.2 := by
      rw [num_mem hp]; unfold signed
      cases p.2 <;> simp
    rw [List.length_cons] at hc
    rw [List.map_cons]
    unfold recvRefs
    rw [if_neg (by omega), h1, rd_ok (by rw [List.getElem?_range (by omega)]), Res.bind_ok,
      recvRefs_ok hn ps (j+1) (by omega) fun q hq => h q (List.mem_cons_of_mem _ hq), Res.bind_ok, h2]
    rfl

/-- reading a buffer behind what has been read -/
theorem rd_drop {α : Type} {l m : List α} {q j : Nat} {x : α} (h : l.drop q = m) (hx : m[j]? = some x) :
    rd l (q + j) = .ok x := by
  subst h
  rw [List.getElem?_drop] at hx
  exact rd_ok hx

/-- one block of a buffer of blocks of different lengths -/
theorem read_block {l rest r : List Int} {q n : Nat} {g p d : Int} (hn : r.length = n)
    (h : l.drop q = ((n : Int) :: (r ++ [g, p, d])) ++ rest) :
    rd l q = .ok (n : Int) ∧ ¬ l.length < q + 1 + n ∧ (l.drop (q+1)).take n = r ∧ rd l (q + n + 1) = .ok g ∧
      rd l (q + n + 2) = .ok p ∧ rd l (q + n + 3) = .ok d ∧ l.drop (q + n + 4) = rest := by
  subst hn
  have hlen := congrArg List.length h
  simp only [List.length_drop, List.length_append, List.length_cons, List.length_nil] at hlen
  have hd : ∀ k, l.drop (q + k) = (((r.length : Int) :: (r ++ [g, p, d])) ++ rest).drop k := by
    intro k; rw [← h, List.drop_drop]
  refine ⟨rd_drop (j := 0) h rfl, by omega, ?_, ?_, ?_, ?_, ?_⟩
  · rw [hd 1]
    simp [List.append_assoc]
  · have : (((r.length : Int) :: (r ++ [g, p, d])) ++ rest)[r.length + 1]? = some g := by simp
    rw [Nat.add_assoc]; exact rd_drop h this
  · have : (((r.length : Int) :: (r ++ [g, p, d])) ++ rest)[r.length + 2]? = some p := by simp
    rw [Nat.add_assoc]; exact rd_drop h this
  · have : (((r.length : Int) :: (r ++ [g, p, d])) ++ rest)[r.length + 3]? = some d := by simp
    rw [Nat.add_assoc]; exact rd_drop h this
  · have : q + r.length + 4 = q + (r.length + 4) := by omega
    rw [this, hd]
    simp [List.append_assoc]

theorem rcv_recvF {zero : D} {S N : CMesh D} (h : Sendable S) {c : Cnt} (hi : Rcv zero S N c)
    (hne : c.ne = S.F.el.length) (hn : c.nf = S.F.fl.length) {f q : Nat} (hf : S.F.fl[c.pf]? = some f)
    (hq : (S.F.fl.map (fI S)).flatten.drop q = ((S.F.fl.drop c.pf).map (fI S)).flatten) :
    ∃ N' q', recvF (S.F.fl.map (fI S)).flatten c.pf (N, q) = .ok (N', q') ∧ Rcv zero S N' { c with pf := c.pf + 1 } ∧
      (S.F.fl.map (fI S)).flatten.drop q' = ((S.F.fl.drop (c.pf + 1)).map (fI S)).flatten := by
  have hmem : f ∈ S.F.fl := List.mem_of_getElem? hf
  have hlt : c.pf < S.F.fl.length := (List.getElem?_eq_some_iff.1 hf).1
  have hg : S.F.fl.getD c.pf 0 = f := by rw [List.getD_eq_getElem?_getD, hf]; rfl
  have hdr : S.F.fl.drop c.pf = f :: S.F.fl.drop (c.pf+1) := by
    rw [List.drop_eq_getElem_cons hlt, (List.getElem?_eq_some_iff.1 hf).2]
  have hei : edgesI S.F c.pf = (S.F.T.view.edges f).map fun p => (S.F.el.idxOf p.1, p.2) := by
    unfold edgesI; rw [hg]
  have r0 : rd N.F.fl c.pf = .ok c.pf := rd_ok (by rw [hi.fl, List.getElem?_range (by omega)])
  rw [hdr, List.map_cons, List.flatten_cons] at hq
  obtain ⟨b1, b2, b3, b4, b5, b6, b7⟩ := read_block (n := (S.F.T.view.edges f).length) (by rw [List.length_map]) hq
  have hrefs : (S.F.T.view.edges f).map (fun p => signed p.2 (S.F.eid p.1)) =
      (S.F.T.view.edges f).map (fun p => signed p.2 (num S.F.el p.1)) := by
    apply List.map_congr_left
    intro p hp
    rw [h.eid_num (h.mesh.edgesLive hmem hp)]
  have r1 : recvRefs N.F.el 30 0 ((S.F.T.view.edges f).map (fun p => signed p.2 (S.F.eid p.1))) = .ok (edgesI S.F c.pf) := by
    rw [hrefs, hi.el, hne, hei]
    exact recvRefs_ok rfl _ 0 (by have := h.edges f hmem; omega) fun p hp => h.mesh.edgesLive hmem hp
  obtain ⟨T2, s2, c2, n1, n2, n3, n4, n5, n6, n7, hvw⟩ := setEdgesOn hi.cons (f := c.pf) (es := edgesI S.F c.pf)
    (by rw [show N.F.T.sf = N.F.T.view.sf from rfl, hi.view]; exact upto_at (g := fun _ => Stat.live) (by omega))
    (hi.feN _ (Nat.le_refl _))
    (by rw [hei, List.length_map]; exact (h.mesh.edges f hmem).2) (by
      intro p hp
      rw [hei] at hp
      obtain ⟨q, hq, rfl⟩ := List.mem_map.1 hp
      rw [show N.F.T.se = N.F.T.view.se from rfl, hi.view]
      exact upto_at (g := fun _ => Stat.live) (by
        have := List.idxOf_lt_length_of_mem (h.mesh.edgesLive hmem hq); show S.F.el.idxOf q.1 < _; omega))
  unfold recvF
  simp only [r0, b1, Res.bind_ok, Int.toNat_natCast, if_neg b2, b3, b4, b5, b6, r1, s2]
  refine ⟨_, _, rfl, ?_, b7⟩
  exact
  { hi with
    cons := c2
    cv := n1.trans hi.cv
    ce := n2.trans hi.ce
    cf := n3.trans hi.cf
    cr := n4.trans hi.cr
    fe := fun i hi' => by
      have hi' : i < c.pf + 1 := hi'
      by_cases e : i = c.pf
      · rw [e]; exact n5
      · rw [show T2.fe i = _ from n6 i e]; exact hi.fe i (by omega)
    feN := fun i hi' => by
      have hi' : c.pf + 1 ≤ i := hi'
      rw [show T2.fe i = _ from n6 i (by omega)]; exact hi.feN i (by omega)
    rf := fun i hi' => by rw [show T2.rf = _ from n7]; exact hi.rf i hi'
    rfN := fun i hi' => by rw [show T2.rf = _ from n7]; exact hi.rfN i hi'
    view := by
      show T2.view = _
      rw [hvw, hi.view]
      unfold partly
      rw [upto_succ]
    fc := tab0_succ hf hi.fc (unpack_class (h.mesh.fc f hmem))
    par0 := by dsimp only; rw [upd2_ne _ _ _ (by omega)]; exact hi.par0
    par1 := by dsimp only; rw [upd2_ne _ _ _ (by omega)]; exact hi.par1
    par2 := by
      dsimp only
      rw [upd2_same]
      exact tab0_succ hf hi.par2 (unpackP_ok (h.par 2 (by omega) f hmem) (by rw [tab0_out hi.par2]; rfl))
    par3 := by dsimp only; rw [upd2_ne _ _ _ (by omega)]; exact hi.par3 }

theorem rcv_recvR {zero : D} {S N : CMesh D} (h : Sendable S) {c : Cnt} (hi : Rcv zero S N c)
    (hnf : c.nf = S.F.fl.length) (hpf : c.pf = S.F.fl.length) (hn : c.nr = S.F.rl.length) {r q : Nat}
    (hr : S.F.rl[c.pr]? = some r)
    (hq : (S.F.rl.map (rI S)).flatten.drop q = ((S.F.rl.drop c.pr).map (rI S)).flatten) :
    ∃ N' q', recvR (S.F.rl.map (rI S)).flatten c.pr (N, q) = .ok (N', q') ∧ Rcv zero S N' { c with pr := c.pr + 1 } ∧
      (S.F.rl.map (rI S)).flatten.drop q' = ((S.F.rl.drop (c.pr + 1)).map (rI S)).flatten := by
  have hmem : r ∈ S.F.rl := List.mem_of_getElem? hr
  have hlt : c.pr < S.F.rl.length := (List.getElem?_eq_some_iff.1 hr).1
  have hg : S.F.rl.getD c.pr 0 = r := by rw [List.getD_eq_getElem?_getD, hr]; rfl
  have hdr : S.F.rl.drop c.pr = r :: S.F.rl.drop (c.pr+1) := by
    rw [List.drop_eq_getElem_cons hlt, (List.getElem?_eq_some_iff.1 hr).2]
  have hei : facesI S.F c.pr = (S.F.T.view.faces r).map fun p => (S.F.fl.idxOf p.1, p.2) := by
    unfold facesI; rw [hg]
  have hmap : (facesI S.F c.pr).map (·.1) = ((S.F.T.view.faces r).map (·.1)).map S.F.fl.idxOf := by
    rw [hei, List.map_map, List.map_map]; rfl
  have hin : ∀ f ∈ (S.F.T.view.faces r).map (·.1), f ∈ S.F.fl := by
    intro f hf
    obtain ⟨p, hp, rfl⟩ := List.mem_map.1 hf
    exact h.mesh.facesLive hmem hp
  have r0 : rd N.F.rl c.pr = .ok c.pr := rd_ok (by rw [hi.rl, List.getElem?_range (by omega)])
  rw [hdr, List.map_cons, List.flatten_cons] at hq
  obtain ⟨b1, b2, b3, b4, b5, b6, b7⟩ := read_block (n := (S.F.T.view.faces r).length) (by rw [List.length_map]) hq
  have hrefs : (S.F.T.view.faces r).map (fun p => signed p.2 (S.F.fid p.1)) =
      (S.F.T.view.faces r).map (fun p => signed p.2 (num S.F.fl p.1)) := by
    apply List.map_congr_left
    intro p hp
    rw [h.fid_num (h.mesh.facesLive hmem hp)]
  have r1 : recvRefs N.F.fl 512 0 ((S.F.T.view.faces r).map (fun p => signed p.2 (S.F.fid p.1))) = .ok (facesI S.F c.pr) := by
    rw [hrefs, hi.fl, hnf, hei]
    exact recvRefs_ok rfl _ 0 (by have := h.faces r hmem; omega) fun p hp => h.mesh.facesLive hmem hp
  obtain ⟨T2, s2, c2, n1, n2, n3, n4, n5, n6, n7, hvw⟩ := setFacesOn hi.cons (r := c.pr) (fs := facesI S.F c.pr)
    (by rw [show N.F.T.sr = N.F.T.view.sr from rfl, hi.view]; exact upto_at (g := fun _ => Stat.live) (by omega))
    (hi.rfN _ (Nat.le_refl _))
    (by rw [hmap]; exact nodup_positions (facesOf_length h.mesh hmem).1 hin)
    (by
      intro p hp
      rw [hei] at hp
      obtain ⟨⟨f, d⟩, hq, rfl⟩ := List.mem_map.1 hp
      have hf := h.mesh.facesLive hmem hq
      have hlive : N.F.T.sf (S.F.fl.idxOf f) = .live := by
        rw [show N.F.T.sf = N.F.T.view.sf from rfl, hi.view]
        exact upto_at (g := fun _ => Stat.live) (by have := List.idxOf_lt_length_of_mem (show f ∈ S.F.fl from hf); omega)
      refine ⟨hlive, ?_⟩
      cases hend : Topo.endAt (N.F.T.fr (S.F.fl.idxOf f)) (!d) with
      | none => rfl
      | some s =>
        exfalso
        obtain ⟨hs, hms⟩ := (hi.cons.fr.mem _ (Topo.alloc_of_live hlive) s d).1 hend
        have hsr : s < c.pr := by
          by_cases hlt : s < c.pr
          · exact hlt
          · rw [show Topo.facesOf N.F.T.rf N.F.T.rd = N.F.T.view.faces from rfl, hi.view,
              show (partly S.F c.nv c.ne c.nf c.nr c.pe c.pf c.pr).faces s = [] from
                upto_out (by omega : c.pr ≤ s)] at hms
            cases hms
        have hfs : Topo.facesOf N.F.T.rf N.F.T.rd s = facesI S.F s := by
          rw [show Topo.facesOf N.F.T.rf N.F.T.rd = N.F.T.view.faces from rfl, hi.view]
          exact upto_at hsr
        rw [hfs] at hms
        obtain ⟨⟨f', d'⟩, hq', he⟩ := List.mem_map.1 (show _ ∈ (S.F.T.view.faces (S.F.rl.getD s 0)).map _ from hms)
        simp only [Prod.mk.injEq] at he
        obtain ⟨he1, rfl⟩ := he
        have hsl : s < S.F.rl.length := by omega
        have hsg : S.F.rl.getD s 0 = S.F.rl[s] := by
          rw [List.getD_eq_getElem?_getD, List.getElem?_eq_getElem hsl]; rfl
        have hsm : S.F.rl[s] ∈ S.F.rl := List.getElem_mem _
        rw [hsg] at hq'
        have hf' := h.mesh.facesLive hsm hq'
        have : f' = f := idxOf_inj hf' he1
        subst this
        have a1 := (h.mesh.cons.fr.mem f' (Topo.alloc_of_live ((h.mesh.fl.2 _).1 hf)) r d').2 ⟨(h.mesh.rl.2 _).1 hmem, hq⟩
        have a2 := (h.mesh.cons.fr.mem f' (Topo.alloc_of_live ((h.mesh.fl.2 _).1 hf)) _ d').2 ⟨(h.mesh.rl.2 _).1 hsm, hq'⟩
        have heq : r = S.F.rl[s] := Option.some.inj (a1.symm.trans a2)
        have : c.pr = s := (List.getElem?_inj hlt h.mesh.rl.1).1 (by rw [hr, heq, List.getElem?_eq_getElem hsl])
        omega)
    (by
      intro g hgm
      rw [hmap] at hgm
      obtain ⟨f, hf, rfl⟩ := List.mem_map.1 hgm
      exact hi.fe _ (by have := List.idxOf_lt_length_of_mem (hin f hf); omega))
  unfold recvR
  simp only [r0, b1, Res.bind_ok, Int.toNat_natCast, if_neg b2, b3, b4, b5, b6, r1, s2]
  refine ⟨_, _, rfl, ?_, b7⟩
  exact
  { hi with
    cons := c2
    cv := n1.trans hi.cv
    ce := n2.trans hi.ce
    cf := n3.trans hi.cf
    cr := n4.trans hi.cr
    fe := fun i hi' => by rw [show T2.fe = _ from n5]; exact hi.fe i hi'
    feN := fun i hi' => by rw [show T2.fe = _ from n5]; exact hi.feN i hi'
    rf := fun i hi' => by
      have hi' : i < c.pr + 1 := hi'
      by_cases e : i = c.pr
      · rw [e]; exact n6
      · rw [show T2.rf i = _ from n7 i e]; exact hi.rf i (by omega)
    rfN := fun i hi' => by
      have hi' : c.pr + 1 ≤ i := hi'
      rw [show T2.rf i = _ from n7 i (by omega)]; exact hi.rfN i (by omega)
    view := by
      show T2.view = _
      rw [hvw, hi.view]
      unfold partly
      rw [upto_succ]
    rc := tab0_succ hr hi.rc (unpack_class (h.mesh.rc r hmem))
    par0 := by dsimp only; rw [upd2_ne _ _ _ (by omega)]; exact hi.par0
    par1 := by dsimp only; rw [upd2_ne _ _ _ (by omega)]; exact hi.par1
    par2 := by dsimp only; rw [upd2_ne _ _ _ (by omega)]; exact hi.par2
    par3 := by
      dsimp only
      rw [upd2_same]
      have ho : (N.par 3 c.pr).onPB = false := by rw [tab0_out hi.par3]; rfl
      refine tab0_succ (src := fun r => noFlag (S.par 3 r)) hr hi.par3 ?_
      rw [show ((S.par 3 r).gid : Int) = ((noFlag (S.par 3 r)).gid : Int) from rfl,
        unpackP_ok (p := noFlag (S.par 3 r)) (h.par 3 (by omega) r hmem) ho, ho]
      rfl }

end Send
end MSTK
