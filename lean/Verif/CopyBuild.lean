import Verif.CopyModel
import Verif.FileBuild

/-!
The mesh `MESH_Copy` builds (CopyModel.lean).
-/
namespace MSTK
namespace Copy
open File

variable {D : Type}

/-- `g` on the `k` places from `n` on, `old` elsewhere -/
def ext {α : Type} (n k : Nat) (g : Nat → α) (old : Nat → α) : Nat → α :=
  fun i => if n ≤ i ∧ i < n + k then g (i - n) else old i

theorem ext_zero {α : Type} (n : Nat) (g old : Nat → α) : ext n 0 g old = old := by
  funext i; unfold ext; rw [if_neg (by omega)]

theorem ext_succ {α : Type} (n k : Nat) (g old : Nat → α) :
    ext n (k+1) g old = upd (ext n k g old) (n+k) (g k) := by
  funext i
  unfold ext
  by_cases hi : i = n + k
  · subst hi; rw [upd_same, if_pos (by omega), show n + k - n = k by omega]
  · rw [upd_ne _ _ hi]
    by_cases h : n ≤ i ∧ i < n + k
    · rw [if_pos h, if_pos (by omega)]
    · rw [if_neg h, if_neg (by omega)]

theorem ext_at {α : Type} {n k i : Nat} {g old : Nat → α} (h : i < k) : ext n k g old (n + i) = g i := by
  unfold ext; rw [if_pos (by omega), show n + i - n = i by omega]

theorem ext_old {α : Type} {n k i : Nat} {g old : Nat → α} (h : i < n) : ext n k g old i = old i := by
  unfold ext; rw [if_neg (by omega)]

theorem ext_out {α : Type} {n k i : Nat} {g old : Nat → α} (h : n + k ≤ i) : ext n k g old i = old i := by
  unfold ext; rw [if_neg (by omega)]

/-- the ends of the `i`-th edge, in the copy -/
def endsC (S N0 : FMesh D) (i : Nat) : Option Nat × Option Nat :=
  let p := S.T.view.ends (S.el.getD i 0)
  (p.1.map fun v => N0.T.nv + S.vl.idxOf v, p.2.map fun v => N0.T.nv + S.vl.idxOf v)
/-- the edges of the `i`-th face, in the copy -/
def edgesC (S N0 : FMesh D) (i : Nat) : List (Nat × Bool) :=
  (S.T.view.edges (S.fl.getD i 0)).map fun p => (N0.T.ne + S.el.idxOf p.1, p.2)
/-- the faces of the `i`-th region, in the copy -/
def facesC (S N0 : FMesh D) (i : Nat) : List (Nat × Bool) :=
  (S.T.view.faces (S.rl.getD i 0)).map fun p => (N0.T.nf + S.fl.idxOf p.1, p.2)

/-- the destination with copies of the first entities of the source -/
def grown (S N0 : FMesh D) (nv ne nf nr : Nat) : Topo.View where
  sv := ext N0.T.nv nv (fun _ => .live) N0.T.view.sv
  se := ext N0.T.ne ne (fun _ => .live) N0.T.view.se
  sf := ext N0.T.nf nf (fun _ => .live) N0.T.view.sf
  sr := ext N0.T.nr nr (fun _ => .live) N0.T.view.sr
  ends := ext N0.T.ne ne (endsC S N0) N0.T.view.ends
  edges := ext N0.T.nf nf (edgesC S N0) N0.T.view.edges
  faces := ext N0.T.nr nr (facesC S N0) N0.T.view.faces

/-- a table of the destination with the values of the first `k` entities in the list -/
def tab {α : Type} (n k : Nat) (l : List Nat) (src old : Nat → α) : Nat → α :=
  ext n k (fun i => src (l.getD i 0)) old

theorem tab_succ {α : Type} {n k : Nat} {l : List Nat} {src old : Nat → α} {x : Nat} (h : l[k]? = some x)
    {f : Nat → α} (hf : f = tab n k l src old) : upd f (n+k) (src x) = tab n (k+1) l src old := by
  unfold tab at *
  rw [ext_succ, hf, List.getD_eq_getElem?_getD, h]
  rfl

/-- the copies of the first `k` entities are known -/
def Known (cp : Nat → Option Nat) (l : List Nat) (n k : Nat) : Prop :=
  ∀ i x, i < k → l[i]? = some x → cp x = some (n + i)

theorem Known.succ {cp : Nat → Option Nat} {l : List Nat} {n k x : Nat} (hn : l.Nodup) (h : Known cp l n k)
    (hx : l[k]? = some x) : Known (upd cp x (some (n + k))) l n (k+1) := by
  intro i y hi hy
  by_cases e : i = k
  · subst e
    rw [hy] at hx; cases hx
    rw [upd_same]
  · have : y ≠ x := by
      intro hyx
      subst hyx
      exact e ((List.getElem?_inj (List.getElem?_eq_some_iff.1 hy).1 hn).1 (hy.trans hx.symm))
    rw [upd_ne _ _ this]
    exact h i y (by omega) hy

theorem Known.of_mem {cp : Nat → Option Nat} {l : List Nat} {n x : Nat} (h : Known cp l n l.length)
    (hx : x ∈ l) : cp x = some (n + l.idxOf x) := by
  have hi := List.idxOf_lt_length_of_mem hx
  exact h _ x hi (by rw [List.getElem?_eq_getElem hi, List.getElem_idxOf])

/-- the state after copying the first entities -/
structure Cop (S N0 : CMesh D) (s : St D) (nv ne nf nr : Nat) : Prop where
  cons : s.N.F.T.Consistent
  cv : s.N.F.T.nv = N0.F.T.nv + nv
  ce : s.N.F.T.ne = N0.F.T.ne + ne
  cf : s.N.F.T.nf = N0.F.T.nf + nf
  cr : s.N.F.T.nr = N0.F.T.nr + nr
  vl : s.N.F.vl = N0.F.vl ++ (List.range nv).map (N0.F.T.nv + ·)
  el : s.N.F.el = N0.F.el ++ (List.range ne).map (N0.F.T.ne + ·)
  fl : s.N.F.fl = N0.F.fl ++ (List.range nf).map (N0.F.T.nf + ·)
  rl : s.N.F.rl = N0.F.rl ++ (List.range nr).map (N0.F.T.nr + ·)
  view : s.N.F.T.view = grown S.F N0.F nv ne nf nr
  fe : ∀ i < nf, ∃ l, s.N.F.T.fe (N0.F.T.nf + i) = some l
  rf : ∀ i < nr, ∃ l, s.N.F.T.rf (N0.F.T.nr + i) = some l
  feOld : ∀ f < N0.F.T.nf, s.N.F.T.fe f = N0.F.T.fe f
  rfOld : ∀ r < N0.F.T.nr, s.N.F.T.rf r = N0.F.T.rf r
  xyz : s.N.F.xyz = tab N0.F.T.nv nv S.F.vl S.F.xyz N0.F.xyz
  vc : s.N.F.vc = tab N0.F.T.nv nv S.F.vl S.F.vc N0.F.vc
  ec : s.N.F.ec = tab N0.F.T.ne ne S.F.el S.F.ec N0.F.ec
  fc : s.N.F.fc = tab N0.F.T.nf nf S.F.fl S.F.fc N0.F.fc
  rc : s.N.F.rc = tab N0.F.T.nr nr S.F.rl S.F.rc N0.F.rc
  vid : s.N.F.vid = tab N0.F.T.nv nv S.F.vl S.F.vid N0.F.vid
  eid : s.N.F.eid = tab N0.F.T.ne ne S.F.el S.F.eid N0.F.eid
  fid : s.N.F.fid = tab N0.F.T.nf nf S.F.fl S.F.fid N0.F.fid
  rid : s.N.F.rid = tab N0.F.T.nr nr S.F.rl S.F.rid N0.F.rid
  par0 : s.N.par 0 = tab N0.F.T.nv nv S.F.vl (S.par 0) (N0.par 0)
  par1 : s.N.par 1 = tab N0.F.T.ne ne S.F.el (S.par 1) (N0.par 1)
  par2 : s.N.par 2 = tab N0.F.T.nf nf S.F.fl (S.par 2) (N0.par 2)
  par3 : s.N.par 3 = tab N0.F.T.nr nr S.F.rl (fun r => noFlag (S.par 3 r)) (N0.par 3)
  cp0 : Known (s.cp 0) S.F.vl N0.F.T.nv nv
  cp1 : Known (s.cp 1) S.F.el N0.F.T.ne ne
  cp2 : Known (s.cp 2) S.F.fl N0.F.T.nf nf
  cp3 : Known (s.cp 3) S.F.rl N0.F.T.nr nr
  atts : s.N.F.atts = N0.F.atts
  sets : s.N.sets = N0.sets

theorem tab_zero {α : Type} (n : Nat) (l : List Nat) (src old : Nat → α) : tab n 0 l src old = old :=
  ext_zero _ _ _

theorem cop_start {S N0 : CMesh D} (h : N0.F.T.Consistent) : Cop S N0 ⟨N0, fun _ _ => none⟩ 0 0 0 0 where
  cons := h
  cv := rfl
  ce := rfl
  cf := rfl
  cr := rfl
  vl := by simp
  el := by simp
  fl := by simp
  rl := by simp
  view := by unfold grown; simp only [ext_zero]
  fe := by omega
  rf := by omega
  feOld := fun _ _ => rfl
  rfOld := fun _ _ => rfl
  xyz := (tab_zero _ _ _ _).symm
  vc := (tab_zero _ _ _ _).symm
  ec := (tab_zero _ _ _ _).symm
  fc := (tab_zero _ _ _ _).symm
  rc := (tab_zero _ _ _ _).symm
  vid := (tab_zero _ _ _ _).symm
  eid := (tab_zero _ _ _ _).symm
  fid := (tab_zero _ _ _ _).symm
  rid := (tab_zero _ _ _ _).symm
  par0 := (tab_zero _ _ _ _).symm
  par1 := (tab_zero _ _ _ _).symm
  par2 := (tab_zero _ _ _ _).symm
  par3 := (tab_zero _ _ _ _).symm
  cp0 := by intro i x hi; omega
  cp1 := by intro i x hi; omega
  cp2 := by intro i x hi; omega
  cp3 := by intro i x hi; omega
  atts := rfl
  sets := rfl

theorem upd2_same {α : Type} (f : Nat → Nat → α) (k x : Nat) (a : α) : upd2 f k x a k = upd (f k) x a := by
  unfold upd2; rw [upd_same]
theorem upd2_ne {α : Type} (f : Nat → Nat → α) {k k' : Nat} (x : Nat) (a : α) (h : k' ≠ k) :
    upd2 f k x a k' = f k' := by
  unfold upd2; rw [upd_ne _ _ h]

theorem range_map_succ (n k : Nat) : (List.range (k+1)).map (n + ·) = (List.range k).map (n + ·) ++ [n+k] := by
  rw [List.range_succ, List.map_append]; rfl

theorem cop_copyV {S N0 : CMesh D} (h : S.F.Sound) {s : St D} {nv ne nf nr : Nat} (hi : Cop S N0 s nv ne nf nr)
    {v : Nat} (hv : S.F.vl[nv]? = some v) : ∃ s', copyV S v s = .ok s' ∧ Cop S N0 s' (nv+1) ne nf nr := by
  have hmem : v ∈ S.F.vl := List.mem_of_getElem? hv
  have hp : s.N.F.T.mvNew.2 = N0.F.T.nv + nv := hi.cv
  have hd : S.F.T.derefV v = .ok () := by
    unfold Topo.derefV; rw [(h.vl.2 v).1 hmem]; rfl
  unfold copyV
  simp only [hd, Res.bind_ok, hp]
  refine ⟨_, rfl, ?_⟩
  exact
  { hi with
    cons := hi.cons.newVertex
    cv := by show s.N.F.T.nv + 1 = _; rw [hi.cv]; omega
    vl := by show s.N.F.vl ++ [_] = _; rw [hi.vl, range_map_succ, List.append_assoc]
    view := by
      show Topo.View.mk (upd s.N.F.T.sv s.N.F.T.nv .live) s.N.F.T.view.se s.N.F.T.view.sf s.N.F.T.view.sr
        s.N.F.T.view.ends s.N.F.T.view.edges s.N.F.T.view.faces = _
      rw [hi.cv, show s.N.F.T.sv = s.N.F.T.view.sv from rfl, hi.view]
      unfold grown
      simp only
      rw [ext_succ]
    xyz := tab_succ hv hi.xyz
    vc := tab_succ hv hi.vc
    vid := tab_succ hv hi.vid
    par0 := by
      dsimp only
      rw [upd2_same]; exact tab_succ hv hi.par0
    par1 := by dsimp only; rw [upd2_ne _ _ _ (by omega)]; exact hi.par1
    par2 := by dsimp only; rw [upd2_ne _ _ _ (by omega)]; exact hi.par2
    par3 := by dsimp only; rw [upd2_ne _ _ _ (by omega)]; exact hi.par3
    cp0 := by
      dsimp only
      rw [upd2_same]; exact hi.cp0.succ h.vl.1 hv
    cp1 := by dsimp only; rw [upd2_ne _ _ _ (by omega)]; exact hi.cp1
    cp2 := by dsimp only; rw [upd2_ne _ _ _ (by omega)]; exact hi.cp2
    cp3 := by dsimp only; rw [upd2_ne _ _ _ (by omega)]; exact hi.cp3 }

theorem copyOf_ok {s : St D} {k : Nat} {l : List Nat} {n x : Nat} (h : Known (s.cp k) l n l.length) (hx : x ∈ l) :
    copyOf s k (some x) = .ok (n + l.idxOf x) := by
  unfold copyOf
  simp only
  rw [h.of_mem hx]
  rfl

theorem cop_copyE {S N0 : CMesh D} (h : S.F.Sound) {s : St D} {ne nf nr : Nat}
    (hi : Cop S N0 s S.F.vl.length ne nf nr) {e : Nat} (he : S.F.el[ne]? = some e) :
    ∃ s', copyE S e s = .ok s' ∧ Cop S N0 s' S.F.vl.length (ne+1) nf nr := by
  have hg : S.F.el.getD ne 0 = e := by rw [List.getD_eq_getElem?_getD, he]; rfl
  have hmem : e ∈ S.F.el := List.mem_of_getElem? he
  obtain ⟨a, b, hab⟩ := h.ends e hmem
  obtain ⟨ha, hb⟩ := h.endsLive hmem hab
  have hp : s.N.F.T.meNew.2 = N0.F.T.ne + ne := hi.ce
  have hsv : ∀ x ∈ S.F.vl, s.N.F.T.sv (N0.F.T.nv + S.F.vl.idxOf x) = .live := by
    intro x hx
    rw [show s.N.F.T.sv = s.N.F.T.view.sv from rfl, hi.view]
    exact ext_at (g := fun _ => Stat.live) (List.idxOf_lt_length_of_mem hx)
  obtain ⟨T2, T3, s2, s3, c3, n1, n2, n3, n4, n5, n7, hv⟩ := newEdge_ends hi.cons (hsv a ha) (hsv b hb)
  rw [hi.ce] at s2 s3 n2 hv
  have hq := (Topo.C49_view h.cons).1
  have hl := (h.el.2 e).1 hmem
  have q0 : S.F.T.meVertex e false = .ok (some a) := by rw [hq e false hl, hab]; rfl
  have q1 : S.F.T.meVertex e true = .ok (some b) := by rw [hq e true hl, hab]; rfl
  unfold copyE
  simp only [hp, q0, q1, Res.bind_ok, copyOf_ok hi.cp0 ha, copyOf_ok hi.cp0 hb, s2, s3]
  refine ⟨_, rfl, ?_⟩
  exact
  { hi with
    cons := c3
    cv := n1.trans hi.cv
    ce := by show T3.ne = _; rw [n2]; omega
    cf := n3.trans hi.cf
    cr := n4.trans hi.cr
    fe := fun i hi' => by rw [show T3.fe = _ from n5]; exact hi.fe i hi'
    rf := fun i hi' => by rw [show T3.rf = _ from n7]; exact hi.rf i hi'
    feOld := fun i hi' => by rw [show T3.fe = _ from n5]; exact hi.feOld i hi'
    rfOld := fun i hi' => by rw [show T3.rf = _ from n7]; exact hi.rfOld i hi'
    el := by show s.N.F.el ++ [_] = _; rw [hi.el, range_map_succ, List.append_assoc]
    view := by
      have hei : endsC S.F N0.F ne = (some (N0.F.T.nv + S.F.vl.idxOf a), some (N0.F.T.nv + S.F.vl.idxOf b)) := by
        unfold endsC; rw [hg, hab]; rfl
      show T3.view = _
      rw [hv, hi.view]
      unfold grown
      rw [ext_succ, ext_succ, hei]
    ec := tab_succ he hi.ec
    eid := tab_succ he hi.eid
    par0 := by dsimp only; rw [upd2_ne _ _ _ (by omega)]; exact hi.par0
    par1 := by
      dsimp only
      rw [upd2_same]; exact tab_succ he hi.par1
    par2 := by dsimp only; rw [upd2_ne _ _ _ (by omega)]; exact hi.par2
    par3 := by dsimp only; rw [upd2_ne _ _ _ (by omega)]; exact hi.par3
    cp0 := by dsimp only; rw [upd2_ne _ _ _ (by omega)]; exact hi.cp0
    cp1 := by
      dsimp only
      rw [upd2_same]; exact hi.cp1.succ h.el.1 he
    cp2 := by dsimp only; rw [upd2_ne _ _ _ (by omega)]; exact hi.cp2
    cp3 := by dsimp only; rw [upd2_ne _ _ _ (by omega)]; exact hi.cp3 }

theorem copyRefs_ok {s : St D} {k : Nat} {dir : Nat → Res Bool} {cap : Nat} {l : List Nat} {n : Nat}
    (hk : Known (s.cp k) l n l.length) : ∀ (ps : List (Nat × Bool)) (j : Nat), j + ps.length ≤ cap →
    (∀ i p, ps[i]? = some p → dir (j+i) = .ok p.2) → (∀ p ∈ ps, p.1 ∈ l) →
    copyRefs s k dir cap j (ps.map (·.1)) = .ok (ps.map fun p => (n + l.idxOf p.1, p.2))
  | [], _, _, _, _ => rfl
  | p :: ps, j, hc, h1, h2 => by
    rw [List.length_cons] at hc
    rw [List.map_cons]
    unfold copyRefs
    rw [if_neg (by omega), copyOf_ok hk (h2 p (by simp)), Res.bind_ok, show dir j = Res.ok p.2 from h1 0 p rfl,
      Res.bind_ok, copyRefs_ok hk ps (j+1) (by omega)
      (fun i q hq => by rw [Nat.add_assoc, Nat.add_comm 1 i]; exact h1 (i+1) q hq)
      (fun q hq => h2 q (List.mem_cons_of_mem _ hq))]
    rfl

theorem cop_copyF {S N0 : CMesh D} (h : S.F.Sound) {s : St D} {nf nr : Nat}
    (hi : Cop S N0 s S.F.vl.length S.F.el.length nf nr) {f : Nat} (hf : S.F.fl[nf]? = some f)
    (h30 : (S.F.T.view.edges f).length ≤ 30) :
    ∃ s', copyF S f s = .ok s' ∧ Cop S N0 s' S.F.vl.length S.F.el.length (nf+1) nr := by
  have hg : S.F.fl.getD nf 0 = f := by rw [List.getD_eq_getElem?_getD, hf]; rfl
  have hmem : f ∈ S.F.fl := List.mem_of_getElem? hf
  have hl := (h.fl.2 f).1 hmem
  have hp : s.N.F.T.mfNew.2 = N0.F.T.nf + nf := hi.cf
  obtain ⟨⟨l, hfe⟩, h32⟩ := h.edges f hmem
  have hvw : S.F.T.view.edges f = Topo.pairs l (Topo.fbit (S.F.T.fd f)) := Topo.edgesOf_some hfe
  have q1 : S.F.T.mfEdges f true none = .ok ((S.F.T.view.edges f).map (·.1)) := by
    rw [hvw, Topo.pairs_map_fst]; exact Topo.mfEdges_plain (Topo.alloc_of_live hl) hfe
  have q2 : copyRefs s 1 (S.F.T.mfEdgeDir_i f) 30 0 ((S.F.T.view.edges f).map (·.1)) = .ok (edgesC S.F N0.F nf) := by
    unfold edgesC
    rw [hg]
    refine copyRefs_ok hi.cp1 _ 0 (by omega) ?_ fun p hp => h.edgesLive hmem hp
    intro i p hp
    have hi : i < (S.F.T.view.edges f).length := (List.getElem?_eq_some_iff.1 hp).1
    rw [Nat.zero_add]
    exact ((Topo.C49_view h.cons).2.1 f hl (by intro h0; rw [h0] at hi; exact absurd hi (by simp))).2 i p
      (by omega) hp
  have hei : edgesC S.F N0.F nf = (S.F.T.view.edges f).map fun p => (N0.F.T.ne + S.F.el.idxOf p.1, p.2) := by
    unfold edgesC; rw [hg]
  obtain ⟨T2, s2, c2, n1, n2, n3, n4, n5, n6, n7, hv⟩ := newFace_edges hi.cons (es := edgesC S.F N0.F nf)
    (by rw [hei, List.length_map]; exact h32) (by
      intro p hp
      rw [hei] at hp
      obtain ⟨q, hq, rfl⟩ := List.mem_map.1 hp
      rw [show s.N.F.T.se = s.N.F.T.view.se from rfl, hi.view]
      exact ext_at (g := fun _ => Stat.live) (List.idxOf_lt_length_of_mem (h.edgesLive hmem hq)))
  rw [hi.cf] at s2 n3 n5 n6 hv
  unfold copyF
  simp only [hp, q1, q2, Res.bind_ok, s2]
  refine ⟨_, rfl, ?_⟩
  exact
  { hi with
    cons := c2
    cv := n1.trans hi.cv
    ce := n2.trans hi.ce
    cf := by show T2.nf = _; rw [n3]; omega
    cr := n4.trans hi.cr
    fe := fun i hi' => by
      by_cases e : i = nf
      · rw [e]; exact n5
      · rw [show T2.fe (N0.F.T.nf + i) = _ from n6 _ (by omega)]; exact hi.fe i (by omega)
    rf := fun i hi' => by rw [show T2.rf = _ from n7]; exact hi.rf i hi'
    feOld := fun i hi' => by rw [show T2.fe i = _ from n6 i (by omega)]; exact hi.feOld i hi'
    rfOld := fun i hi' => by rw [show T2.rf = _ from n7]; exact hi.rfOld i hi'
    fl := by show s.N.F.fl ++ [_] = _; rw [hi.fl, range_map_succ, List.append_assoc]
    view := by
      show T2.view = _
      rw [hv, hi.view]
      unfold grown
      rw [ext_succ, ext_succ]
    fc := tab_succ hf hi.fc
    fid := tab_succ hf hi.fid
    par0 := by dsimp only; rw [upd2_ne _ _ _ (by omega)]; exact hi.par0
    par1 := by dsimp only; rw [upd2_ne _ _ _ (by omega)]; exact hi.par1
    par2 := by
      dsimp only
      rw [upd2_same]; exact tab_succ hf hi.par2
    par3 := by dsimp only; rw [upd2_ne _ _ _ (by omega)]; exact hi.par3
    cp0 := by dsimp only; rw [upd2_ne _ _ _ (by omega)]; exact hi.cp0
    cp1 := by dsimp only; rw [upd2_ne _ _ _ (by omega)]; exact hi.cp1
    cp2 := by
      dsimp only
      rw [upd2_same]; exact hi.cp2.succ h.fl.1 hf
    cp3 := by dsimp only; rw [upd2_ne _ _ _ (by omega)]; exact hi.cp3 }

theorem nodup_shift {n : Nat} {l : List Nat} (h : l.Nodup) : (l.map (n + ·)).Nodup :=
  h.map fun _ _ hab => by simpa using hab

theorem cop_copyR {S N0 : CMesh D} (h : S.F.Sound) (h0 : N0.F.Sound) {s : St D} {nr : Nat}
    (hi : Cop S N0 s S.F.vl.length S.F.el.length S.F.fl.length nr) {r : Nat} (hr : S.F.rl[nr]? = some r)
    (h512 : (S.F.T.view.faces r).length ≤ 512) :
    ∃ s', copyR S r s = .ok s' ∧ Cop S N0 s' S.F.vl.length S.F.el.length S.F.fl.length (nr+1) := by
  have hg : S.F.rl.getD nr 0 = r := by rw [List.getD_eq_getElem?_getD, hr]; rfl
  have hmem : r ∈ S.F.rl := List.mem_of_getElem? hr
  have hl := (h.rl.2 r).1 hmem
  have hp : s.N.F.T.mrNew.2 = N0.F.T.nr + nr := hi.cr
  obtain ⟨l, hrf⟩ := h.faces r hmem
  have hvw : S.F.T.view.faces r = Topo.pairs l (Topo.rbit (S.F.T.rd r)) := Topo.facesOf_some hrf
  have q1 : S.F.T.mrFaces r = .ok ((S.F.T.view.faces r).map (·.1)) := by
    rw [hvw, Topo.pairs_map_fst]; exact Topo.rfaces_ok (Topo.alloc_of_live hl) hrf
  have q2 : copyRefs s 2 (S.F.T.mrFaceDir_i r) 512 0 ((S.F.T.view.faces r).map (·.1)) = .ok (facesC S.F N0.F nr) := by
    unfold facesC
    rw [hg]
    refine copyRefs_ok hi.cp2 _ 0 (by omega) ?_ fun p hp => h.facesLive hmem hp
    intro i p hp
    have hi : i < (S.F.T.view.faces r).length := (List.getElem?_eq_some_iff.1 hp).1
    rw [Nat.zero_add]
    exact ((Topo.C49_view h.cons).2.2 r hl (by intro h0; rw [h0] at hi; exact absurd hi (by simp))).2 i p hp
  have hei : facesC S.F N0.F nr = (S.F.T.view.faces r).map fun p => (N0.F.T.nf + S.F.fl.idxOf p.1, p.2) := by
    unfold facesC; rw [hg]
  have hmap : (facesC S.F N0.F nr).map (·.1) = (((S.F.T.view.faces r).map (·.1)).map S.F.fl.idxOf).map (N0.F.T.nf + ·) := by
    rw [hei, List.map_map, List.map_map, List.map_map]; rfl
  have hin : ∀ f ∈ (S.F.T.view.faces r).map (·.1), f ∈ S.F.fl := by
    intro f hf
    obtain ⟨p, hp, rfl⟩ := List.mem_map.1 hf
    exact h.facesLive hmem hp
  obtain ⟨T2, s2, c2, n1, n2, n3, n4, n5, n6, n7, hv⟩ := newRegion_faces hi.cons (fs := facesC S.F N0.F nr)
    (by rw [hmap]; exact nodup_shift (nodup_positions (facesOf_length h hmem).1 hin))
    (by
      intro p hp
      rw [hei] at hp
      obtain ⟨⟨f, d⟩, hq, rfl⟩ := List.mem_map.1 hp
      have hf := h.facesLive hmem hq
      have hidx := List.idxOf_lt_length_of_mem hf
      have hlive : s.N.F.T.sf (N0.F.T.nf + S.F.fl.idxOf f) = .live := by
        rw [show s.N.F.T.sf = s.N.F.T.view.sf from rfl, hi.view]
        exact ext_at (g := fun _ => Stat.live) hidx
      refine ⟨hlive, ?_⟩
      cases hend : Topo.endAt (s.N.F.T.fr (N0.F.T.nf + S.F.fl.idxOf f)) (!d) with
      | none => rfl
      | some z =>
        exfalso
        obtain ⟨hs, hms⟩ := (hi.cons.fr.mem _ (Topo.alloc_of_live hlive) z d).1 hend
        rw [show s.N.F.T.sr = s.N.F.T.view.sr from rfl, hi.view] at hs
        rw [show Topo.facesOf s.N.F.T.rf s.N.F.T.rd = s.N.F.T.view.faces from rfl, hi.view] at hms
        by_cases hz : N0.F.T.nr ≤ z ∧ z < N0.F.T.nr + nr
        · obtain ⟨k, rfl⟩ : ∃ k, z = N0.F.T.nr + k := ⟨z - N0.F.T.nr, by omega⟩
          have hk : k < nr := by omega
          rw [show (grown S.F N0.F S.F.vl.length S.F.el.length S.F.fl.length nr).faces (N0.F.T.nr + k) = _ from
            ext_at hk] at hms
          obtain ⟨⟨f', d'⟩, hq', he⟩ := List.mem_map.1 (show _ ∈ (S.F.T.view.faces (S.F.rl.getD k 0)).map _ from hms)
          simp only [Prod.mk.injEq] at he
          obtain ⟨he1, rfl⟩ := he
          have he1 : S.F.fl.idxOf f' = S.F.fl.idxOf f := by omega
          have hnr : nr < S.F.rl.length := (List.getElem?_eq_some_iff.1 hr).1
          have hsl : k < S.F.rl.length := by omega
          have hsg : S.F.rl.getD k 0 = S.F.rl[k] := by
            rw [List.getD_eq_getElem?_getD, List.getElem?_eq_getElem hsl]; rfl
          have hsm : S.F.rl[k] ∈ S.F.rl := List.getElem_mem _
          rw [hsg] at hq'
          have hf' := h.facesLive hsm hq'
          have : f' = f := idxOf_inj hf' he1
          subst this
          have a1 := (h.cons.fr.mem f' (Topo.alloc_of_live ((h.fl.2 _).1 hf)) r d').2 ⟨hl, hq⟩
          have a2 := (h.cons.fr.mem f' (Topo.alloc_of_live ((h.fl.2 _).1 hf)) _ d').2 ⟨(h.rl.2 _).1 hsm, hq'⟩
          have heq : r = S.F.rl[k] := Option.some.inj (a1.symm.trans a2)
          have : nr = k := (List.getElem?_inj hnr h.rl.1).1 (by rw [hr, heq, List.getElem?_eq_getElem hsl])
          omega
        · have e1 : (grown S.F N0.F S.F.vl.length S.F.el.length S.F.fl.length nr).sr z = N0.F.T.sr z := if_neg hz
          have e2 : (grown S.F N0.F S.F.vl.length S.F.el.length S.F.fl.length nr).faces z = N0.F.T.view.faces z := if_neg hz
          rw [e1] at hs
          rw [e2] at hms
          have hlive0 := h0.cons.fr.down z _ _ hs hms
          have := h0.cons.newF (N0.F.T.nf + S.F.fl.idxOf f) (by omega)
          rw [hlive0] at this
          cases this)
    (by
      intro g hgm
      rw [hmap] at hgm
      obtain ⟨x, hx, rfl⟩ := List.mem_map.1 hgm
      obtain ⟨f, hf, rfl⟩ := List.mem_map.1 hx
      exact hi.fe _ (List.idxOf_lt_length_of_mem (hin f hf)))
  rw [hi.cr] at s2 n4 n6 n7 hv
  unfold copyR
  simp only [hp, q1, q2, Res.bind_ok, s2]
  refine ⟨_, rfl, ?_⟩
  exact
  { hi with
    cons := c2
    cv := n1.trans hi.cv
    ce := n2.trans hi.ce
    cf := n3.trans hi.cf
    cr := by show T2.nr = _; rw [n4]; omega
    fe := fun i hi' => by rw [show T2.fe = _ from n5]; exact hi.fe i hi'
    rf := fun i hi' => by
      by_cases e : i = nr
      · rw [e]; exact n6
      · rw [show T2.rf (N0.F.T.nr + i) = _ from n7 _ (by omega)]; exact hi.rf i (by omega)
    feOld := fun i hi' => by rw [show T2.fe = _ from n5]; exact hi.feOld i hi'
    rfOld := fun i hi' => by rw [show T2.rf i = _ from n7 i (by omega)]; exact hi.rfOld i hi'
    rl := by show s.N.F.rl ++ [_] = _; rw [hi.rl, range_map_succ, List.append_assoc]
    view := by
      show T2.view = _
      rw [hv, hi.view]
      unfold grown
      rw [ext_succ, ext_succ]
    rc := tab_succ hr hi.rc
    rid := tab_succ hr hi.rid
    par0 := by dsimp only; rw [upd2_ne _ _ _ (by omega)]; exact hi.par0
    par1 := by dsimp only; rw [upd2_ne _ _ _ (by omega)]; exact hi.par1
    par2 := by dsimp only; rw [upd2_ne _ _ _ (by omega)]; exact hi.par2
    par3 := by
      dsimp only
      rw [upd2_same]; exact tab_succ (src := fun r => noFlag (S.par 3 r)) hr hi.par3
    cp0 := by dsimp only; rw [upd2_ne _ _ _ (by omega)]; exact hi.cp0
    cp1 := by dsimp only; rw [upd2_ne _ _ _ (by omega)]; exact hi.cp1
    cp2 := by dsimp only; rw [upd2_ne _ _ _ (by omega)]; exact hi.cp2
    cp3 := by
      dsimp only
      rw [upd2_same]; exact hi.cp3.succ h.rl.1 hr }

/-- a loop over a list whose steps keep an invariant that counts them -/
theorem loop_ok {σ : Type} {step : Nat → σ → Res σ} {l : List Nat} {P : σ → Nat → Prop}
    (hstep : ∀ k x s, l[k]? = some x → P s k → ∃ s', step x s = .ok s' ∧ P s' (k+1)) :
    ∀ (xs : List Nat) (k : Nat) (s : σ), l.drop k = xs → P s k → ∃ s', loop step xs s = .ok s' ∧ P s' (k + xs.length)
  | [], _, s, _, h => ⟨s, rfl, h⟩
  | x :: xs, k, s, hd, h => by
    have hv : l[k]? = some x := by rw [← List.head?_drop, hd]; rfl
    have hx : l.drop (k+1) = xs := by rw [← List.tail_drop, hd]; rfl
    obtain ⟨s1, h1, p1⟩ := hstep k x s hv h
    obtain ⟨s2, h2, p2⟩ := loop_ok hstep xs (k+1) s1 hx p1
    refine ⟨s2, ?_, ?_⟩
    · unfold loop; rw [h1, Res.bind_ok, h2]
    · rw [show k + (x :: xs).length = k + 1 + xs.length by simp; omega]; exact p2

/-- all entities -/
theorem loops_ok {S N0 : CMesh D} (h : S.F.Sound) (h0 : N0.F.Sound)
    (h30 : ∀ f ∈ S.F.fl, (S.F.T.view.edges f).length ≤ 30)
    (h512 : ∀ r ∈ S.F.rl, (S.F.T.view.faces r).length ≤ 512) :
    ∃ s1 s2 s3 s4, loop (copyV S) S.F.vl ⟨N0, fun _ _ => none⟩ = .ok s1 ∧ loop (copyE S) S.F.el s1 = .ok s2 ∧
      loop (copyF S) S.F.fl s2 = .ok s3 ∧ loop (copyR S) S.F.rl s3 = .ok s4 ∧
      Cop S N0 s4 S.F.vl.length S.F.el.length S.F.fl.length S.F.rl.length := by
  obtain ⟨s1, h1, i1⟩ := loop_ok (l := S.F.vl) (P := fun s k => Cop S N0 s k 0 0 0)
    (fun k x s hx hs => cop_copyV h hs hx) S.F.vl 0 _ rfl (cop_start h0.cons)
  rw [Nat.zero_add] at i1
  obtain ⟨s2, h2, i2⟩ := loop_ok (l := S.F.el) (P := fun s k => Cop S N0 s S.F.vl.length k 0 0)
    (fun k x s hx hs => cop_copyE h hs hx) S.F.el 0 _ rfl i1
  rw [Nat.zero_add] at i2
  obtain ⟨s3, h3, i3⟩ := loop_ok (l := S.F.fl) (P := fun s k => Cop S N0 s S.F.vl.length S.F.el.length k 0)
    (fun k x s hx hs => cop_copyF h hs hx (h30 x (List.mem_of_getElem? hx))) S.F.fl 0 _ rfl i2
  rw [Nat.zero_add] at i3
  obtain ⟨s4, h4, i4⟩ := loop_ok (l := S.F.rl) (P := fun s k => Cop S N0 s S.F.vl.length S.F.el.length S.F.fl.length k)
    (fun k x s hx hs => cop_copyR h h0 hs hx (h512 x (List.mem_of_getElem? hx))) S.F.rl 0 _ rfl i3
  rw [Nat.zero_add] at i4
  exact ⟨s1, s2, s3, s4, h1, h2, h3, h4, i4⟩

/-! ### attributes -/

/-- the value is of the kind the attribute says -/
def Holds (a : Attr D) : AVal D → Prop
  | .int _ => a.ty = .int
  | .dbl _ => a.ty = .dbl
  | .arr xs => (a.ty = .vec ∨ a.ty = .tns) ∧ xs.length = a.ncomp.toNat

/-- what becomes of a value -/
def keep (nz : D → Bool) : AVal D → Option (AVal D)
  | .int i => if i ≠ 0 then some (.int i) else none
  | .dbl x => if nz x then some (.dbl x) else none
  | .arr xs => some (.arr xs)

/-- what becomes of the value of an attribute -/
def keepIn (nz : D → Bool) (a : Attr D) (o : Option (AVal D)) : Option (AVal D) :=
  if a.ty = .ptr then none else o.bind (keep nz)

theorem copyVal_ok {nz : D → Bool} {a : Attr D} {o : Option (AVal D)} (h : a.ty ≠ .ptr → ∀ v, o = some v → Holds a v) :
    copyVal nz a o = .ok (keepIn nz a o) := by
  unfold keepIn
  cases o with
  | none => unfold copyVal; simp
  | some v =>
    by_cases hp : a.ty = .ptr
    · rw [if_pos hp]; unfold copyVal; rw [hp]
    · rw [if_neg hp]
      have hv := h hp v rfl
      unfold copyVal
      cases v with
      | int i => rw [show a.ty = .int from hv]; rfl
      | dbl x => rw [show a.ty = .dbl from hv]; rfl
      | arr xs =>
        obtain ⟨h1, h2⟩ := hv
        rcases h1 with h1 | h1 <;> rw [h1] <;> simp only <;>
          rw [if_pos (Nat.le_of_eq h2.symm), ← h2, List.take_length] <;> rfl

theorem copyVals_ok {nz : D → Bool} {s : St D} {a : Attr D} {k n : Nat} {l : List Nat}
    (hk : Known (s.cp k) l n l.length) (ha : a.ty ≠ .ptr → ∀ x ∈ l, ∀ v, a.val k x = some v → Holds a v) :
    ∀ (xs : List Nat) (A : Attr D), xs.Nodup → (∀ x ∈ xs, x ∈ l) → 
    ∃ B, copyVals nz s a k xs A = .ok B ∧ SameHead B A ∧
      (∀ x ∈ xs, A.val k (n + l.idxOf x) = none → B.val k (n + l.idxOf x) = keepIn nz a (a.val k x)) ∧
      (∀ k' j, ¬ (k' = k ∧ ∃ x ∈ xs, n + l.idxOf x = j) → B.val k' j = A.val k' j)
  | [], A, _, _ => ⟨A, rfl, ⟨rfl, rfl, rfl, rfl⟩, by simp, fun _ _ _ => rfl⟩
  | x :: xs, A, hn, hm => by
    obtain ⟨hx, hn⟩ := List.nodup_cons.1 hn
    have hxm := hm x (by simp)
    have hm' : ∀ y ∈ xs, y ∈ l := fun y hy => hm y (List.mem_cons_of_mem _ hy)
    have hne : ∀ y ∈ xs, n + l.idxOf y ≠ n + l.idxOf x := by
      intro y hy he
      rw [idxOf_inj (hm' y hy) (by omega : l.idxOf y = l.idxOf x)] at hy
      exact hx hy
    rw [show copyVals nz s a k (x :: xs) A = (do
      let w ← copyVal nz a (a.val k x)
      match w with
      | none => copyVals nz s a k xs A
      | some w => do
        let y ← copyOf s k (some x)
        copyVals nz s a k xs (A.put k y w)) from rfl, copyVal_ok fun hp v hv => ha hp x hxm v hv, Res.bind_ok]
    cases hv : keepIn nz a (a.val k x) with
    | none =>
      obtain ⟨B, h1, h2, h3, h4⟩ := copyVals_ok (nz := nz) hk ha xs A hn hm'
      refine ⟨B, h1, h2, ?_, ?_⟩
      · intro y hy hy0
        rcases List.mem_cons.1 hy with rfl | hy
        · rw [h4 k _ fun ⟨_, z, hz, he⟩ => hne z hz he, hy0, hv]
        · exact h3 y hy hy0
      · intro k' j hno
        exact h4 k' j fun ⟨e, y, hy, hh⟩ => hno ⟨e, y, List.mem_cons_of_mem _ hy, hh⟩
    | some w =>
      obtain ⟨B, h1, h2, h3, h4⟩ := copyVals_ok (nz := nz) hk ha xs (A.put k (n + l.idxOf x) w) hn hm'
      refine ⟨B, ?_, h2, ?_, ?_⟩
      · simp only
        rw [copyOf_ok hk hxm, Res.bind_ok]
        exact h1
      · intro y hy hy0
        rcases List.mem_cons.1 hy with rfl | hy
        · rw [h4 k _ fun ⟨_, z, hz, he⟩ => hne z hz he, hv]
          unfold Attr.put
          simp
        · refine h3 y hy ?_
          unfold Attr.put
          simp only
          rw [if_neg fun hh => hne y hy hh.2]
          exact hy0
      · intro k' j hno
        rw [h4 k' j fun ⟨e, y, hy, hh⟩ => hno ⟨e, y, List.mem_cons_of_mem _ hy, hh⟩]
        unfold Attr.put
        simp only
        rw [if_neg]
        rintro ⟨rfl, rfl⟩
        exact hno ⟨rfl, x, by simp, rfl⟩

/-- the first handle the destination gives to a copy of kind `k` -/
def off (N0 : CMesh D) : Nat → Nat
  | 0 => N0.F.T.nv
  | 1 => N0.F.T.ne
  | 2 => N0.F.T.nf
  | _ => N0.F.T.nr

theorem Cop.known {S N0 : CMesh D} {s : St D}
    (hi : Cop S N0 s S.F.vl.length S.F.el.length S.F.fl.length S.F.rl.length) {k : Nat} (hk : k < 4) :
    Known (s.cp k) (S.F.list k) (off N0 k) (S.F.list k).length := by
  match k, hk with
  | 0, _ => exact hi.cp0
  | 1, _ => exact hi.cp1
  | 2, _ => exact hi.cp2
  | 3, _ => exact hi.cp3

theorem copyKinds_ok {nz : D → Bool} {S N0 : CMesh D} (h : S.F.Sound) {s : St D}
    (hi : Cop S N0 s S.F.vl.length S.F.el.length S.F.fl.length S.F.rl.length) {a : Attr D} 
    (ha : a.ty ≠ .ptr → ∀ k x v, a.val k x = some v → Holds a v) :
    ∀ (ks : List Nat) (A : Attr D), (∀ k ∈ ks, k < 4) → ks.Nodup →
    ∃ B, copyKinds nz S s a (ks.map fun k => (k, S.F.list k)) A = .ok B ∧ SameHead B A ∧
      (∀ k ∈ ks, k = a.ent ∨ a.ent = 5 → ∀ x ∈ S.F.list k, (∀ j, A.val k j = none) →
        B.val k (off N0 k + (S.F.list k).idxOf x) = keepIn nz a (a.val k x)) ∧
      (∀ k j, ¬ (k ∈ ks ∧ (k = a.ent ∨ a.ent = 5) ∧ ∃ x ∈ S.F.list k, off N0 k + (S.F.list k).idxOf x = j) →
        B.val k j = A.val k j)
  | [], A, _, _ => ⟨A, rfl, ⟨rfl, rfl, rfl, rfl⟩, by simp, fun _ _ _ => rfl⟩
  | k :: ks, A, h4, hn => by
    obtain ⟨hk, hn⟩ := List.nodup_cons.1 hn
    have hk4 := h4 k (by simp)
    obtain ⟨B, b0, b2, b3, b4⟩ : ∃ B, (if a.ent = k ∨ a.ent = 5 then copyVals nz s a k (S.F.list k) A else pure A) = .ok B ∧
        SameHead B A ∧ (k = a.ent ∨ a.ent = 5 → ∀ x ∈ S.F.list k, (∀ j, A.val k j = none) →
          B.val k (off N0 k + (S.F.list k).idxOf x) = keepIn nz a (a.val k x)) ∧
        (∀ k' j, ¬ (k' = k ∧ (k = a.ent ∨ a.ent = 5) ∧ ∃ x ∈ S.F.list k, off N0 k + (S.F.list k).idxOf x = j) →
          B.val k' j = A.val k' j) := by
      by_cases hc : a.ent = k ∨ a.ent = 5
      · obtain ⟨B, b1, b2, b3, b4⟩ := copyVals_ok (nz := nz) (hi.known hk4) (a := a) (fun hp x _ v hv => ha hp k x v hv)
          (S.F.list k) A (h.nodup k) (fun x hx => hx)
        have hc' : k = a.ent ∨ a.ent = 5 := hc.imp Eq.symm id
        exact ⟨B, by rw [if_pos hc]; exact b1, b2, fun _ x hx h0 => b3 x hx (h0 _),
          fun k' j hno => b4 k' j fun ⟨e, hh⟩ => hno ⟨e, hc', hh⟩⟩
      · have hc' : ¬ (k = a.ent ∨ a.ent = 5) := fun hh => hc (hh.imp Eq.symm id)
        exact ⟨A, by rw [if_neg hc]; rfl, ⟨rfl, rfl, rfl, rfl⟩, fun hh => absurd hh hc', fun _ _ _ => rfl⟩
    obtain ⟨C, c1, c2, c3, c4⟩ := copyKinds_ok (nz := nz) h hi ha ks B (fun k' hk' => h4 k' (List.mem_cons_of_mem _ hk')) hn
    refine ⟨C, ?_, ?_, ?_, ?_⟩
    · rw [List.map_cons]
      unfold copyKinds
      by_cases hc : a.ent = k ∨ a.ent = 5
      · rw [if_pos hc] at b0
        simp only [if_pos hc, b0, Res.bind_ok, c1]
      · rw [if_neg hc, Res.pure_eq] at b0
        cases b0
        simp only [if_neg hc, Res.pure_eq, Res.bind_ok, c1]
    · obtain ⟨x1, x2, x3, x4⟩ := c2
      obtain ⟨y1, y2, y3, y4⟩ := b2
      exact ⟨x1.trans y1, x2.trans y2, x3.trans y3, x4.trans y4⟩
    · intro k' hk' hc x hx h0
      rcases List.mem_cons.1 hk' with rfl | hk'
      · rw [c4 k' _ fun hh => hk hh.1]
        exact b3 hc x hx h0
      · refine c3 k' hk' hc x hx fun j => ?_
        rw [b4 k' j fun hh => hk (hh.1 ▸ hk')]
        exact h0 j
    · intro k' j hno
      rw [c4 k' j fun ⟨e, hh⟩ => hno ⟨List.mem_cons_of_mem _ e, hh⟩,
        b4 k' j fun ⟨e, hh⟩ => hno ⟨by rw [e]; simp, by rw [e]; exact hh⟩]

/-- `B` holds for the copies what `a` holds -/
structure CarriedTo (nz : D → Bool) (S N0 : CMesh D) (a B : Attr D) : Prop where
  head : B.name = a.name ∧ B.ty = a.ty ∧ B.ncomp = compsOf a.ty a.ncomp ∧ B.ent = a.ent
  vals : ∀ k ∈ a.kinds, ∀ i x, (S.F.list k)[i]? = some x → B.val k (off N0 k + i) = keepIn nz a (a.val k x)
  none : ∀ k j, k ∉ a.kinds ∨ j < off N0 k ∨ off N0 k + (S.F.list k).length ≤ j → B.val k j = none

theorem idxOf_at {l : List Nat} (hn : l.Nodup) {i x : Nat} (hx : l[i]? = some x) : l.idxOf x = i := by
  have hi := (List.getElem?_eq_some_iff.1 hx).1
  have hi2 := List.idxOf_lt_length_of_mem (List.mem_of_getElem? hx)
  exact (List.getElem?_inj hi2 hn).1 (by rw [hx, List.getElem?_eq_getElem hi2, List.getElem_idxOf])

theorem mem_kinds {a : Attr D} {k : Nat} (h4 : k < 4) (h : k = a.ent ∨ a.ent = 5) : k ∈ a.kinds := by
  unfold Attr.kinds
  split
  · simp; omega
  · next h5 =>
    rcases h with h | h
    · rw [if_pos (by omega)]; simp [h]
    · exact absurd h h5

theorem copyAtts_ok {nz : D → Bool} {S N0 : CMesh D} (h : S.F.Sound) {s : St D}
    (hi : Cop S N0 s S.F.vl.length S.F.el.length S.F.fl.length S.F.rl.length) :
    ∀ (as : List (Attr D)), (∀ a ∈ as, a.name.length < 256 ∧ 
      (a.ty ≠ .ptr → ∀ k x v, a.val k x = some v → Holds a v)) →
    ∃ Bs, copyAtts nz S s as = .ok Bs ∧ List.Forall₂ (CarriedTo nz S N0) (as.filter fun a => a.name ≠ copyName) Bs
  | [], _ => ⟨[], rfl, .nil⟩
  | a :: as, ha => by
    obtain ⟨hl, hv⟩ := ha a (by simp)
    obtain ⟨Bs, c1, c2⟩ := copyAtts_ok (nz := nz) h hi as fun b hb => ha b (List.mem_cons_of_mem _ hb)
    unfold copyAtts
    rw [if_neg (by omega)]
    by_cases hc : a.name = copyName
    · rw [if_pos hc, List.filter_cons, if_neg (by simp [hc])]
      exact ⟨Bs, c1, c2⟩
    · rw [if_neg hc, List.filter_cons, if_pos (by simp [hc])]
      obtain ⟨B, b1, b2, b3, b4⟩ := copyKinds_ok (nz := nz) h hi hv [0, 1, 2, 3]
        ⟨a.name, a.ty, compsOf a.ty a.ncomp, a.ent, fun _ _ => none⟩ (by decide) (by decide)
      refine ⟨B :: Bs, ?_, .cons ?_ c2⟩
      · rw [show copyKinds nz S s a [(0, S.F.vl), (1, S.F.el), (2, S.F.fl), (3, S.F.rl)]
          ⟨a.name, a.ty, compsOf a.ty a.ncomp, a.ent, fun _ _ => none⟩ = .ok B from b1, Res.bind_ok, c1]
        rfl
      · refine ⟨b2, ?_, ?_⟩
        · intro k hk i x hx
          obtain ⟨h4, hke⟩ := kinds_spec hk
          rw [← b3 k (by simp; omega) hke x (List.mem_of_getElem? hx) fun _ => rfl, idxOf_at (h.nodup k) hx]
        · intro k j hno
          refine b4 k j ?_
          rintro ⟨h4, hke, x, hx, he⟩
          have := List.idxOf_lt_length_of_mem hx
          rcases hno with hno | hno
          · exact hno (mem_kinds (by simp at h4; omega) hke)
          · omega

/-! ### sets -/

theorem copyEnts_ok {S N0 : CMesh D} (h : S.F.Sound) {s : St D}
    (hi : Cop S N0 s S.F.vl.length S.F.el.length S.F.fl.length S.F.rl.length) :
    ∀ (es : List (Nat × Nat)), (∀ p ∈ es, p.1 < 4 ∧ p.2 ∈ S.F.list p.1) →
    copyEnts S s es = .ok (es.map fun p => some (p.1, off N0 p.1 + (S.F.list p.1).idxOf p.2))
  | [], _ => rfl
  | (k, x) :: es, he => by
    obtain ⟨hk, hx⟩ : k < 4 ∧ x ∈ S.F.list k := he (k, x) (by simp)
    have hr := copyEnts_ok h hi es fun p hp => he p (List.mem_cons_of_mem _ hp)
    have hc := (hi.known hk).of_mem hx
    rw [List.map_cons]
    unfold copyEnts
    match k, hk, hx, hc with
    | 0, _, hx, hc =>
      simp only [Topo.derefV_ok (Topo.alloc_of_live ((h.vl.2 x).1 hx)), Res.bind_ok, hr, hc]; rfl
    | 1, _, hx, hc =>
      simp only [Topo.derefE_ok (Topo.alloc_of_live ((h.el.2 x).1 hx)), Res.bind_ok, hr, hc]; rfl
    | 2, _, hx, hc =>
      simp only [Topo.derefF_ok (Topo.alloc_of_live ((h.fl.2 x).1 hx)), Res.bind_ok, hr, hc]; rfl
    | 3, _, hx, hc =>
      simp only [Topo.derefR_ok (Topo.alloc_of_live ((h.rl.2 x).1 hx)), Res.bind_ok, hr, hc]; rfl

/-- the set of the copies of the entries -/
def setC (S N0 : CMesh D) (m : SetD) : SetD :=
  ⟨m.name, m.dim, (m.ents.filterMap id).map fun p => some (p.1, off N0 p.1 + (S.F.list p.1).idxOf p.2)⟩

theorem copySets_ok {S N0 : CMesh D} (h : S.F.Sound) {s : St D}
    (hi : Cop S N0 s S.F.vl.length S.F.el.length S.F.fl.length S.F.rl.length) :
    ∀ (ms : List SetD), (∀ m ∈ ms, m.name.length < 256 ∧ ∀ p, some p ∈ m.ents → p.1 < 4 ∧ p.2 ∈ S.F.list p.1) →
    copySets S s ms = .ok (ms.map (setC S N0))
  | [], _ => rfl
  | m :: ms, hm => by
    obtain ⟨hl, he⟩ := hm m (by simp)
    unfold copySets
    rw [if_neg (by omega), copyEnts_ok h hi _ fun p hp => he p (by
      obtain ⟨o, ho, e⟩ := List.mem_filterMap.1 hp
      rw [show o = some p from e] at ho; exact ho), Res.bind_ok,
      copySets_ok h hi ms fun m' hm' => hm m' (List.mem_cons_of_mem _ hm')]
    rfl

end Copy
end MSTK
