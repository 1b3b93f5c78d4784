import Verif.ConcatSpec
import Verif.PartRun
import Verif.PartOwn

/-!
Adding ghosts to a mesh (ConcatModel.lean): the mesh stays a mesh, and what was there stays.
-/
namespace MSTK
namespace Cat
open File Copy Prt

variable {D : Type}

/-- what was there is there, as it was, the classification of vertices and edges aside and, in volume meshes, that of
faces; new entities come after -/
structure Grows (K : Nat) (M M' : CMesh D) : Prop where
  list : ∀ k, ∃ new, M'.F.list k = M.F.list k ++ new
  par : ∀ k x, x ∈ M.F.list k → M'.par k x = M.par k x
  xyz : ∀ v ∈ M.F.vl, M'.F.xyz v = M.F.xyz v
  ends : ∀ e ∈ M.F.el, M'.F.T.view.ends e = M.F.T.view.ends e
  edges : ∀ f ∈ M.F.fl, M'.F.T.view.edges f = M.F.T.view.edges f
  faces : ∀ r ∈ M.F.rl, M'.F.T.view.faces r = M.F.T.view.faces r
  fc : K = 2 → ∀ f ∈ M.F.fl, M'.F.fc f = M.F.fc f
  rc : ∀ r ∈ M.F.rl, M'.F.rc r = M.F.rc r

variable {K : Nat}

theorem Grows.kept {M M' : CMesh D} (h : Grows K M M') : Kept M M' := ⟨h.list, h.par, h.xyz, h.ends, h.edges, h.faces, h.rc⟩

theorem Grows.refl (M : CMesh D) : Grows K M M :=
  ⟨fun _ => ⟨[], (List.append_nil _).symm⟩, fun _ _ _ => rfl, fun _ _ => rfl, fun _ _ => rfl, fun _ _ => rfl, fun _ _ => rfl,
    fun _ _ _ => rfl, fun _ _ => rfl⟩

theorem Grows.mem {M M' : CMesh D} (h : Grows K M M') {k x : Nat} (hx : x ∈ M.F.list k) : x ∈ M'.F.list k := by
  obtain ⟨new, hn⟩ := h.list k
  rw [hn]; exact List.mem_append_left _ hx

theorem Grows.trans {M M' M'' : CMesh D} (h : Grows K M M') (h' : Grows K M' M'') : Grows K M M'' where
  list := fun k => by
    obtain ⟨a, ha⟩ := h.list k
    obtain ⟨b, hb⟩ := h'.list k
    exact ⟨a ++ b, by rw [hb, ha, List.append_assoc]⟩
  par := fun k x hx => (h'.par k x (h.mem hx)).trans (h.par k x hx)
  xyz := fun v hv => (h'.xyz v (h.mem (k := 0) hv)).trans (h.xyz v hv)
  ends := fun v hv => (h'.ends v (h.mem (k := 1) hv)).trans (h.ends v hv)
  edges := fun v hv => (h'.edges v (h.mem (k := 2) hv)).trans (h.edges v hv)
  faces := fun v hv => (h'.faces v (h.mem (k := 3) hv)).trans (h.faces v hv)
  fc := fun hk v hv => (h'.fc hk v (h.mem (k := 2) hv)).trans (h.fc hk v hv)
  rc := fun v hv => (h'.rc v (h.mem (k := 3) hv)).trans (h.rc v hv)

theorem Grows.gid {M M' : CMesh D} (h : Grows K M M') {k x : Nat} (hx : x ∈ M.F.list k) : gid M' k x = gid M k x := by
  unfold Cat.gid; rw [h.par k x hx]

/-- a mesh, but for its size -/
structure Whole (F : FMesh D) : Prop where
  cons : F.T.Consistent
  vl : Listed F.vl F.T.sv
  el : Listed F.el F.T.se
  fl : Listed F.fl F.T.sf
  rl : Listed F.rl F.T.sr
  ends : ∀ e ∈ F.el, ∃ a b, F.T.view.ends e = (some a, some b)
  edges : ∀ f ∈ F.fl, (∃ l, F.T.fe f = some l) ∧ (F.T.view.edges f).length ≤ 32
  faces : ∀ r ∈ F.rl, ∃ l, F.T.rf r = some l
  vc : ∀ v ∈ F.vl, ClassOk (F.vc v)
  ec : ∀ e ∈ F.el, ClassOk (F.ec e)
  fc : ∀ f ∈ F.fl, ClassOk (F.fc f)
  rc : ∀ r ∈ F.rl, ClassOk (F.rc r)

theorem whole_of {F : FMesh D} (h : F.Sound) : Whole F :=
  ⟨h.cons, h.vl, h.el, h.fl, h.rl, h.ends, h.edges, h.faces, h.vc, h.ec, h.fc, h.rc⟩

theorem Whole.sound {F : FMesh D} (h : Whole F) (hs : F.vl.length + F.el.length + F.fl.length + F.rl.length < 2147483648) :
    F.Sound :=
  ⟨h.cons, h.vl, h.el, h.fl, h.rl, h.ends, h.edges, h.faces, h.vc, h.ec, h.fc, h.rc, hs⟩

theorem Whole.endsLive {F : FMesh D} (h : Whole F) {e a b : Nat} (he : e ∈ F.el) (hab : F.T.view.ends e = (some a, some b)) :
    a ∈ F.vl ∧ b ∈ F.vl := by
  have hl := (h.el.2 e).1 he
  have hab' : F.T.ev e = (some a, some b) := hab
  exact ⟨(h.vl.2 a).2 (h.cons.ve.down e a hl (Or.inl (by rw [hab']))),
    (h.vl.2 b).2 (h.cons.ve.down e b hl (Or.inr (by rw [hab'])))⟩

theorem Whole.edgesLive {F : FMesh D} (h : Whole F) {f : Nat} (hf : f ∈ F.fl) {p : Nat × Bool}
    (hp : p ∈ F.T.view.edges f) : p.1 ∈ F.el := by
  have hl := (h.fl.2 f).1 hf
  obtain ⟨⟨l, hfe⟩, _⟩ := h.edges f hf
  have : p.1 ∈ l := by
    have := List.mem_map_of_mem (f := (·.1)) hp
    rwa [show F.T.view.edges f = F.T.edgesOf f from rfl, Topo.edgesOf_map_fst, hfe] at this
  exact (h.el.2 _).2 (h.cons.fedgesLive hl hfe _ this)

theorem Whole.nodup {F : FMesh D} (h : Whole F) : ∀ k, (F.list k).Nodup
  | 0 => h.vl.1
  | 1 => h.el.1
  | 2 => h.fl.1
  | 3 => h.rl.1
  | _+4 => List.nodup_nil

/-- the ends of an edge are those in the old mesh, so it is used in the same way -/
theorem Grows.seg {M M' : CMesh D} (h : Grows K M M') (hM : Whole M.F) {p : Nat × Bool} (hp : p.1 ∈ M.F.el) :
    seg M' p = seg M p := by
  obtain ⟨a, b, hab⟩ := hM.ends p.1 hp
  obtain ⟨ha, hb⟩ := hM.endsLive hp hab
  unfold Cat.seg
  simp only [h.ends p.1 hp, hab, h.gid (k := 1) hp, Option.map_some, h.gid (k := 0) ha, h.gid (k := 0) hb]

theorem Grows.trace {M M' : CMesh D} (h : Grows K M M') (hM : Whole M.F) {f : Nat} (hf : f ∈ M.F.fl) :
    trace M' f = trace M f := by
  unfold Cat.trace
  rw [h.edges f hf]
  exact List.map_congr_left fun p hp => h.seg hM (hM.edgesLive hf hp)

/-- a ghost in the mesh -/
def put (N : CMesh D) (k l : Nat) (d : PDat) (F : FMesh D) : CMesh D :=
  { N with F := F, par := upd2 N.par k l d, top := upd N.top k (N.top k + 1) }

theorem put_par {N : CMesh D} {k l : Nat} {d : PDat} {F : FMesh D} (hl : l ∉ N.F.list k) :
    ∀ k' x, x ∈ N.F.list k' → (put N k l d F).par k' x = N.par k' x := by
  intro k' x hx
  show upd2 _ _ _ _ _ _ = _
  rw [upd2_at, if_neg]
  rintro ⟨rfl, rfl⟩
  exact hl hx

theorem put_own {N : CMesh D} {k l : Nat} {d : PDat} {F : FMesh D} : (put N k l d F).par k l = d := by
  show upd2 _ _ _ _ _ _ = _
  rw [upd2_at, if_pos ⟨rfl, rfl⟩]

theorem lists_of {F F' : FMesh D} {k : Nat} {l : List Nat} (h : F'.list = upd F.list k (F.list k ++ l)) :
    ∀ k', ∃ new, F'.list k' = F.list k' ++ new := by
  intro k'
  rw [h]
  by_cases hk : k' = k
  · subst hk; rw [upd_same]; exact ⟨l, rfl⟩
  · rw [upd_ne _ _ hk]; exact ⟨[], (List.append_nil _).symm⟩

theorem notin_ne {l : List Nat} {x y : Nat} (h : x ∉ l) (hy : y ∈ l) : y ≠ x := by rintro rfl; exact h hy

theorem Whole.addV {N : CMesh D} (h : Whole N.F) {x : D × D × D} {c : Int × Int} (hc : ClassOk c) {vid : Nat → Int} {d : PDat}
    {F : FMesh D}
    (hF : F = { N.F with T := N.F.T.mvNew.1, vl := N.F.vl ++ [N.F.T.nv], xyz := upd N.F.xyz N.F.T.nv x, vc := upd N.F.vc N.F.T.nv c, vid := vid }) :
    Whole F ∧ Grows K N (put N 0 N.F.T.nv d F) ∧ N.F.T.nv ∉ N.F.vl ∧ F.list = upd N.F.list 0 (N.F.list 0 ++ [N.F.T.nv]) := by
  have hu : N.F.T.sv N.F.T.nv = .unused := h.cons.newV _ (by omega)
  obtain ⟨hno, hli⟩ := h.vl.add hu
  have hlist : F.list = upd N.F.list 0 (N.F.list 0 ++ [N.F.T.nv]) := by
    funext k; subst hF; match k with
    | 0 => rfl
    | 1 => rfl
    | 2 => rfl
    | 3 => rfl
    | k+4 => rfl
  refine ⟨?_, ⟨lists_of hlist, put_par hno, ?_, ?_, ?_, ?_, ?_, ?_⟩, hno, hlist⟩
  · subst hF
    refine ⟨h.cons.newVertex, hli, h.el, h.fl, h.rl, h.ends, h.edges, h.faces, ?_, h.ec, h.fc, h.rc⟩
    intro v hv
    show ClassOk (upd _ _ _ _)
    rcases List.mem_append.1 hv with hv | hv
    · rw [upd_ne _ _ (notin_ne hno hv)]; exact h.vc v hv
    · rw [List.mem_singleton.1 hv, upd_same]; exact hc
  · intro v hv
    subst hF
    exact upd_ne _ _ (notin_ne hno hv)
  all_goals intros; subst hF; rfl

theorem Whole.addE {N : CMesh D} (h : Whole N.F) {a b : Nat} (ha : a ∈ N.F.vl) (hb : b ∈ N.F.vl) :
    ∃ T2 T3, N.F.T.meNew.1.meSetVertex N.F.T.ne false a = .ok T2 ∧ T2.meSetVertex N.F.T.ne true b = .ok T3 ∧
      T3.view.ends N.F.T.ne = (some a, some b) ∧
      ∀ (c : Int × Int), ClassOk c → ∀ (eid : Nat → Int) (d : PDat) (F : FMesh D),
        F = { N.F with T := T3, el := N.F.el ++ [N.F.T.ne], ec := upd N.F.ec N.F.T.ne c, eid := eid } →
        Whole F ∧ Grows K N (put N 1 N.F.T.ne d F) ∧ N.F.T.ne ∉ N.F.el ∧ F.list = upd N.F.list 1 (N.F.list 1 ++ [N.F.T.ne]) := by
  obtain ⟨T2, T3, s2, s3, c3, n1, n2, n3, n4, n5, n7, hv⟩ := newEdge_ends h.cons ((h.vl.2 a).1 ha) ((h.vl.2 b).1 hb)
  have hen : T3.view.ends = upd N.F.T.view.ends N.F.T.ne (some a, some b) := by have := congrArg Topo.View.ends hv; exact this
  refine ⟨T2, T3, s2, s3, by rw [hen, upd_same], ?_⟩
  intro c hc eid d F hF
  have hu : N.F.T.se N.F.T.ne = .unused := h.cons.newE _ (by omega)
  obtain ⟨hno, hli⟩ := h.el.add hu
  have hlist : F.list = upd N.F.list 1 (N.F.list 1 ++ [N.F.T.ne]) := by
    funext k; subst hF; match k with
    | 0 => rfl
    | 1 => rfl
    | 2 => rfl
    | 3 => rfl
    | k+4 => rfl
  have hsv : T3.sv = N.F.T.sv := by have := congrArg Topo.View.sv hv; exact this
  have hse : T3.se = upd N.F.T.se N.F.T.ne .live := by have := congrArg Topo.View.se hv; exact this
  have hsf : T3.sf = N.F.T.sf := by have := congrArg Topo.View.sf hv; exact this
  have hsr : T3.sr = N.F.T.sr := by have := congrArg Topo.View.sr hv; exact this
  have hed : T3.view.edges = N.F.T.view.edges := by have := congrArg Topo.View.edges hv; exact this
  have hfa : T3.view.faces = N.F.T.view.faces := by have := congrArg Topo.View.faces hv; exact this
  refine ⟨?_, ⟨lists_of hlist, put_par hno, ?_, ?_, ?_, ?_, ?_, ?_⟩, hno, hlist⟩
  · subst hF
    refine ⟨c3, ?_, ?_, ?_, ?_, ?_, ?_, ?_, h.vc, ?_, h.fc, h.rc⟩
    · show Listed N.F.vl T3.sv; rw [hsv]; exact h.vl
    · show Listed (N.F.el ++ [N.F.T.ne]) T3.se; rw [hse]; exact hli
    · show Listed N.F.fl T3.sf; rw [hsf]; exact h.fl
    · show Listed N.F.rl T3.sr; rw [hsr]; exact h.rl
    · intro e he
      show ∃ a b, T3.view.ends e = _
      rw [hen]
      rcases List.mem_append.1 he with he | he
      · rw [upd_ne _ _ (notin_ne hno he)]; exact h.ends e he
      · rw [List.mem_singleton.1 he, upd_same]; exact ⟨a, b, rfl⟩
    · intro f hf
      show (∃ l, T3.fe f = some l) ∧ (T3.view.edges f).length ≤ 32
      rw [n5, hed]; exact h.edges f hf
    · intro f hf
      show ∃ l, T3.rf f = some l
      rw [n7]; exact h.faces f hf
    · intro v hv
      show ClassOk (upd _ _ _ _)
      rcases List.mem_append.1 hv with hv | hv
      · rw [upd_ne _ _ (notin_ne hno hv)]; exact h.ec v hv
      · rw [List.mem_singleton.1 hv, upd_same]; exact hc
  · intro v hv; subst hF; rfl
  · intro v hv
    subst hF
    show T3.view.ends v = _
    rw [hen]
    exact upd_ne _ _ (notin_ne hno hv)
  · intro v hv; subst hF; show T3.view.edges v = _; rw [hed]
  · intro v hv; subst hF; show T3.view.faces v = _; rw [hfa]
  all_goals intros; subst hF; rfl

theorem Whole.addF {N : CMesh D} (h : Whole N.F) {es : List (Nat × Bool)} (h32 : es.length ≤ 32) (hes : ∀ p ∈ es, p.1 ∈ N.F.el) :
    ∃ T2, N.F.T.mfNew.1.mfSetEdges N.F.T.nf es = .ok T2 ∧ T2.view.edges N.F.T.nf = es ∧
      ∀ (c : Int × Int), ClassOk c → ∀ (fid : Nat → Int) (d : PDat) (F : FMesh D),
        F = { N.F with T := T2, fl := N.F.fl ++ [N.F.T.nf], fc := upd N.F.fc N.F.T.nf c, fid := fid } →
        Whole F ∧ Grows K N (put N 2 N.F.T.nf d F) ∧ N.F.T.nf ∉ N.F.fl ∧ F.list = upd N.F.list 2 (N.F.list 2 ++ [N.F.T.nf]) := by
  obtain ⟨T3, s2, c3, n1, n2, n3, n4, n5, n6, n7, hv⟩ := newFace_edges h.cons (es := es) h32
    (fun p hp => (h.el.2 _).1 (hes p hp))
  have hed : T3.view.edges = upd N.F.T.view.edges N.F.T.nf es := by have := congrArg Topo.View.edges hv; exact this
  refine ⟨T3, s2, by rw [hed, upd_same], ?_⟩
  intro c hc fid d F hF
  have hu : N.F.T.sf N.F.T.nf = .unused := h.cons.newF _ (by omega)
  obtain ⟨hno, hli⟩ := h.fl.add hu
  have hlist : F.list = upd N.F.list 2 (N.F.list 2 ++ [N.F.T.nf]) := by
    funext k; subst hF; match k with
    | 0 => rfl
    | 1 => rfl
    | 2 => rfl
    | 3 => rfl
    | k+4 => rfl
  have hsv : T3.sv = N.F.T.sv := by have := congrArg Topo.View.sv hv; exact this
  have hse : T3.se = N.F.T.se := by have := congrArg Topo.View.se hv; exact this
  have hsf : T3.sf = upd N.F.T.sf N.F.T.nf .live := by have := congrArg Topo.View.sf hv; exact this
  have hsr : T3.sr = N.F.T.sr := by have := congrArg Topo.View.sr hv; exact this
  have hen : T3.view.ends = N.F.T.view.ends := by have := congrArg Topo.View.ends hv; exact this
  have hfa : T3.view.faces = N.F.T.view.faces := by have := congrArg Topo.View.faces hv; exact this
  refine ⟨?_, ⟨lists_of hlist, put_par hno, ?_, ?_, ?_, ?_, ?_, ?_⟩, hno, hlist⟩
  · subst hF
    refine ⟨c3, ?_, ?_, ?_, ?_, ?_, ?_, ?_, h.vc, h.ec, ?_, h.rc⟩
    · show Listed N.F.vl T3.sv; rw [hsv]; exact h.vl
    · show Listed N.F.el T3.se; rw [hse]; exact h.el
    · show Listed (N.F.fl ++ [N.F.T.nf]) T3.sf; rw [hsf]; exact hli
    · show Listed N.F.rl T3.sr; rw [hsr]; exact h.rl
    · intro e he
      show ∃ a b, T3.view.ends e = _
      rw [hen]; exact h.ends e he
    · intro f hf
      show (∃ l, T3.fe f = some l) ∧ (T3.view.edges f).length ≤ 32
      rw [hed]
      rcases List.mem_append.1 hf with hf | hf
      · rw [upd_ne _ _ (notin_ne hno hf), n6 _ (notin_ne hno hf)]; exact h.edges f hf
      · rw [List.mem_singleton.1 hf, upd_same]; exact ⟨n5, h32⟩
    · intro f hf
      show ∃ l, T3.rf f = some l
      rw [n7]; exact h.faces f hf
    · intro v hv
      show ClassOk (upd _ _ _ _)
      rcases List.mem_append.1 hv with hv | hv
      · rw [upd_ne _ _ (notin_ne hno hv)]; exact h.fc v hv
      · rw [List.mem_singleton.1 hv, upd_same]; exact hc
  · intro v hv; subst hF; rfl
  · intro v hv; subst hF; show T3.view.ends v = _; rw [hen]
  · intro v hv
    subst hF
    show T3.view.edges v = _
    rw [hed]
    exact upd_ne _ _ (notin_ne hno hv)
  · intro v hv; subst hF; show T3.view.faces v = _; rw [hfa]
  · intro _ v hv; subst hF; exact upd_ne _ _ (notin_ne hno hv)
  · intro v hv; subst hF; rfl

/-- a change of classification -/
theorem Whole.classV {N : CMesh D} (h : Whole N.F) {w : Nat} {c : Int × Int} (hc : ClassOk c) :
    Whole ({ N.F with vc := upd N.F.vc w c } : FMesh D) ∧ Grows K N { N with F := { N.F with vc := upd N.F.vc w c } } := by
  refine ⟨⟨h.cons, h.vl, h.el, h.fl, h.rl, h.ends, h.edges, h.faces, ?_, h.ec, h.fc, h.rc⟩,
    ⟨?_, fun _ _ _ => rfl, fun _ _ => rfl, fun _ _ => rfl, fun _ _ => rfl, fun _ _ => rfl, fun _ _ _ => rfl, fun _ _ => rfl⟩⟩
  · intro v hv
    show ClassOk (upd _ _ _ _)
    by_cases he : v = w
    · rw [he, upd_same]; exact hc
    · rw [upd_ne _ _ he]; exact h.vc v hv
  · intro k; refine ⟨[], ?_⟩; rw [List.append_nil]
    match k with
    | 0 => rfl
    | 1 => rfl
    | 2 => rfl
    | 3 => rfl
    | k+4 => rfl

theorem Whole.classE {N : CMesh D} (h : Whole N.F) {w : Nat} {c : Int × Int} (hc : ClassOk c) :
    Whole ({ N.F with ec := upd N.F.ec w c } : FMesh D) ∧ Grows K N { N with F := { N.F with ec := upd N.F.ec w c } } := by
  refine ⟨⟨h.cons, h.vl, h.el, h.fl, h.rl, h.ends, h.edges, h.faces, h.vc, ?_, h.fc, h.rc⟩,
    ⟨?_, fun _ _ _ => rfl, fun _ _ => rfl, fun _ _ => rfl, fun _ _ => rfl, fun _ _ => rfl, fun _ _ _ => rfl, fun _ _ => rfl⟩⟩
  · intro v hv
    show ClassOk (upd _ _ _ _)
    by_cases he : v = w
    · rw [he, upd_same]; exact hc
    · rw [upd_ne _ _ he]; exact h.ec v hv
  · intro k; refine ⟨[], ?_⟩; rw [List.append_nil]
    match k with
    | 0 => rfl
    | 1 => rfl
    | 2 => rfl
    | 3 => rfl
    | k+4 => rfl

theorem Whole.classF {N : CMesh D} (h : Whole N.F) {w : Nat} {c : Int × Int} (hc : ClassOk c) :
    Whole ({ N.F with fc := upd N.F.fc w c } : FMesh D) ∧ Grows 3 N { N with F := { N.F with fc := upd N.F.fc w c } } := by
  refine ⟨⟨h.cons, h.vl, h.el, h.fl, h.rl, h.ends, h.edges, h.faces, h.vc, h.ec, ?_, h.rc⟩,
    ⟨?_, fun _ _ _ => rfl, fun _ _ => rfl, fun _ _ => rfl, fun _ _ => rfl, fun _ _ => rfl, fun h => absurd h (by omega), fun _ _ => rfl⟩⟩
  · intro v hv
    show ClassOk (upd _ _ _ _)
    by_cases he : v = w
    · rw [he, upd_same]; exact hc
    · rw [upd_ne _ _ he]; exact h.fc v hv
  · intro k; refine ⟨[], ?_⟩; rw [List.append_nil]
    match k with
    | 0 => rfl
    | 1 => rfl
    | 2 => rfl
    | 3 => rfl
    | k+4 => rfl

theorem Grows.ring {M M' : CMesh D} (h : Grows K M M') (hM : Whole M.F) {f : Nat} (hf : f ∈ M.F.fl) :
    ring M' f = ring M f := by
  unfold Cat.ring
  rw [h.trace hM hf]

theorem Grows.side {M M' : CMesh D} (h : Grows K M M') (hM : Whole M.F) {p : Nat × Bool} (hf : p.1 ∈ M.F.fl) :
    side M' p = side M p := by
  unfold Cat.side
  rw [h.ring hM hf, h.gid (k := 2) hf]

theorem Whole.facesLive {F : FMesh D} (h : Whole F) {r : Nat} (hr : r ∈ F.rl) {p : Nat × Bool}
    (hp : p ∈ F.T.view.faces r) : p.1 ∈ F.fl :=
  (h.fl.2 _).2 (h.cons.fr.down r p.1 p.2 ((h.rl.2 r).1 hr) hp)

theorem Grows.walls {M M' : CMesh D} (h : Grows K M M') (hM : Whole M.F) {r : Nat} (hr : r ∈ M.F.rl) :
    walls M' r = walls M r := by
  unfold Cat.walls
  rw [h.faces r hr]
  exact List.map_congr_left fun p hp => h.side hM (hM.facesLive hr hp)

theorem Whole.addR {N : CMesh D} (h : Whole N.F) {fs : List (Nat × Bool)} (hn : (fs.map (·.1)).Nodup)
    (hfs : ∀ p ∈ fs, p.1 ∈ N.F.fl ∧ ∀ z ∈ N.F.rl, p ∉ N.F.T.view.faces z) :
    ∃ T2, N.F.T.mrNew.1.mrSetFaces N.F.T.nr fs = .ok T2 ∧ T2.view.faces N.F.T.nr = fs ∧
      ∀ (c : Int × Int), ClassOk c → ∀ (rid : Nat → Int) (d : PDat) (F : FMesh D),
        F = { N.F with T := T2, rl := N.F.rl ++ [N.F.T.nr], rc := upd N.F.rc N.F.T.nr c, rid := rid } →
        Whole F ∧ Grows K N (put N 3 N.F.T.nr d F) ∧ N.F.T.nr ∉ N.F.rl ∧ F.list = upd N.F.list 3 (N.F.list 3 ++ [N.F.T.nr]) := by
  obtain ⟨T3, s2, c3, n1, n2, n3, n4, n5, n6, n7, hv⟩ := newRegion_faces h.cons (fs := fs) hn
    (by
      intro p hp
      obtain ⟨h1, h2⟩ := hfs p hp
      have hlive := (h.fl.2 _).1 h1
      refine ⟨hlive, ?_⟩
      cases hend : Topo.endAt (N.F.T.fr p.1) (!p.2) with
      | none => rfl
      | some z =>
        obtain ⟨hs, hms⟩ := (h.cons.fr.mem _ (Topo.alloc_of_live hlive) z p.2).1 hend
        exact absurd hms (h2 z ((h.rl.2 z).2 hs)))
    (by
      intro x hx
      obtain ⟨q, hq, rfl⟩ := List.mem_map.1 hx
      exact (h.edges _ (hfs q hq).1).1)
  have hfa : T3.view.faces = upd N.F.T.view.faces N.F.T.nr fs := by have := congrArg Topo.View.faces hv; exact this
  refine ⟨T3, s2, by rw [hfa, upd_same], ?_⟩
  intro c hc rid d F hF
  have hu : N.F.T.sr N.F.T.nr = .unused := h.cons.newR _ (by omega)
  obtain ⟨hno, hli⟩ := h.rl.add hu
  have hlist : F.list = upd N.F.list 3 (N.F.list 3 ++ [N.F.T.nr]) := by
    funext k; subst hF; match k with
    | 0 => rfl
    | 1 => rfl
    | 2 => rfl
    | 3 => rfl
    | k+4 => rfl
  have hsv : T3.sv = N.F.T.sv := by have := congrArg Topo.View.sv hv; exact this
  have hse : T3.se = N.F.T.se := by have := congrArg Topo.View.se hv; exact this
  have hsf : T3.sf = N.F.T.sf := by have := congrArg Topo.View.sf hv; exact this
  have hsr : T3.sr = upd N.F.T.sr N.F.T.nr .live := by have := congrArg Topo.View.sr hv; exact this
  have hen : T3.view.ends = N.F.T.view.ends := by have := congrArg Topo.View.ends hv; exact this
  have hed : T3.view.edges = N.F.T.view.edges := by have := congrArg Topo.View.edges hv; exact this
  refine ⟨?_, ⟨lists_of hlist, put_par hno, ?_, ?_, ?_, ?_, ?_, ?_⟩, hno, hlist⟩
  · subst hF
    refine ⟨c3, ?_, ?_, ?_, ?_, ?_, ?_, ?_, h.vc, h.ec, h.fc, ?_⟩
    · show Listed N.F.vl T3.sv; rw [hsv]; exact h.vl
    · show Listed N.F.el T3.se; rw [hse]; exact h.el
    · show Listed N.F.fl T3.sf; rw [hsf]; exact h.fl
    · show Listed (N.F.rl ++ [N.F.T.nr]) T3.sr; rw [hsr]; exact hli
    · intro e he
      show ∃ a b, T3.view.ends e = _
      rw [hen]; exact h.ends e he
    · intro f hf
      show (∃ l, T3.fe f = some l) ∧ (T3.view.edges f).length ≤ 32
      rw [hed, n5]; exact h.edges f hf
    · intro f hf
      show ∃ l, T3.rf f = some l
      rcases List.mem_append.1 hf with hf | hf
      · rw [n7 _ (notin_ne hno hf)]; exact h.faces f hf
      · rw [List.mem_singleton.1 hf]; exact n6
    · intro v hv
      show ClassOk (upd _ _ _ _)
      rcases List.mem_append.1 hv with hv | hv
      · rw [upd_ne _ _ (notin_ne hno hv)]; exact h.rc v hv
      · rw [List.mem_singleton.1 hv, upd_same]; exact hc
  · intro v hv; subst hF; rfl
  · intro v hv; subst hF; show T3.view.ends v = _; rw [hen]
  · intro v hv; subst hF; show T3.view.edges v = _; rw [hed]
  · intro v hv
    subst hF
    show T3.view.faces v = _
    rw [hfa]
    exact upd_ne _ _ (notin_ne hno hv)
  · intro _ v hv; subst hF; rfl
  · intro v hv; subst hF; exact upd_ne _ _ (notin_ne hno hv)

end Cat
end MSTK
