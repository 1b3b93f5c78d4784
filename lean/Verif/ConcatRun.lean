import Verif.ConcatLemmas
import Verif.CollapseDrawn
import Verif.Props.FaceLoops

/-!
`MESH_ConcatSubMesh` for surface meshes (ConcatModel.lean): what holds at every point of the run.
-/
namespace MSTK
namespace Cat
open File Copy Prt

variable {D : Type} {K : Nat}

/-- The mesh at any point; `new` are the ghosts made so far.  `C` says which entities of the meshes received may
have ghosts. -/
structure Base (K : Nat) (M0 : CMesh D) (subs : List (CMesh D)) (C : CMesh D → Nat → Nat → Prop) (M : CMesh D) (new : Nat → List Nat) :
    Prop where
  whole : Whole M.F
  grows : Grows K M0 M
  dim : K = 2 ∨ K = 3
  list : ∀ k, k < K → M.F.list k = M0.F.list k ++ new k
  rl : K = 2 → M.F.rl = M0.F.rl
  dist : ∀ k, k < K → Distinct M k
  agree : ∀ T ∈ subs, Agree M T
  agreeF : K = 3 → ∀ T ∈ subs, AgreeF M T
  gv : ∀ y ∈ new 0, ∃ T ∈ subs, ∃ x ∈ T.F.vl, C T 0 x ∧ GhostV M T y x
  ge : ∀ y ∈ new 1, ∃ T ∈ subs, ∃ x ∈ T.F.el, C T 1 x ∧ GhostE M T y x
  gf : K = 3 → ∀ y ∈ new 2, ∃ T ∈ subs, ∃ x ∈ T.F.fl, C T 2 x ∧ GhostF M T y x
  rv : ∀ x ∈ M0.F.vl, Retag M0 subs 0 x FMesh.vc (M.F.vc x)
  re : ∀ x ∈ M0.F.el, Retag M0 subs 1 x FMesh.ec (M.F.ec x)
  rf : K = 3 → ∀ x ∈ M0.F.fl, Retag M0 subs 2 x FMesh.fc (M.F.fc x)

section
variable {M0 : CMesh D} {subs : List (CMesh D)} {C : CMesh D → Nat → Nat → Prop} {M : CMesh D} {new : Nat → List Nat}

theorem Base.mem (h : Base K M0 subs C M new) {k y : Nat} (hk : k < K) (hy : y ∈ new k) : y ∈ M.F.list k := by
  rw [h.list k hk]; exact List.mem_append_right _ hy

/-- a ghost is not one of the old entities -/
theorem Base.new_ne (h : Base K M0 subs C M new) {k x y : Nat} (hk : k < K) (hx : x ∈ M0.F.list k) (hy : y ∈ new k) : y ≠ x := by
  have := h.whole.nodup k
  rw [h.list k hk, List.nodup_append] at this
  exact fun he => this.2.2 x hx y hy he.symm

/-- what is in the mesh agrees with the meshes received when the mesh grows by entities that are no edges -/
theorem agree_grows {M M' T : CMesh D} (hw : Whole M.F) (hg : Grows K M M') (hl : M'.F.el = M.F.el) (h : Agree M T) : Agree M' T := by
  intro x hx y hy he
  rw [hl] at hx
  rw [hg.gid (k := 1) hx] at he
  rw [hg.seg hw (p := (x, true)) hx]
  exact h x hx y hy he

theorem ghostV_grows {M M' T : CMesh D} (hg : Grows K M M') {y x : Nat} (hy : y ∈ M.F.vl) (hc : M'.F.vc y = M.F.vc y)
    (h : GhostV M T y x) : GhostV M' T y x := by
  obtain ⟨h1, h2, h3⟩ := h
  exact ⟨(hg.par 0 y hy).trans h1, (hg.xyz y hy).trans h2, hc.trans h3⟩

theorem ghostE_grows {M M' T : CMesh D} (hw : Whole M.F) (hg : Grows K M M') {y x : Nat} (hy : y ∈ M.F.el) (hc : M'.F.ec y = M.F.ec y)
    (h : GhostE M T y x) : GhostE M' T y x := by
  obtain ⟨h1, h2, h3⟩ := h
  exact ⟨(hg.par 1 y hy).trans h1, (hg.seg hw (p := (y, true)) hy).trans h2, hc.trans h3⟩

theorem ghostF_grows {M M' T : CMesh D} (hw : Whole M.F) (hg : Grows K M M') {y x : Nat} (hy : y ∈ M.F.fl)
    (hc : M'.F.fc y = M.F.fc y) (h : GhostF M T y x) : GhostF M' T y x := by
  obtain ⟨h1, h2, h3⟩ := h
  exact ⟨(hg.par 2 y hy).trans h1, hc.trans h2, (hg.trace hw hy).trans h3⟩

/-- global IDs stay different when a new one is added -/
theorem dist_add {M M' : CMesh D} (hg : Grows K M M') {k l : Nat} (hl : M'.F.list k = M.F.list k ++ [l]) (h : Distinct M k)
    (hn : ∀ y ∈ M.F.list k, gid M k y ≠ gid M' k l) : Distinct M' k := by
  intro x hx y hy he
  rw [hl] at hx hy
  rcases List.mem_append.1 hx with hx | hx
  · rcases List.mem_append.1 hy with hy | hy
    · rw [hg.gid hx, hg.gid hy] at he; exact h x hx y hy he
    · rw [List.mem_singleton.1 hy, hg.gid hx] at he
      exact absurd he (hn x hx)
  · rcases List.mem_append.1 hy with hy | hy
    · rw [List.mem_singleton.1 hx, hg.gid hy] at he
      exact absurd he.symm (hn y hy)
    · rw [List.mem_singleton.1 hx, List.mem_singleton.1 hy]

theorem dist_same {M M' : CMesh D} (hg : Grows K M M') {k : Nat} (hl : M'.F.list k = M.F.list k) (h : Distinct M k) : Distinct M' k := by
  intro x hx y hy he
  rw [hl] at hx hy
  rw [hg.gid hx, hg.gid hy] at he
  exact h x hx y hy he

/-- the same for faces -/
theorem agreeF_grows {M M' T : CMesh D} (hw : Whole M.F) (hg : Grows K M M') (hl : M'.F.fl = M.F.fl) (h : AgreeF M T) :
    AgreeF M' T := by
  intro x hx y hy he
  rw [hl] at hx
  rw [hg.gid (k := 2) hx] at he
  rw [hg.ring hw hx]
  exact h x hx y hy he

theorem list_same {F F' : FMesh D} (h0 : F'.vl = F.vl) (h1 : F'.el = F.el) (h2 : F'.fl = F.fl) (h3 : F'.rl = F.rl) :
    ∀ k, F'.list k = F.list k
  | 0 => h0
  | 1 => h1
  | 2 => h2
  | 3 => h3
  | _+4 => rfl

theorem Base.classV (h : Base K M0 subs C M new) {S : CMesh D} (hS : S ∈ subs) (hSs : S.F.Sound) {v w : Nat} (hv : v ∈ S.F.vl)
    (hw : w ∈ M0.F.vl) (hg : gid S 0 v = gid M0 0 w) (h3 : (M0.par 0 w).ptype = 3) (hn : (S.par 0 v).ptype ≠ 3) :
    Base K M0 subs C { M with F := { M.F with vc := upd M.F.vc w (S.F.vc v) } } new := by
  obtain ⟨h1, h2⟩ := h.whole.classV (w := w) (c := S.F.vc v) (hSs.vc v hv)
  have hdim := h.dim
  refine ⟨h1, h.grows.trans h2, h.dim, ?_, h.rl, ?_, ?_, h.agreeF, ?_, h.ge, h.gf, ?_, h.re, h.rf⟩
  · exact fun k hk => (list_same (by rfl) (by rfl) (by rfl) (by rfl) k).trans (h.list k hk)
  · exact fun k hk => dist_same h2 (list_same (by rfl) (by rfl) (by rfl) (by rfl) k) (h.dist k hk)
  · exact fun T hT => h.agree T hT
  · intro y hy
    obtain ⟨T, hT, x, hx, hc, g1, g2, g3⟩ := h.gv y hy
    refine ⟨T, hT, x, hx, hc, g1, g2, ?_⟩
    rw [← g3]
    exact upd_ne _ _ (h.new_ne (k := 0) (by omega) hw hy)
  · intro x hx
    show Retag _ _ _ _ _ (upd _ _ _ _)
    by_cases he : x = w
    · subst he
      rw [upd_same]
      exact Or.inr ⟨h3, S, hS, v, hv, hg, hn, rfl⟩
    · rw [upd_ne _ _ he]; exact h.rv x hx

theorem Base.classE (h : Base K M0 subs C M new) {S : CMesh D} (hS : S ∈ subs) (hSs : S.F.Sound) {v w : Nat} (hv : v ∈ S.F.el)
    (hw : w ∈ M0.F.el) (hg : gid S 1 v = gid M0 1 w) (h3 : (M0.par 1 w).ptype = 3) (hn : (S.par 1 v).ptype ≠ 3) :
    Base K M0 subs C { M with F := { M.F with ec := upd M.F.ec w (S.F.ec v) } } new := by
  obtain ⟨h1, h2⟩ := h.whole.classE (w := w) (c := S.F.ec v) (hSs.ec v hv)
  have hdim := h.dim
  refine ⟨h1, h.grows.trans h2, h.dim, ?_, h.rl, ?_, ?_, h.agreeF, h.gv, ?_, h.gf, h.rv, ?_, h.rf⟩
  · exact fun k hk => (list_same (by rfl) (by rfl) (by rfl) (by rfl) k).trans (h.list k hk)
  · exact fun k hk => dist_same h2 (list_same (by rfl) (by rfl) (by rfl) (by rfl) k) (h.dist k hk)
  · exact fun T hT => h.agree T hT
  · intro y hy
    obtain ⟨T, hT, x, hx, hc, g1, g2, g3⟩ := h.ge y hy
    refine ⟨T, hT, x, hx, hc, g1, g2, ?_⟩
    rw [← g3]
    exact upd_ne _ _ (h.new_ne (k := 1) (by omega) hw hy)
  · intro x hx
    show Retag _ _ _ _ _ (upd _ _ _ _)
    by_cases he : x = w
    · subst he
      rw [upd_same]
      exact Or.inr ⟨h3, S, hS, v, hv, hg, hn, rfl⟩
    · rw [upd_ne _ _ he]; exact h.re x hx

theorem Base.classF (h : Base 3 M0 subs C M new) {S : CMesh D} (hS : S ∈ subs) (hSs : S.F.Sound) {v w : Nat} (hv : v ∈ S.F.fl)
    (hw : w ∈ M0.F.fl) (hg : gid S 2 v = gid M0 2 w) (h3 : (M0.par 2 w).ptype = 3) (hn : (S.par 2 v).ptype ≠ 3) :
    Base 3 M0 subs C { M with F := { M.F with fc := upd M.F.fc w (S.F.fc v) } } new := by
  obtain ⟨h1, h2⟩ := h.whole.classF (w := w) (c := S.F.fc v) (hSs.fc v hv)
  have hdim := h.dim
  refine ⟨h1, h.grows.trans h2, h.dim, ?_, h.rl, ?_, ?_, h.agreeF, h.gv, h.ge, ?_, h.rv, h.re, ?_⟩
  · exact fun k hk => (list_same (by rfl) (by rfl) (by rfl) (by rfl) k).trans (h.list k hk)
  · exact fun k hk => dist_same h2 (list_same (by rfl) (by rfl) (by rfl) (by rfl) k) (h.dist k hk)
  · exact fun T hT => h.agree T hT
  · intro _ y hy
    obtain ⟨T, hT, x, hx, hc, g1, g2, g3⟩ := h.gf rfl y hy
    refine ⟨T, hT, x, hx, hc, g1, ?_, g3⟩
    rw [← g2]
    exact upd_ne _ _ (h.new_ne (k := 2) (by omega) hw hy)
  · intro _ x hx
    show Retag _ _ _ _ _ (upd _ _ _ _)
    by_cases he : x = w
    · subst he
      rw [upd_same]
      exact Or.inr ⟨h3, S, hS, v, hv, hg, hn, rfl⟩
    · rw [upd_ne _ _ he]; exact h.rf rfl x hx

theorem Base.newV (h : Base K M0 subs C M new) {S : CMesh D} (hS : S ∈ subs) (hSs : S.F.Sound) {v : Nat} (hv : v ∈ S.F.vl)
    (hC : C S 0 v) (hfresh : ∀ y ∈ M.F.vl, gid M 0 y ≠ gid S 0 v) {vid : Nat → Int} {F : FMesh D}
    (hF : F = { M.F with T := M.F.T.mvNew.1, vl := M.F.vl ++ [M.F.T.nv], xyz := upd M.F.xyz M.F.T.nv (S.F.xyz v), vc := upd M.F.vc M.F.T.nv (S.F.vc v), vid := vid })
    {M' : CMesh D} (hM' : M' = put M 0 M.F.T.nv (ghostOf (S.par 0 v)) F) :
    Base K M0 subs C M' (upd new 0 (new 0 ++ [M.F.T.nv])) ∧ Grows K M M' ∧ gid M' 0 M.F.T.nv = gid S 0 v ∧
      M'.F.list = upd M.F.list 0 (M.F.list 0 ++ [M.F.T.nv]) ∧ M.F.T.nv ∉ M.F.vl := by
  obtain ⟨h1, h2, hno, hlist⟩ := h.whole.addV (x := S.F.xyz v) (c := S.F.vc v) (hSs.vc v hv) (vid := vid) (d := ghostOf (S.par 0 v)) hF
  rw [← hM'] at h2
  have hFM : M'.F = F := by rw [hM']; rfl
  have hlist' : M'.F.list = upd M.F.list 0 (M.F.list 0 ++ [M.F.T.nv]) := by rw [hFM]; exact hlist
  have hpar : M'.par 0 M.F.T.nv = ghostOf (S.par 0 v) := by rw [hM']; exact put_own
  have hgid : gid M' 0 M.F.T.nv = gid S 0 v := by unfold Cat.gid; rw [hpar]; rfl
  have l0 : M'.F.list 0 = M.F.list 0 ++ [M.F.T.nv] := by rw [hlist', upd_same]
  have ln : ∀ k, k ≠ 0 → M'.F.list k = M.F.list k := fun k hk => by rw [hlist', upd_ne _ _ hk]
  have hvc : M'.F.vc = upd M.F.vc M.F.T.nv (S.F.vc v) := by rw [hFM, hF]
  have hdim := h.dim
  have hfc : M'.F.fc = M.F.fc := by rw [hFM, hF]
  refine ⟨⟨by rw [hFM]; exact h1, h.grows.trans h2, h.dim, ?_, fun hk => (ln 3 (by omega)).trans (h.rl hk), ?_, ?_,
    fun hk T hT => agreeF_grows h.whole h2 (ln 2 (by omega)) (h.agreeF hk T hT), ?_, ?_, ?_, ?_, ?_, ?_⟩, h2, hgid, hlist', hno⟩
  · intro k hk
    by_cases he : k = 0
    · subst he; rw [l0, h.list _ hk, upd_same, List.append_assoc]
    · rw [ln k he, h.list k hk, upd_ne _ _ he]
  · intro k hk
    by_cases he : k = 0
    · subst he; exact dist_add h2 l0 (h.dist _ hk) (fun y hy => by rw [hgid]; exact hfresh y hy)
    · exact dist_same h2 (ln k he) (h.dist k hk)
  · exact fun T hT => agree_grows h.whole h2 (ln 1 (by omega)) (h.agree T hT)
  · intro y hy
    rw [upd_same] at hy
    rcases List.mem_append.1 hy with hy | hy
    · obtain ⟨T, hT, x, hx, hc, hgh⟩ := h.gv y hy
      have hym := h.mem (k := 0) (by omega) hy
      refine ⟨T, hT, x, hx, hc, ghostV_grows h2 hym ?_ hgh⟩
      rw [hvc, upd_ne _ _ (notin_ne hno hym)]
    · rw [List.mem_singleton.1 hy]
      refine ⟨S, hS, v, hv, hC, hpar, ?_, ?_⟩
      · rw [hFM, hF]; exact upd_same _ _ _
      · rw [hvc]; exact upd_same _ _ _
  · intro y hy
    rw [upd_ne _ _ (by omega)] at hy
    obtain ⟨T, hT, x, hx, hc, hgh⟩ := h.ge y hy
    refine ⟨T, hT, x, hx, hc, ghostE_grows h.whole h2 (h.mem (k := 1) (by omega) hy) ?_ hgh⟩
    rw [hFM, hF]
  · intro hk y hy
    rw [upd_ne _ _ (by omega)] at hy
    obtain ⟨T, hT, x, hx, hc, hgh⟩ := h.gf hk y hy
    exact ⟨T, hT, x, hx, hc, ghostF_grows h.whole h2 (h.mem (k := 2) (by omega) hy) (by rw [hfc]) hgh⟩
  · intro x hx
    rw [hvc, upd_ne _ _ (notin_ne hno (h.grows.mem (k := 0) hx))]
    exact h.rv x hx
  · intro x hx
    rw [show M'.F.ec = M.F.ec by rw [hFM, hF]]
    exact h.re x hx
  · intro hk x hx
    rw [hfc]; exact h.rf hk x hx

theorem Base.newE (h : Base K M0 subs C M new) {S : CMesh D} (hS : S ∈ subs) (hSs : S.F.Sound) {e : Nat} (he : e ∈ S.F.el)
    (hagree : ∀ T ∈ subs, Agree S T)
    (hC : C S 1 e) (hfresh : ∀ y ∈ M.F.el, gid M 1 y ≠ gid S 1 e) {a b a' b' : Nat} (hab : S.F.T.view.ends e = (some a, some b))
    (ha : a' ∈ M.F.vl) (hb : b' ∈ M.F.vl) (hga : gid M 0 a' = gid S 0 a) (hgb : gid M 0 b' = gid S 0 b) :
    ∃ T2 T3, M.F.T.meNew.1.meSetVertex M.F.T.ne false a' = .ok T2 ∧ T2.meSetVertex M.F.T.ne true b' = .ok T3 ∧
    ∀ (eid : Nat → Int) (F : FMesh D), F = { M.F with T := T3, el := M.F.el ++ [M.F.T.ne], ec := upd M.F.ec M.F.T.ne (S.F.ec e), eid := eid } →
    ∀ (M' : CMesh D), M' = put M 1 M.F.T.ne (ghostOf (S.par 1 e)) F →
    Base K M0 subs C M' (upd new 1 (new 1 ++ [M.F.T.ne])) ∧ Grows K M M' ∧ seg M' (M.F.T.ne, true) = seg S (e, true) ∧
      seg M' (M.F.T.ne, false) = seg S (e, false) ∧
      M'.F.list = upd M.F.list 1 (M.F.list 1 ++ [M.F.T.ne]) ∧ M.F.T.ne ∉ M.F.el := by
  obtain ⟨T2, T3, s2, s3, hends, hadd⟩ := h.whole.addE (K := K) ha hb
  refine ⟨T2, T3, s2, s3, ?_⟩
  intro eid F hF M' hM'
  obtain ⟨h1, h2, hno, hlist⟩ := hadd (S.F.ec e) (hSs.ec e he) eid (ghostOf (S.par 1 e)) F hF
  rw [← hM'] at h2
  have hFM : M'.F = F := by rw [hM']; rfl
  have hlist' : M'.F.list = upd M.F.list 1 (M.F.list 1 ++ [M.F.T.ne]) := by rw [hFM]; exact hlist
  have hpar : M'.par 1 M.F.T.ne = ghostOf (S.par 1 e) := by rw [hM']; exact put_own
  have hgid : gid M' 1 M.F.T.ne = gid S 1 e := by unfold Cat.gid; rw [hpar]; rfl
  have l1 : M'.F.list 1 = M.F.list 1 ++ [M.F.T.ne] := by rw [hlist', upd_same]
  have ln : ∀ k, k ≠ 1 → M'.F.list k = M.F.list k := fun k hk => by rw [hlist', upd_ne _ _ hk]
  have hec : M'.F.ec = upd M.F.ec M.F.T.ne (S.F.ec e) := by rw [hFM, hF]
  have hends' : M'.F.T.view.ends M.F.T.ne = (some a', some b') := by rw [hFM, hF]; exact hends
  have hseg : ∀ d, seg M' (M.F.T.ne, d) = seg S (e, d) := by
    intro d
    unfold seg
    simp only [hends', hab, hgid, Option.map_some, h2.gid (k := 0) ha, h2.gid (k := 0) hb, hga, hgb]
  have hdim := h.dim
  have hfc : M'.F.fc = M.F.fc := by rw [hFM, hF]
  refine ⟨⟨by rw [hFM]; exact h1, h.grows.trans h2, h.dim, ?_, fun hk => (ln 3 (by omega)).trans (h.rl hk), ?_, ?_,
    fun hk T hT => agreeF_grows h.whole h2 (ln 2 (by omega)) (h.agreeF hk T hT), ?_, ?_, ?_, ?_, ?_, ?_⟩, h2, hseg true, hseg false, hlist', hno⟩
  · intro k hk
    by_cases he : k = 1
    · subst he; rw [l1, h.list _ hk, upd_same, List.append_assoc]
    · rw [ln k he, h.list k hk, upd_ne _ _ he]
  · intro k hk
    by_cases he : k = 1
    · subst he; exact dist_add h2 l1 (h.dist _ hk) (fun y hy => by rw [hgid]; exact hfresh y hy)
    · exact dist_same h2 (ln k he) (h.dist k hk)
  · intro T hT x hx y hy hxy
    have hx' : x ∈ M.F.list 1 ++ [M.F.T.ne] := by rw [← l1]; exact hx
    rcases List.mem_append.1 hx' with hx' | hx'
    · rw [h2.gid (k := 1) hx'] at hxy
      rw [h2.seg h.whole (p := (x, true)) hx']
      exact h.agree T hT x hx' y hy hxy
    · rw [List.mem_singleton.1 hx'] at hxy ⊢
      rw [hgid] at hxy
      rw [hseg]
      exact hagree T hT e he y hy hxy
  · intro y hy
    rw [upd_ne _ _ (by omega)] at hy
    obtain ⟨T, hT, x, hx, hc, hgh⟩ := h.gv y hy
    refine ⟨T, hT, x, hx, hc, ghostV_grows h2 (h.mem (k := 0) (by omega) hy) ?_ hgh⟩
    rw [hFM, hF]
  · intro y hy
    rw [upd_same] at hy
    rcases List.mem_append.1 hy with hy | hy
    · obtain ⟨T, hT, x, hx, hc, hgh⟩ := h.ge y hy
      have hym := h.mem (k := 1) (by omega) hy
      refine ⟨T, hT, x, hx, hc, ghostE_grows h.whole h2 hym ?_ hgh⟩
      rw [hec, upd_ne _ _ (notin_ne hno hym)]
    · rw [List.mem_singleton.1 hy]
      refine ⟨S, hS, e, he, hC, hpar, hseg true, ?_⟩
      rw [hec]; exact upd_same _ _ _
  · intro hk y hy
    rw [upd_ne _ _ (by omega)] at hy
    obtain ⟨T, hT, x, hx, hc, hgh⟩ := h.gf hk y hy
    exact ⟨T, hT, x, hx, hc, ghostF_grows h.whole h2 (h.mem (k := 2) (by omega) hy) (by rw [hfc]) hgh⟩
  · intro x hx
    rw [show M'.F.vc = M.F.vc by rw [hFM, hF]]
    exact h.rv x hx
  · intro x hx
    rw [hec, upd_ne _ _ (notin_ne hno (h.grows.mem (k := 1) hx))]
    exact h.re x hx
  · intro hk x hx
    rw [hfc]; exact h.rf hk x hx

theorem Base.newF (h : Base K M0 subs C M new) {S : CMesh D} (hS : S ∈ subs) (hSs : S.F.Sound) {f : Nat} (hf : f ∈ S.F.fl)
    (hagree : K = 3 → ∀ T ∈ subs, AgreeF S T) (hC : K = 3 → C S 2 f) (hfresh : K = 3 → ∀ y ∈ M.F.fl, gid M 2 y ≠ gid S 2 f)
    {es : List (Nat × Bool)} (hes : ∀ p ∈ es, p.1 ∈ M.F.el) (hseg : es.map (seg M) = (S.F.T.view.edges f).map (seg S)) :
    ∃ M', makeFace S f es M = .ok (M', M.F.T.nf) ∧ Base K M0 subs C M' (upd new 2 (new 2 ++ [M.F.T.nf])) ∧ Grows K M M' ∧
      GhostF M' S M.F.T.nf f ∧ M'.F.list = upd M.F.list 2 (M.F.list 2 ++ [M.F.T.nf]) ∧ M.F.T.nf ∉ M.F.fl := by
  have hdim := h.dim
  have hlen : es.length = (S.F.T.view.edges f).length := by simpa using congrArg List.length hseg
  obtain ⟨T2, s2, hed, hadd⟩ := h.whole.addF (K := K) (es := es) (by rw [hlen]; exact (hSs.edges f hf).2) hes
  unfold makeFace
  simp only [show M.F.T.mfNew.2 = M.F.T.nf from rfl, s2, Res.bind_ok]
  generalize hF : ({ M.F with T := T2, fl := M.F.fl ++ [M.F.T.nf], fc := upd M.F.fc M.F.T.nf (S.F.fc f), fid := upd M.F.fid M.F.T.nf (M.top 2 + 1) } : FMesh D) = F
  obtain ⟨h1, h2, hno, hlist⟩ := hadd (S.F.fc f) (hSs.fc f hf) _ (ghostOf (S.par 2 f)) _ hF.symm
  generalize hM' : put M 2 M.F.T.nf (ghostOf (S.par 2 f)) F = M' at h2
  have hFM : M'.F = F := by rw [← hM']; rfl
  have hpar : M'.par 2 M.F.T.nf = ghostOf (S.par 2 f) := by rw [← hM']; exact put_own
  have hgid : gid M' 2 M.F.T.nf = gid S 2 f := by unfold Cat.gid; rw [hpar]; rfl
  have hlist' : M'.F.list = upd M.F.list 2 (M.F.list 2 ++ [M.F.T.nf]) := by rw [hFM]; exact hlist
  have l2 : M'.F.list 2 = M.F.list 2 ++ [M.F.T.nf] := by rw [hlist', upd_same]
  have ln : ∀ k, k ≠ 2 → M'.F.list k = M.F.list k := fun k hk => by rw [hlist', upd_ne _ _ hk]
  have hvc : M'.F.vc = M.F.vc := by rw [hFM, ← hF]
  have hec : M'.F.ec = M.F.ec := by rw [hFM, ← hF]
  have hfc : M'.F.fc = upd M.F.fc M.F.T.nf (S.F.fc f) := by rw [hFM, ← hF]
  have htrace : trace M' M.F.T.nf = trace S f := by
    unfold trace
    rw [← hseg, show M'.F.T.view.edges M.F.T.nf = es by rw [hFM, ← hF]; exact hed]
    exact List.map_congr_left fun p hp => h2.seg h.whole (hes p hp)
  have hghost : GhostF M' S M.F.T.nf f := ⟨hpar, by rw [hfc]; exact upd_same _ _ _, htrace⟩
  refine ⟨M', by rw [← hM']; rfl, ⟨by rw [hFM]; exact h1, h.grows.trans h2, h.dim, ?_, fun hk => (ln 3 (by omega)).trans (h.rl hk), ?_, ?_, ?_, ?_, ?_, ?_, ?_,
    ?_, ?_⟩, h2, hghost, hlist', hno⟩
  · intro k hk
    by_cases he : k = 2
    · subst he; rw [l2, h.list _ hk, upd_same, List.append_assoc]
    · rw [ln k he, h.list k hk, upd_ne _ _ he]
  · intro k hk
    by_cases he : k = 2
    · subst he; exact dist_add h2 l2 (h.dist _ hk) (fun y hy => by rw [hgid]; exact hfresh (by omega) y hy)
    · exact dist_same h2 (ln k he) (h.dist k hk)
  · exact fun T hT => agree_grows h.whole h2 (ln 1 (by omega)) (h.agree T hT)
  · intro hk T hT x hx y hy hxy
    have hx' : x ∈ M.F.list 2 ++ [M.F.T.nf] := by rw [← l2]; exact hx
    rcases List.mem_append.1 hx' with hx' | hx'
    · rw [h2.gid (k := 2) hx'] at hxy
      rw [h2.ring h.whole hx']
      exact h.agreeF hk T hT x hx' y hy hxy
    · rw [List.mem_singleton.1 hx'] at hxy ⊢
      rw [hgid] at hxy
      rw [show ring M' M.F.T.nf = ring S f by unfold ring; rw [htrace]]
      exact hagree hk T hT f hf y hy hxy
  · intro y hy
    rw [upd_ne _ _ (by omega)] at hy
    obtain ⟨T, hT, x, hx, hc, hgh⟩ := h.gv y hy
    exact ⟨T, hT, x, hx, hc, ghostV_grows h2 (h.mem (k := 0) (by omega) hy) (congrFun hvc y) hgh⟩
  · intro y hy
    rw [upd_ne _ _ (by omega)] at hy
    obtain ⟨T, hT, x, hx, hc, hgh⟩ := h.ge y hy
    exact ⟨T, hT, x, hx, hc, ghostE_grows h.whole h2 (h.mem (k := 1) (by omega) hy) (congrFun hec y) hgh⟩
  · intro hk y hy
    rw [upd_same] at hy
    rcases List.mem_append.1 hy with hy | hy
    · obtain ⟨T, hT, x, hx, hc, hgh⟩ := h.gf hk y hy
      have hym := h.mem (k := 2) (by omega) hy
      exact ⟨T, hT, x, hx, hc, ghostF_grows h.whole h2 hym (by rw [hfc, upd_ne _ _ (notin_ne hno hym)]) hgh⟩
    · rw [List.mem_singleton.1 hy]
      exact ⟨S, hS, f, hf, hC hk, hghost⟩
  · intro x hx
    rw [hvc]; exact h.rv x hx
  · intro x hx
    rw [hec]; exact h.re x hx
  · intro hk x hx
    rw [hfc, upd_ne _ _ (notin_ne hno (h.grows.mem (k := 2) hx))]
    exact h.rf hk x hx

/-- in surface meshes the list of new faces is of no importance -/
theorem Base.ignore (h : Base 2 M0 subs C M new) {new' : Nat → List Nat} (hn : ∀ k, k < 2 → new' k = new k) : Base 2 M0 subs C M new' :=
  ⟨h.whole, h.grows, h.dim, fun k hk => by rw [hn k hk]; exact h.list k hk, h.rl, h.dist, h.agree, h.agreeF,
    by rw [hn 0 (by omega)]; exact h.gv, by rw [hn 1 (by omega)]; exact h.ge, fun hk => absurd hk (by omega), h.rv, h.re, h.rf⟩

end

/-- what holds while the mesh `S` is worked on -/
structure Inv (K : Nat) (M0 : CMesh D) (subs : List (CMesh D)) (C : CMesh D → Nat → Nat → Prop) (S : CMesh D) (st : QSt D) : Prop where
  base : Base K M0 subs C st.M (fun k => st.old k ++ st.add k)
  att : ∀ k x y, k < K → st.att k x = some y → x ∈ S.F.list k ∧ y ∈ st.M.F.list k ∧ gid st.M k y = gid S k x
  ghosts : ∀ k, k < K → ∀ y ∈ st.add k, ∃ x, st.att k x = some y

/-- from one point of the work on a face to a later one -/
structure Next (K : Nat) (st st' : QSt D) : Prop where
  grows : Grows K st.M st'.M
  knows : Knows st.att st'.att
  old : st'.old = st.old
  top : st'.M.F.list K = st.M.F.list K

theorem Next.refl (st : QSt D) : Next K st st := ⟨Grows.refl _, Knows.refl _, rfl, rfl⟩
theorem Next.trans {a b c : QSt D} (h : Next K a b) (h' : Next K b c) : Next K a c :=
  ⟨h.grows.trans h'.grows, h.knows.trans h'.knows, h'.old.trans h.old, h'.top.trans h.top⟩

section
variable {srch : (Nat → Nat) → List Nat → Nat → Option Nat} (hf : Send.Finds srch)
variable {M0 : CMesh D} {subs : List (CMesh D)} {C : CMesh D → Nat → Nat → Prop} {S : CMesh D}

theorem mem_border {M : CMesh D} {k w : Nat} : w ∈ border M k ↔ w ∈ M.F.list k ∧ (M.par k w).ptype ≠ 0 := by
  unfold border; simp

theorem Inv.relearn {st : QSt D} (h : Inv K M0 subs C S st) {M' : CMesh D} (hb : Base K M0 subs C M' (fun k => st.old k ++ st.add k))
    (hg : Grows K st.M M') (hfl : M'.F.list K = st.M.F.list K) {k v w : Nat} (hv : v ∈ S.F.list k)
    (hn : ∀ y, st.att k v = some y → y = w) (hw : w ∈ st.M.F.list k) (hgid : gid st.M k w = gid S k v) :
    Inv K M0 subs C S { st with M := M', att := upd2 st.att k v (some w) } ∧
      Next K st { st with M := M', att := upd2 st.att k v (some w) } := by
  have hk : Knows st.att (upd2 st.att k v (some w)) := by
    intro k' x y hy
    refine upd2_some.2 ?_
    by_cases he : k' = k ∧ x = v
    · obtain ⟨rfl, rfl⟩ := he
      exact Or.inl ⟨rfl, rfl, hn y hy⟩
    · exact Or.inr ⟨he, hy⟩
  refine ⟨⟨hb, ?_, ?_⟩, ⟨hg, hk, rfl, hfl⟩⟩
  · intro k' x y hk' hx
    rcases upd2_some.1 hx with ⟨rfl, rfl, rfl⟩ | ⟨_, hx⟩
    · exact ⟨hv, hg.mem hw, (hg.gid hw).trans hgid⟩
    · obtain ⟨h1, h2, h3⟩ := h.att k' x y hk' hx
      exact ⟨h1, hg.mem h2, (hg.gid h2).trans h3⟩
  · intro k' hk' y hy
    obtain ⟨x, hx⟩ := h.ghosts k' hk' y hy
    exact ⟨x, hk _ _ _ hx⟩

theorem Inv.learn {st : QSt D} (h : Inv K M0 subs C S st) {M' : CMesh D} (hb : Base K M0 subs C M' (fun k => st.old k ++ st.add k))
    (hg : Grows K st.M M') (hfl : M'.F.list K = st.M.F.list K) {k v w : Nat} (hv : v ∈ S.F.list k)
    (hn : st.att k v = none) (hw : w ∈ st.M.F.list k) (hgid : gid st.M k w = gid S k v) :
    Inv K M0 subs C S { st with M := M', att := upd2 st.att k v (some w) } ∧
      Next K st { st with M := M', att := upd2 st.att k v (some w) } :=
  h.relearn hb hg hfl hv (fun y hy => by rw [hn] at hy; cases hy) hw hgid

theorem att_set {f : Nat → Nat → Option Nat} {k x w : Nat} (hn : upd2 f k x (some w) k x = none) : False := by
  rw [upd2_at, if_pos ⟨rfl, rfl⟩] at hn; cases hn

/-- what is known about an entity of the mesh received: it is known where it is if it is in the part -/
def Placed (M0 S : CMesh D) (st : QSt D) (k x : Nat) : Prop :=
  (∃ w ∈ M0.F.list k, gid M0 k w = gid S k x) → st.att k x ≠ none

theorem Placed.mono {st st' : QSt D} (h : Next K st st') {k x : Nat} (hp : Placed M0 S st k x) : Placed M0 S st' k x := by
  intro hw hn
  cases hx : st.att k x with
  | none => exact hp hw hx
  | some y => rw [h.knows _ _ _ hx] at hn; cases hn

include hf

theorem matchV_ok (hG : Given K M0 subs) (hS : S ∈ subs) {st : QSt D} (h : Inv K M0 subs C S st) {v : Nat} (hv : v ∈ S.F.vl) :
    ∃ st' b, matchV srch (border M0) S v st = .ok (st', b) ∧ Inv K M0 subs C S st' ∧ Next K st st' ∧
      (b = true ↔ ∃ w ∈ border M0 0, gid M0 0 w = gid S 0 v) ∧ Placed M0 S st' 0 v := by
  have hSs := hG.meshes S hS
  have hdim := h.base.dim
  have hd : S.F.T.derefV v = .ok () := Topo.derefV_ok (Topo.alloc_of_live ((hSs.vl.2 v).1 hv))
  unfold matchV
  rw [hd, Res.bind_ok]
  cases hc : st.att 0 v with
  | some w =>
    obtain ⟨h1, h2, h3⟩ := h.att 0 v w (by omega) hc
    refine ⟨st, _, rfl, h, Next.refl _, ?_, fun _ hn => by rw [hc] at hn; cases hn⟩
    rw [decide_eq_true_iff]
    constructor
    · intro hw
      exact ⟨w, hw, by rw [← h.base.grows.gid (mem_border.1 hw).1]; exact h3⟩
    · rintro ⟨w', hw', hg⟩
      have hm := (mem_border.1 hw').1
      have : w' = w := h.base.dist 0 (by omega) w' (h.base.grows.mem hm) w h2 (by rw [h.base.grows.gid hm, hg, h3])
      rw [← this]; exact hw'
  | none =>
    cases hs : srch (gid st.M 0) (border M0 0) (gid S 0 v) with
    | none =>
      have hno := (hf (gid st.M 0) (border M0 0) (gid S 0 v)).2 hs
      have hno' : ∀ w ∈ border M0 0, gid M0 0 w ≠ gid S 0 v := fun w hw he =>
        hno w hw (by rw [h.base.grows.gid (mem_border.1 hw).1]; exact he)
      refine ⟨st, false, rfl, h, Next.refl _, ?_, ?_⟩
      · refine Iff.intro (fun h => nomatch h) ?_
        rintro ⟨w, hw, he⟩
        exact absurd he (hno' w hw)
      · rintro ⟨w, hw, he⟩
        exact absurd he (hno' w (mem_border.2 ⟨hw, hG.border S hS 0 (by omega) v hv w hw he⟩))
    | some w =>
      obtain ⟨hw, hg⟩ := (hf (gid st.M 0) (border M0 0) (gid S 0 v)).1 w hs
      have hw0 := (mem_border.1 hw).1
      have hg0 : gid M0 0 w = gid S 0 v := by rw [← h.base.grows.gid hw0]; exact hg
      have hwM := h.base.grows.mem hw0
      simp only
      by_cases hif : (st.M.par 0 w).ptype = 3 ∧ (S.par 0 v).ptype ≠ 3
      · rw [if_pos hif]
        obtain ⟨h1, h2⟩ := h.learn (h.base.classV hS hSs hv hw0 hg0.symm (by rw [← h.base.grows.par 0 w hw0]; exact hif.1) hif.2)
          (h.base.whole.classV (hSs.vc v hv)).2 rfl (k := 0) hv hc hwM hg
        refine ⟨_, true, rfl, h1, h2, Iff.intro (fun _ => ⟨w, hw, hg0⟩) (fun _ => rfl), fun _ hn => ?_⟩
        exact att_set (f := st.att) (k := 0) (x := v) (w := w) hn
      · rw [if_neg hif]
        obtain ⟨h1, h2⟩ := h.learn h.base (Grows.refl _) rfl (k := 0) hv hc hwM hg
        refine ⟨_, true, rfl, h1, h2, Iff.intro (fun _ => ⟨w, hw, hg0⟩) (fun _ => rfl), fun _ hn => ?_⟩
        exact att_set (f := st.att) (k := 0) (x := v) (w := w) hn

theorem matchVs_ok (hG : Given K M0 subs) (hS : S ∈ subs) : ∀ (vs : List Nat) {st : QSt D}, Inv K M0 subs C S st → (∀ v ∈ vs, v ∈ S.F.vl) →
    ∃ st' b, matchVs srch (border M0) S (vs.map some) st = .ok (st', b) ∧ Inv K M0 subs C S st' ∧ Next K st st' ∧
      (b = true ↔ ∃ v ∈ vs, ∃ w ∈ border M0 0, gid M0 0 w = gid S 0 v) ∧ ∀ v ∈ vs, Placed M0 S st' 0 v
  | [], st, h, _ => ⟨st, false, rfl, h, Next.refl _, by simp, by simp⟩
  | v :: vs, st, h, hvs => by
    obtain ⟨s1, b1, r1, i1, n1, e1, p1⟩ := matchV_ok hf hG hS h (hvs v (by simp))
    obtain ⟨s2, b2, r2, i2, n2, e2, p2⟩ := matchVs_ok hG hS vs i1 (fun x hx => hvs x (List.mem_cons_of_mem _ hx))
    rw [List.map_cons]
    unfold matchVs
    rw [Res.ofOption_some, Res.bind_ok, r1, Res.bind_ok, r2, Res.bind_ok]
    refine ⟨s2, b1 || b2, rfl, i2, n1.trans n2, ?_, ?_⟩
    · rw [Bool.or_eq_true, e1, e2]; simp
    · intro x hx
      rcases List.mem_cons.1 hx with rfl | hx
      · exact p1.mono n2
      · exact p2 x hx

theorem matchE_ok (hG : Given K M0 subs) (hS : S ∈ subs) {st : QSt D} (h : Inv K M0 subs C S st) {e : Nat} (he : e ∈ S.F.el) :
    ∃ st', matchE srch (border M0) S e st = .ok st' ∧ Inv K M0 subs C S st' ∧ Next K st st' ∧ Placed M0 S st' 1 e := by
  have hSs := hG.meshes S hS
  have hdim := h.base.dim
  have hd : S.F.T.derefE e = .ok () := Topo.derefE_ok (Topo.alloc_of_live ((hSs.el.2 e).1 he))
  unfold matchE
  rw [hd, Res.bind_ok]
  cases hc : st.att 1 e with
  | some w => exact ⟨st, rfl, h, Next.refl _, fun _ hn => by rw [hc] at hn; cases hn⟩
  | none =>
    cases hs : srch (gid st.M 1) (border M0 1) (gid S 1 e) with
    | none =>
      have hno := (hf (gid st.M 1) (border M0 1) (gid S 1 e)).2 hs
      refine ⟨st, rfl, h, Next.refl _, ?_⟩
      rintro ⟨w, hw, hg⟩
      exact absurd ((h.base.grows.gid hw).trans hg) (hno w (mem_border.2 ⟨hw, hG.border S hS 1 (by omega) e he w hw hg⟩))
    | some w =>
      obtain ⟨hw, hg⟩ := (hf (gid st.M 1) (border M0 1) (gid S 1 e)).1 w hs
      have hw0 := (mem_border.1 hw).1
      have hg0 : gid M0 1 w = gid S 1 e := by rw [← h.base.grows.gid hw0]; exact hg
      have hwM := h.base.grows.mem hw0
      simp only
      by_cases hif : (st.M.par 1 w).ptype = 3 ∧ (S.par 1 e).ptype ≠ 3
      · rw [if_pos hif]
        obtain ⟨h1, h2⟩ := h.learn (h.base.classE hS hSs he hw0 hg0.symm (by rw [← h.base.grows.par 1 w hw0]; exact hif.1) hif.2)
          (h.base.whole.classE (hSs.ec e he)).2 rfl (k := 1) he hc hwM hg
        refine ⟨_, rfl, h1, h2, fun _ hn => ?_⟩
        exact att_set (f := st.att) (k := 1) (x := e) (w := w) hn
      · rw [if_neg hif]
        obtain ⟨h1, h2⟩ := h.learn h.base (Grows.refl _) rfl (k := 1) he hc hwM hg
        refine ⟨_, rfl, h1, h2, fun _ hn => ?_⟩
        exact att_set (f := st.att) (k := 1) (x := e) (w := w) hn

theorem matchEs_ok (hG : Given K M0 subs) (hS : S ∈ subs) : ∀ (es : List Nat) {st : QSt D}, Inv K M0 subs C S st → (∀ e ∈ es, e ∈ S.F.el) →
    ∃ st', loop (matchE srch (border M0) S) es st = .ok st' ∧ Inv K M0 subs C S st' ∧ Next K st st' ∧ ∀ e ∈ es, Placed M0 S st' 1 e
  | [], st, h, _ => ⟨st, rfl, h, Next.refl _, by simp⟩
  | e :: es, st, h, hes => by
    obtain ⟨s1, r1, i1, n1, p1⟩ := matchE_ok hf hG hS h (hes e (by simp))
    obtain ⟨s2, r2, i2, n2, p2⟩ := matchEs_ok hG hS es i1 (fun x hx => hes x (List.mem_cons_of_mem _ hx))
    unfold loop
    rw [r1, Res.bind_ok, r2]
    refine ⟨s2, rfl, i2, n1.trans n2, ?_⟩
    intro x hx
    rcases List.mem_cons.1 hx with rfl | hx
    · exact p1.mono n2
    · exact p2 x hx

/-- the search for an entity -/
theorem find_ok {st : QSt D} (h : Inv K M0 subs C S st) {k x : Nat} (hk : k < K) (hx : x ∈ S.F.list k) (hD : Distinct S k)
    (hp : Placed M0 S st k x) :
    Inv K M0 subs C S (st.find srch S k x).1 ∧ Next K st (st.find srch S k x).1 ∧
      (∀ w, (st.find srch S k x).2 = some w → (st.find srch S k x).1.att k x = some w) ∧
      ((st.find srch S k x).2 = none → (st.find srch S k x).1 = st ∧ st.att k x = none ∧ ∀ y ∈ st.M.F.list k, gid st.M k y ≠ gid S k x) := by
  unfold QSt.find
  cases hc : st.att k x with
  | some w => exact ⟨h, Next.refl _, fun _ he => by rw [← he]; exact hc, fun he => nomatch he⟩
  | none =>
    dsimp only
    cases hs : srch (gid st.M k) (st.old k) (gid S k x) with
    | some w =>
      obtain ⟨hw, hg⟩ := (hf _ _ _).1 w hs
      obtain ⟨h1, h2⟩ := h.learn h.base (Grows.refl _) rfl hx hc (h.base.mem hk (List.mem_append_left _ hw)) hg
      refine ⟨h1, h2, fun w' he => ?_, fun he => nomatch he⟩
      simp only [Option.some.injEq] at he
      exact upd2_some.2 (Or.inl ⟨rfl, rfl, he.symm⟩)
    | none =>
      have hno := (hf _ _ _).2 hs
      dsimp only
      refine ⟨h, Next.refl _, (fun _ he => nomatch he), (fun _ => ⟨rfl, rfl, ?_⟩)⟩
      intro y hy hg
      rw [h.base.list k hk, List.mem_append, List.mem_append] at hy
      rcases hy with hy | hy | hy
      · exact hp ⟨y, hy, by rw [← h.base.grows.gid hy]; exact hg⟩ hc
      · exact hno y hy hg
      · obtain ⟨x', hx'⟩ := h.ghosts k hk y hy
        obtain ⟨h1, _, h3⟩ := h.att k x' y hk hx'
        have : x' = x := hD x' h1 x hx (by rw [← h3, hg])
        rw [this, hc] at hx'; cases hx'

omit hf in
/-- a ghost more -/
theorem Inv.enter {st : QSt D} (h : Inv K M0 subs C S st) {k x l : Nat} (hk : k < K) (hx : x ∈ S.F.list k) (hn : st.att k x = none)
    {M' : CMesh D} (hb : Base K M0 subs C M' (upd (fun k => st.old k ++ st.add k) k ((st.old k ++ st.add k) ++ [l])))
    (hg : Grows K st.M M') (hl : M'.F.list = upd st.M.F.list k (st.M.F.list k ++ [l])) (hgid : gid M' k l = gid S k x)
    {st' : QSt D} (hM : st'.M = M') (ha : st'.att = upd2 st.att k x (some l)) (ho : st'.old = st.old)
    (had : st'.add = upd st.add k (st.add k ++ [l])) : Inv K M0 subs C S st' ∧ Next K st st' ∧ st'.att k x = some l := by
  have hkn := Knows.add (l := l) hn
  rw [← hM] at hb hg hl hgid
  have hlk : st'.M.F.list k = st.M.F.list k ++ [l] := by rw [hl, upd_same]
  refine ⟨⟨?_, ?_, ?_⟩, ⟨hg, by rw [ha]; exact hkn, ho, ?_⟩, by rw [ha]; exact upd2_some.2 (Or.inl ⟨rfl, rfl, rfl⟩)⟩
  · have : (fun k => st'.old k ++ st'.add k) = upd (fun k => st.old k ++ st.add k) k ((st.old k ++ st.add k) ++ [l]) := by
      funext k'
      rw [ho, had]
      by_cases he : k' = k
      · subst he; rw [upd_same, upd_same, List.append_assoc]
      · rw [upd_ne _ _ he, upd_ne _ _ he]
    rw [this]; exact hb
  · intro k' x' y hk' hx'
    rw [ha] at hx'
    rcases upd2_some.1 hx' with ⟨rfl, rfl, rfl⟩ | ⟨_, hx'⟩
    · exact ⟨hx, by rw [hlk]; simp, hgid⟩
    · obtain ⟨h1, h2, h3⟩ := h.att k' x' y hk' hx'
      exact ⟨h1, hg.mem h2, (hg.gid h2).trans h3⟩
  · intro k' hk' y hy
    rw [had] at hy
    rw [ha]
    by_cases he : k' = k
    · subst he
      rw [upd_same] at hy
      rcases List.mem_append.1 hy with hy | hy
      · obtain ⟨x', hx'⟩ := h.ghosts _ hk' y hy
        exact ⟨x', hkn _ _ _ hx'⟩
      · rw [List.mem_singleton.1 hy]
        exact ⟨x, upd2_some.2 (Or.inl ⟨rfl, rfl, rfl⟩)⟩
    · rw [upd_ne _ _ he] at hy
      obtain ⟨x', hx'⟩ := h.ghosts _ hk' y hy
      exact ⟨x', hkn _ _ _ hx'⟩
  · rw [hl, upd_ne _ _ (by omega)]

theorem ghostV_ok (hG : Given K M0 subs) (hS : S ∈ subs) {st : QSt D} (h : Inv K M0 subs C S st) {v : Nat} (hv : v ∈ S.F.vl)
    (hC : C S 0 v) (hp : Placed M0 S st 0 v) :
    ∃ st' w, ghostV srch S v st = .ok (st', w) ∧ Inv K M0 subs C S st' ∧ Next K st st' ∧ st'.att 0 v = some w := by
  have hSs := hG.meshes S hS
  have hdim := h.base.dim
  have hd : S.F.T.derefV v = .ok () := Topo.derefV_ok (Topo.alloc_of_live ((hSs.vl.2 v).1 hv))
  obtain ⟨i1, n1, f1, f2⟩ := find_ok hf h (k := 0) (by omega) hv ((hG.dist 0 (by omega)).2 S hS) hp
  unfold ghostV
  rw [hd, Res.bind_ok]
  simp only
  cases hc : (st.find srch S 0 v).2 with
  | some w => exact ⟨_, w, rfl, i1, n1, f1 w hc⟩
  | none =>
    obtain ⟨e1, e2, e3⟩ := f2 hc
    rw [e1]
    dsimp only
    obtain ⟨b1, b2, b3, b4, b5⟩ := h.base.newV hS hSs hv hC e3 (vid := upd st.M.F.vid st.M.F.T.nv (st.M.top 0 + 1)) rfl rfl
    obtain ⟨g1, g2, g3⟩ := h.enter (k := 0) (by omega) hv e2 b1 b2 b4 b3 (st' := st.enter S 0 v st.M.F.T.nv _) rfl rfl rfl rfl
    exact ⟨_, _, rfl, g1, g2, g3⟩

omit hf in
/-- a search changes nothing of other kinds -/
theorem find_same {k v : Nat} {s : QSt D} : ∀ k', k' ≠ k → (s.find srch S k v).1.att k' = s.att k' ∧ (s.find srch S k v).1.M = s.M := by
  intro k' hk
  unfold QSt.find
  cases s.att k v with
  | some w => exact ⟨rfl, rfl⟩
  | none =>
    dsimp only
    cases srch (gid s.M k) (s.old k) (gid S k v) with
    | some w => exact ⟨upd2_ne s.att v (some w) hk, rfl⟩
    | none => exact ⟨rfl, rfl⟩

omit hf in
/-- a vertex changes nothing of other kinds -/
theorem ghostV_same {v : Nat} {s t : QSt D} {w : Nat} (hr : ghostV srch S v s = .ok (t, w)) :
    ∀ k, 1 ≤ k → t.att k = s.att k ∧ t.M.F.list k = s.M.F.list k := by
  intro k hk
  unfold ghostV at hr
  obtain ⟨_, _, hr⟩ := Res.bind_eq_ok.1 hr
  have hfd := find_same (srch := srch) (S := S) (v := v) (s := s) (k := 0) k (by omega)
  simp only at hr
  cases hc' : (s.find srch S 0 v).2 with
  | some w' =>
    rw [hc'] at hr
    simp only [Res.pure_eq, Res.ok.injEq, Prod.mk.injEq] at hr
    rw [← hr.1, hfd.1, hfd.2]; exact ⟨rfl, rfl⟩
  | none =>
    rw [hc'] at hr
    simp only [Res.pure_eq, Res.ok.injEq, Prod.mk.injEq] at hr
    rw [← hr.1]
    refine ⟨?_, ?_⟩
    · exact (upd2_ne (s.find srch S 0 v).1.att v (some (s.find srch S 0 v).1.M.F.T.nv) (show k ≠ 0 by omega)).trans hfd.1
    · rw [← hfd.2]
      match k, hk with
      | 1, _ => rfl
      | 2, _ => rfl
      | 3, _ => rfl
      | k+4, _ => rfl

omit hf in
theorem seg_flip {M : CMesh D} {M' : CMesh D} {x y : Nat} (h : seg M (x, true) = seg M' (y, false)) : seg M (x, false) = seg M' (y, true) := by
  unfold seg at h ⊢
  simp only [Bool.false_eq_true, if_true, if_false, Prod.mk.injEq] at h ⊢
  exact ⟨h.1, h.2.2, h.2.1⟩

omit hf in
theorem seg_same {M : CMesh D} {M' : CMesh D} {x y : Nat} (h : seg M (x, true) = seg M' (y, true)) (d : Bool) : seg M (x, d) = seg M' (y, d) := by
  cases d
  · unfold seg at h ⊢
    simp only [Bool.false_eq_true, if_true, if_false, Prod.mk.injEq] at h ⊢
    exact ⟨h.1, h.2.2, h.2.1⟩
  · exact h

theorem ghostE_ok (hG : Given K M0 subs) (hS : S ∈ subs) {st : QSt D} (h : Inv K M0 subs C S st) {e : Nat} (he : e ∈ S.F.el) (d : Bool)
    (hC : ∀ k x, OfEdge S.F e k x → C S k x) (hp : ∀ k x, OfEdge S.F e k x → Placed M0 S st k x) :
    ∃ st' p, ghostE srch S e d st = .ok (st', p) ∧ Inv K M0 subs C S st' ∧ Next K st st' ∧ p.1 ∈ st'.M.F.el ∧
      seg st'.M p = seg S (e, d) := by
  have hSs := hG.meshes S hS
  have hdim := h.base.dim
  have hlive := (hSs.el.2 e).1 he
  have hd : S.F.T.derefE e = .ok () := Topo.derefE_ok (Topo.alloc_of_live hlive)
  obtain ⟨a, b, hab⟩ := hSs.ends e he
  obtain ⟨ha, hb⟩ := hSs.endsLive he hab
  have hq := (Topo.C49_view hSs.cons).1
  have q0 : S.F.T.meVertex e false = .ok (some a) := by rw [hq e false hlive, hab]; rfl
  have q1 : S.F.T.meVertex e true = .ok (some b) := by rw [hq e true hlive, hab]; rfl
  obtain ⟨i1, n1, f1, f2⟩ := find_ok hf h (k := 1) (by omega) he ((hG.dist 1 (by omega)).2 S hS) (hp 1 e (Or.inl ⟨rfl, rfl⟩))
  unfold ghostE
  rw [hd, Res.bind_ok]
  simp only
  cases hc : (st.find srch S 1 e).2 with
  | some w =>
    obtain ⟨w1, w2, w3⟩ := i1.att 1 e w (by omega) (f1 w hc)
    have hwl := (i1.base.whole.el.2 w).1 w2
    obtain ⟨a', b', hab'⟩ := i1.base.whole.ends w w2
    have q2 : (st.find srch S 1 e).1.M.F.T.meVertex w false = .ok (some a') := by
      rw [(Topo.C49_view i1.base.whole.cons).1 w false hwl, hab']; rfl
    simp only [q2, q0, Res.bind_ok, Res.ofOption_some]
    refine ⟨_, _, rfl, i1, n1, w2, ?_⟩
    have hag := i1.base.agree S hS w w2 e he w3
    have hfirst : ∀ M : CMesh D, ∀ x p q, M.F.T.view.ends x = (some p, some q) →
        seg M (x, true) = (gid M 1 x, some (gid M 0 p), some (gid M 0 q)) ∧
        seg M (x, false) = (gid M 1 x, some (gid M 0 q), some (gid M 0 p)) := by
      intro M x p q hpq
      unfold seg
      simp only [hpq, Option.map_some, if_true, Bool.false_eq_true, if_false, and_self]
    by_cases hg : gid (st.find srch S 1 e).1.M 0 a' ≠ gid S 0 a
    · rw [if_pos hg]
      have hag' : seg (st.find srch S 1 e).1.M (w, true) = seg S (e, false) := by
        rcases hag with hag | hag
        · rw [(hfirst _ _ _ _ hab').1, (hfirst _ _ _ _ hab).1] at hag
          simp only [Prod.mk.injEq, Option.some.injEq] at hag
          exact absurd hag.2.1 hg
        · exact hag
      cases d
      · exact hag'
      · exact seg_flip hag'
    · rw [if_neg hg]
      rw [not_not] at hg
      refine seg_same ?_ d
      rcases hag with hag | hag
      · exact hag
      · rw [(hfirst _ _ _ _ hab').1, (hfirst _ _ _ _ hab).2] at hag
        rw [(hfirst _ _ _ _ hab').1, (hfirst _ _ _ _ hab).1]
        simp only [Prod.mk.injEq, Option.some.injEq] at hag ⊢
        refine ⟨hag.1, hg, ?_⟩
        rw [hag.2.2, ← hag.2.1, hg]
  | none =>
    obtain ⟨e1, e2, e3⟩ := f2 hc
    rw [e1]
    have hoa : OfEdge S.F e 0 a := Or.inr ⟨rfl, Or.inl (by rw [hab])⟩
    have hob : OfEdge S.F e 0 b := Or.inr ⟨rfl, Or.inr (by rw [hab])⟩
    obtain ⟨s1, a', r1, j1, m1, k1⟩ := ghostV_ok hf hG hS h ha (hC 0 a hoa) (hp 0 a hoa)
    obtain ⟨s2, b', r2, j2, m2, k2⟩ := ghostV_ok hf hG hS j1 hb (hC 0 b hob) ((hp 0 b hob).mono m1)
    obtain ⟨_, a1, a2⟩ := j2.att 0 a a' (by omega) (m2.knows _ _ _ k1)
    obtain ⟨_, b1, b2⟩ := j2.att 0 b b' (by omega) k2
    have hnone : s2.att 1 e = none ∧ s2.M.F.el = st.M.F.el := by
      obtain ⟨x1, y1⟩ := ghostV_same r1 1 (by omega)
      obtain ⟨x2, y2⟩ := ghostV_same r2 1 (by omega)
      exact ⟨by rw [x2, x1]; exact e2, y2.trans y1⟩
    obtain ⟨T2, T3, t1, t2, hnew⟩ := j2.base.newE hS hSs he (hG.agree S hS).2 (hC 1 e (Or.inl ⟨rfl, rfl⟩))
      (by
        intro y hy
        rw [hnone.2] at hy
        rw [(m1.trans m2).grows.gid (k := 1) hy]
        exact e3 y hy) hab a1 b1 a2 b2
    simp only [q0, q1, Res.bind_ok, Res.ofOption_some, r1, r2, show s2.M.F.T.meNew.2 = s2.M.F.T.ne from rfl, t1, t2]
    obtain ⟨c1, c2, c3, c4, c5, c6⟩ := hnew (upd s2.M.F.eid s2.M.F.T.ne (s2.M.top 1 + 1)) _ rfl _ rfl
    have hgid := congrArg Prod.fst c3
    obtain ⟨g1, g2, g3⟩ := j2.enter (k := 1) (by omega) he hnone.1 c1 c2 c5 hgid
      (st' := s2.enter S 1 e s2.M.F.T.ne _) rfl rfl rfl rfl
    refine ⟨_, _, rfl, g1, (m1.trans m2).trans g2, (g1.att 1 e _ (by omega) g3).2.1, ?_⟩
    cases d
    · exact c4
    · exact c3

theorem ghostEs_ok (hG : Given K M0 subs) (hS : S ∈ subs) {f : Nat} : ∀ (ps : List (Nat × Bool)) (j : Nat) {st : QSt D}, Inv K M0 subs C S st →
    j + ps.length ≤ 30 → (∀ i q, ps[i]? = some q → S.F.T.mfEdgeDir_i f (j+i) = .ok q.2) → (∀ q ∈ ps, q.1 ∈ S.F.el) →
    (∀ q ∈ ps, ∀ k x, OfEdge S.F q.1 k x → C S k x ∧ Placed M0 S st k x) →
    ∃ st' es, ghostEs srch S f j (ps.map (·.1)) st = .ok (st', es) ∧ Inv K M0 subs C S st' ∧ Next K st st' ∧
      (∀ p ∈ es, p.1 ∈ st'.M.F.el) ∧ es.map (seg st'.M) = ps.map (seg S)
  | [], _, st, h, _, _, _, _ => ⟨st, [], rfl, h, Next.refl _, by simp, rfl⟩
  | q :: ps, j, st, h, hcap, hdir, hok, hpl => by
    rw [List.length_cons] at hcap
    obtain ⟨s1, p, r1, i1, n1, m1, g1⟩ := ghostE_ok hf hG hS h (hok q (by simp)) q.2 (fun k x hx => (hpl q (by simp) k x hx).1)
      (fun k x hx => (hpl q (by simp) k x hx).2)
    obtain ⟨s2, es, r2, i2, n2, m2, g2⟩ := ghostEs_ok hG hS ps (j+1) i1 (by omega)
      (fun i x hx => by rw [Nat.add_assoc, Nat.add_comm 1 i]; exact hdir (i+1) x hx)
      (fun x hx => hok x (List.mem_cons_of_mem _ hx))
      (fun x hx k y hy => ⟨(hpl x (List.mem_cons_of_mem _ hx) k y hy).1, (hpl x (List.mem_cons_of_mem _ hx) k y hy).2.mono n1⟩)
    rw [List.map_cons]
    unfold ghostEs
    rw [if_neg (by omega), show S.F.T.mfEdgeDir_i f j = Res.ok q.2 from hdir 0 q rfl, Res.bind_ok, r1, Res.bind_ok, r2, Res.bind_ok]
    refine ⟨s2, p :: es, rfl, i2, n1.trans n2, ?_, ?_⟩
    · intro x hx
      rcases List.mem_cons.1 hx with rfl | hx
      · exact n2.grows.mem (k := 1) m1
      · exact m2 x hx
    · rw [List.map_cons, List.map_cons, g2, n2.grows.seg i1.base.whole m1, g1]

/-- A face of a mesh received: nothing, or a ghost. -/
theorem concatF_ok (hG : Given 2 M0 subs) (hS : S ∈ subs) {st : QSt D} (h : Inv 2 M0 subs C S st) {f : Nat} (hfl : f ∈ S.F.fl)
    (hC : Hit M0 S f → ∀ k x, OfFace S.F f k x → C S k x) :
    ∃ st', concatF srch (border M0) S f st = .ok st' ∧ Inv 2 M0 subs C S st' ∧ Grows 2 st.M st'.M ∧ st'.old = st.old ∧
      ((¬ Hit M0 S f ∧ st'.M.F.fl = st.M.F.fl) ∨
        (Hit M0 S f ∧ ∃ l, l ∉ st.M.F.fl ∧ st'.M.F.fl = st.M.F.fl ++ [l] ∧ GhostF st'.M S l f)) := by
  have hSs := hG.meshes S hS
  have hdim := h.base.dim
  have hlive := (hSs.fl.2 f).1 hfl
  obtain ⟨vs, hvs⟩ := hG.loops S hS f hfl
  have hq := Topo.C23_vertices hlive hvs true
  simp only [if_true] at hq
  obtain ⟨l, hfe, _, hclosed⟩ := hvs.edgesOf hSs.cons hlive
  have hvmem : ∀ v, v ∈ vs ↔ OfFace S.F f 0 v := by
    intro v
    constructor
    · intro hv
      obtain ⟨p, hp1, hp2⟩ := hclosed.vertex_edge hv
      refine Or.inr ⟨p, hp1, Or.inr ⟨rfl, ?_⟩⟩
      obtain ⟨a, b, hab⟩ := hSs.ends p.1 (hSs.edgesLive hfl hp1)
      have hab' : S.F.T.ev p.1 = (some a, some b) := hab
      rw [hab]
      unfold Topo.ends at hp2
      rw [hab'] at hp2
      simpa [eq_comm] using hp2
    · rintro (⟨h0, _⟩ | ⟨p, hp, ⟨h0, _⟩ | ⟨_, hv⟩⟩)
      · exact absurd h0 (by omega)
      · exact absurd h0 (by omega)
      · refine hclosed.edge_vertex hp ?_
        obtain ⟨a, b, hab⟩ := hSs.ends p.1 (hSs.edgesLive hfl hp)
        have hab' : S.F.T.ev p.1 = (some a, some b) := hab
        rw [hab] at hv
        unfold Topo.ends
        rw [hab']
        simpa [eq_comm] using hv
  have hvl : ∀ v ∈ vs, v ∈ S.F.vl := by
    intro v hv
    rcases (hvmem v).1 hv with ⟨h0, _⟩ | ⟨p, hp, ⟨h0, _⟩ | ⟨_, hv⟩⟩
    · exact absurd h0 (by omega)
    · exact absurd h0 (by omega)
    · have hpl := hSs.edgesLive hfl hp
      obtain ⟨a, b, hab⟩ := hSs.ends p.1 hpl
      obtain ⟨ha, hb⟩ := hSs.endsLive hpl hab
      rw [hab] at hv
      rcases hv with hv | hv
      · injection hv with hv; rw [← hv]; exact ha
      · injection hv with hv; rw [← hv]; exact hb
  obtain ⟨s1, b, r1, i1, n1, e1, p1⟩ := matchVs_ok hf hG hS vs h hvl
  obtain ⟨q1, q2⟩ := edges_ask hSs hfl
  have h30 := hG.short S hS f hfl
  obtain ⟨s2, r2, i2, n2, p2⟩ := matchEs_ok hf hG hS ((S.F.T.view.edges f).map (·.1)) i1 (by
    intro e he
    obtain ⟨p, hp, rfl⟩ := List.mem_map.1 he
    exact hSs.edgesLive hfl hp)
  have hhit : b = true ↔ Hit M0 S f := by
    rw [e1]
    constructor
    · rintro ⟨v, hv, w, hw, hg⟩
      exact ⟨v, (hvmem v).1 hv, w, (mem_border.1 hw).1, (mem_border.1 hw).2, hg⟩
    · rintro ⟨v, hv, w, hw, hp, hg⟩
      exact ⟨v, (hvmem v).2 hv, w, mem_border.2 ⟨hw, hp⟩, hg⟩
  unfold concatF
  simp only [hq, q1, Res.bind_ok, r1, r2]
  by_cases hb : b = true
  · rw [if_pos hb]
    have hH := hhit.1 hb
    obtain ⟨s3, es, r3, i3, n3, m3, g3⟩ := ghostEs_ok hf hG hS (f := f) (S.F.T.view.edges f) 0 i2 (by omega)
      (fun i q hq => by rw [Nat.zero_add]; exact q2 h30 i q hq) (fun q hq => hSs.edgesLive hfl hq)
      (by
        intro q hq k x hx
        refine ⟨hC hH k x (Or.inr ⟨q, hq, hx⟩), ?_⟩
        rcases hx with ⟨rfl, rfl⟩ | ⟨rfl, hx⟩
        · exact p2 q.1 (List.mem_map_of_mem hq)
        · exact (p1 x ((hvmem x).2 (Or.inr ⟨q, hq, Or.inr ⟨rfl, hx⟩⟩))).mono n2)
    obtain ⟨M', k1, k2, k3, k4, k5, k6⟩ := i3.base.newF hS hSs hfl (fun h => nomatch h) (fun h => nomatch h) (fun h => nomatch h) m3 g3
    simp only [r3, Res.bind_ok, k1]
    have hn := (n1.trans n2).trans n3
    refine ⟨_, rfl, ⟨k2.ignore (fun k hk => by show _ = upd _ 2 _ k; rw [upd_ne _ _ (show k ≠ 2 by omega)]), ?_, i3.ghosts⟩, hn.grows.trans k3, hn.old, Or.inr ⟨hH, s3.M.F.T.nf, ?_, ?_, k4⟩⟩
    · intro k x y hk hx
      obtain ⟨h1, h2, h3⟩ := i3.att k x y hk hx
      exact ⟨h1, k3.mem h2, (k3.gid h2).trans h3⟩
    · show s3.M.F.T.nf ∉ st.M.F.list 2
      rw [← hn.top]; exact k6
    · show M'.F.list 2 = st.M.F.list 2 ++ _
      rw [k5, upd_same, ← hn.top]
  · rw [if_neg hb]
    have hn := n1.trans n2
    exact ⟨_, rfl, i2, hn.grows, hn.old, Or.inl ⟨fun hH => hb (hhit.2 hH), hn.top⟩⟩

end

end Cat
end MSTK
