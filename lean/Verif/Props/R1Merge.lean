import Verif.R1MergeModel
import Verif.Props.R1Ent
import Verif.Props.R4
import Verif.Props.Merge
/-!
C99: merging two vertices in the reduced representations.
-/
namespace MSTK.R1M

/-! ### Specification -/

/-- the one vertex in place of the other -/
def swapped (v1 v2 : Nat) (vs : List Nat) : List Nat := vs.map fun x => if x = v2 then v1 else x

/-- The mesh before and after `v2` was merged into `v1`: each region that is there has `v1` in place of `v2`
and everything else stays, in the same order; `v2` is deleted; no other vertex and no region is. -/
structure VertsMerged (M M' : Made) (k : Known) (v1 v2 : Nat) : Prop where
  verts : ∀ r vs, k.alive r = true → k.verts r = some vs → mrVertices M'.m r = .ok (swapped v1 v2 vs)
  gone : M'.m.sv v2 = .kept
  others : ∀ v, v ≠ v2 → M'.m.sv v = M.m.sv v
  regions : M'.m.sr = M.m.sr

/-- every mesh set before and after -/
def SetsMerged (v1 v2 : Nat) (S S' : List (List Nat)) : Prop :=
  S'.length = S.length ∧ ∀ (i : Nat) (s : List Nat), S[i]? = some s → s.Nodup →
    ∃ s', S'[i]? = some s' ∧ Topo.MergedSet v1 v2 s s'

/-! ### Proofs -/

theorem replace1_absent {v w : Nat} : ∀ {l : List Nat}, v ∉ l → replace1 v w l = l
  | [], _ => rfl
  | x :: xs, h => by
    rw [replace1, if_neg (fun he => h (by rw [he]; exact List.mem_cons_self ..)),
      replace1_absent (fun hm => h (List.mem_cons_of_mem _ hm))]

theorem swapped_absent {v1 v2 : Nat} {l : List Nat} (h : v2 ∉ l) : swapped v1 v2 l = l := by
  unfold swapped
  conv => rhs; rw [← List.map_id l]
  apply List.map_congr_left
  intro x hx
  rw [if_neg (by rintro rfl; exact h hx)]; rfl

theorem replace1_swapped {v w : Nat} : ∀ {l : List Nat}, l.Nodup → replace1 v w l = swapped w v l
  | [], _ => rfl
  | x :: xs, h => by
    obtain ⟨h1, h2⟩ := List.nodup_cons.1 h
    rw [replace1]
    by_cases he : v = x
    · subst he
      rw [if_pos rfl]
      have := swapped_absent (v1 := w) h1
      unfold swapped at this ⊢
      rw [List.map_cons, if_pos rfl, this]
    · rw [if_neg he, replace1_swapped h2]
      unfold swapped
      rw [List.map_cons, if_neg (Ne.symm he)]

theorem replaceInFaces_ok {v w : Nat} : ∀ (l : List Nat) (m : Mesh1),
    (∀ f ∈ l, m.sf f = .live ∧ m.fv f ≠ none) →
    ∃ fv, replaceInFaces v w l m = .ok { m with fv := fv } ∧ ∀ f, f ∉ l → fv f = m.fv f
  | [], m, _ => ⟨m.fv, rfl, fun _ _ => rfl⟩
  | f :: l, m, h => by
    obtain ⟨h1, h2⟩ := h f (List.mem_cons_self ..)
    obtain ⟨fs, hfs⟩ := Option.ne_none_iff_exists'.1 h2
    obtain ⟨fv, hr, hk⟩ := replaceInFaces_ok (v := v) (w := w) l
      { m with fv := upd m.fv f (some (replace1 v w fs)) } (by
        intro g hg
        refine ⟨(h g (List.mem_cons_of_mem _ hg)).1, ?_⟩
        show upd m.fv f _ g ≠ none
        by_cases hgf : g = f
        · subst hgf; rw [upd_same]; exact Option.some_ne_none _
        · rw [upd_ne _ _ hgf]; exact (h g (List.mem_cons_of_mem _ hg)).2)
    refine ⟨fv, ?_, fun g hg => ?_⟩
    · rw [replaceInFaces, replaceInFace, derefF_live h1, Res.bind_ok, hfs, Res.ofOption_some, Res.bind_ok,
        Res.pure_eq, Res.bind_ok, hr]
    · rw [List.mem_cons, not_or] at hg
      rw [hk g hg.2]
      exact upd_ne _ _ hg.1

theorem replaceInRegions_ok {v w : Nat} : ∀ (l : List Nat) (m : Mesh1), l.Nodup →
    (∀ r ∈ l, m.sr r = .live ∧ m.rv r ≠ none) →
    ∃ rv, replaceInRegions v w l m = .ok { m with rv := rv } ∧ (∀ r, r ∉ l → rv r = m.rv r) ∧
      ∀ r ∈ l, rv r = (m.rv r).map (replace1 v w)
  | [], m, _, _ => ⟨m.rv, rfl, fun _ _ => rfl, fun _ h => absurd h List.not_mem_nil⟩
  | r :: l, m, hn, h => by
    obtain ⟨h1, h2⟩ := h r (List.mem_cons_self ..)
    obtain ⟨hnot, hn'⟩ := List.nodup_cons.1 hn
    obtain ⟨vs, hvs⟩ := Option.ne_none_iff_exists'.1 h2
    have hne : ∀ g ∈ l, g ≠ r := by rintro g hg rfl; exact hnot hg
    obtain ⟨rv, hr, hk, hc⟩ := replaceInRegions_ok (v := v) (w := w) l
      { m with rv := upd m.rv r (some (replace1 v w vs)) } hn' (by
        intro g hg
        refine ⟨(h g (List.mem_cons_of_mem _ hg)).1, ?_⟩
        show upd m.rv r _ g ≠ none
        rw [upd_ne _ _ (hne g hg)]; exact (h g (List.mem_cons_of_mem _ hg)).2)
    refine ⟨rv, ?_, fun g hg => ?_, fun g hg => ?_⟩
    · rw [replaceInRegions, replaceVertex, deref_live h1, Res.bind_ok, hvs, Res.ofOption_some, Res.bind_ok,
        Res.pure_eq, Res.bind_ok, hr]
    · rw [List.mem_cons, not_or] at hg
      rw [hk g hg.2]
      exact upd_ne _ _ hg.1
    · rcases List.mem_cons.1 hg with rfl | hg
      · rw [hk g hnot, hvs]
        exact upd_same _ _ _
      · rw [hc g hg]
        show (upd m.rv r _ g).map _ = _
        rw [upd_ne _ _ (hne g hg)]

theorem null_getD (l : List Nat) : (listOrNull l).getD [] = l := by
  unfold listOrNull
  split
  · rename_i h; rw [h]; rfl
  · rfl

theorem sets_ok {v1 v2 : Nat} (hne : v1 ≠ v2) (S : List (List Nat)) :
    SetsMerged v1 v2 S (S.map (Topo.mergeInSet v1 v2)) := by
  refine ⟨List.length_map .., fun i s hs hn => ⟨Topo.mergeInSet v1 v2 s, ?_, Topo.C30_sets hne hn⟩⟩
  rw [List.getElem?_map, hs]; rfl

/-- what the call does -/
theorem merge_run {k : Known} {M : Made} (hM : Reach k M) {v1 v2 : Nat} (hv1 : k.vert v1 = true)
    (hv2 : k.vert v2 = true) (hs : StandardAt k v2) (S : List (List Nat)) {topoflag : Bool}
    {cls : Nat → Int × Int} (hc : topoflag = true → cls v1 = cls v2) :
    ∃ M', mvsMerge M S topoflag cls v1 v2 = .ok (M', some (S.map (Topo.mergeInSet v1 v2))) ∧
      M'.m.sv = upd M.m.sv v2 .kept ∧ M'.m.ve = M.m.ve ∧ M'.m.sr = M.m.sr ∧
      (∀ r, r ∉ M.m.ve v2 → M'.m.rv r = M.m.rv r) ∧
      (∀ r ∈ M.m.ve v2, M'.m.rv r = (M.m.rv r).map (replace1 v2 v1)) ∧
      (∀ e, M.ev e ≠ none → M'.ev e = M.ev e) ∧
      ∀ f, M.m.sf f ≠ .unused → M'.m.sf f = M.m.sf f ∧ M'.m.fv f = M.m.fv f := by
  have h := reach_holds hM
  have hl1 : M.m.sv v1 = .live := h.inv.vlive hv1
  have hl2 : M.m.sv v2 = .live := h.inv.vlive hv2
  obtain ⟨X, l, hX, hF⟩ := vertFaces_ok h hv2 hs
  obtain ⟨fv, hR, hRk⟩ := replaceInFaces_ok (v := v2) (w := v1) l X.m (fun f hf => by
    obtain ⟨fs, h1, _⟩ := hF.right f hf
    exact ⟨(hF.fresh f hf).2, by rw [h1]; exact Option.some_ne_none _⟩)
  have hve := h.inv.ve v2
  have hsr : ∀ r ∈ M.m.ve v2, M.m.sr r = .live := fun r hr => h.inv.live ((hve r).1 hr).1
  have hrv : ∀ r ∈ M.m.ve v2, M.m.rv r ≠ none := fun r hr => by
    obtain ⟨vs, h1, _⟩ := ((hve r).1 hr).2
    rw [h.rv, h1]; exact Option.some_ne_none _
  have hreg : mvRegions { X.m with fv := fv } v2 = .ok (listOrNull (M.m.ve v2)) := by
    obtain ⟨h1, _⟩ := regionsIn_ok (M := { X.m with fv := fv }) (M.m.ve v2) (fun r hr => by
      show X.m.sr r = .live
      rw [hF.keeps.sr]; exact hsr r hr)
    unfold mvRegions
    rw [deref_live (show X.m.sv v2 = .live by rw [hF.keeps.sv]; exact hl2), Res.bind_ok]
    show (do let l ← regionsIn _ (X.m.ve v2); pure _) = _
    rw [hF.keeps.ve, h1, Res.bind_ok, null_eq]; rfl
  obtain ⟨rv, hQ, hQk, hQc⟩ := replaceInRegions_ok (v := v2) (w := v1) (M.m.ve v2) { X.m with fv := fv }
    (h.inv.nodup v2) (fun r hr => ⟨by show X.m.sr r = .live; rw [hF.keeps.sr]; exact hsr r hr,
      by show X.m.rv r ≠ none; rw [hF.keeps.rv]; exact hrv r hr⟩)
  refine ⟨{ X with m := { X.m with fv := fv, rv := rv, sv := upd X.m.sv v2 .kept } }, ?_,
    ?_, hF.keeps.ve, hF.keeps.sr, ?_, ?_, hF.keeps.ev, ?_⟩
  · unfold mvsMerge
    rw [deref_live hl1, Res.bind_ok, deref_live hl2, Res.bind_ok,
      if_neg (show ¬ (topoflag = true ∧ cls v1 ≠ cls v2) from fun hx => hx.2 (hc hx.1)), hX, Res.bind_ok]
    dsimp only
    rw [null_getD, hR, Res.bind_ok, hreg, Res.bind_ok, null_getD, hQ, Res.bind_ok, keepVertex,
      deref_live (show X.m.sv v2 = .live by rw [hF.keeps.sv]; exact hl2)]
    rfl
  · show upd X.m.sv v2 .kept = _
    rw [hF.keeps.sv]
  · intro r hr
    show rv r = _
    rw [hQk r hr]
    show X.m.rv r = _
    rw [hF.keeps.rv]
  · intro r hr
    show rv r = _
    rw [hQc r hr]
    show (X.m.rv r).map _ = _
    rw [hF.keeps.rv]
  · intro f hf
    refine ⟨(hF.keeps.face f hf).1, ?_⟩
    show fv f = _
    rw [hRk f (fun hm => hf (hF.fresh f hm).1)]
    exact (hF.keeps.face f hf).2

/-! ### Properties -/

/-- **C99, in part.** In `R1`, for every mesh made through the interface whose regions at the second vertex
are standard elements: the call succeeds, the regions and the sets have the first vertex in place of the
second.  Missing: what the first vertex answers afterwards (`C99_negation_regions`) and the edges and faces
in the hands of the caller (`C99_negation_made`). -/
theorem C99_merge_partial (k : Known) (M : Made) (hM : Reach k M) (v1 v2 : Nat) (hv1 : k.vert v1 = true)
    (hv2 : k.vert v2 = true) (hne : v1 ≠ v2) (hs : StandardAt k v2) (S : List (List Nat)) (topoflag : Bool)
    (cls : Nat → Int × Int) (hc : topoflag = true → cls v1 = cls v2) :
    ∃ M' S', mvsMerge M S topoflag cls v1 v2 = .ok (M', some S') ∧ VertsMerged M M' k v1 v2 ∧
      SetsMerged v1 v2 S S' := by
  have h := reach_holds hM
  obtain ⟨M', h1, hsv, _, hsr, hk, hch, _, _⟩ := merge_run hM hv1 hv2 hs S hc
  refine ⟨M', _, h1, ⟨fun r vs ha hvs => ?_, ?_, fun v hv => ?_, hsr⟩, sets_ok hne S⟩
  · have hl : M.m.sr r = .live := h.inv.live ha
    unfold mrVertices
    rw [deref_live (by rw [hsr]; exact hl), Res.bind_ok]
    by_cases hm : v2 ∈ vs
    · obtain ⟨ws, hw, _, hnd⟩ := hs r ha ⟨vs, hvs, hm⟩
      rw [hvs] at hw
      cases hw
      rw [hch r ((h.inv.ve v2 r).2 ⟨ha, vs, hvs, hm⟩), h.rv, hvs]
      show Res.ofOption (some (replace1 v2 v1 vs)) = _
      rw [replace1_swapped hnd]; rfl
    · rw [hk r (fun hx => by
        obtain ⟨ws, hw, hm'⟩ := ((h.inv.ve v2 r).1 hx).2
        rw [hvs] at hw
        cases hw
        exact hm hm'), h.rv, hvs, swapped_absent hm]
      rfl
  · rw [hsv, upd_same]
  · rw [hsv, upd_ne _ _ hv]

/-- **C99.** When the caller asks for it, vertices of different model entities are not merged, and nothing
is changed. -/
theorem C99_refused (k : Known) (M : Made) (hM : Reach k M) (v1 v2 : Nat) (hv1 : k.vert v1 = true)
    (hv2 : k.vert v2 = true) (S : List (List Nat)) (cls : Nat → Int × Int) (hc : cls v1 ≠ cls v2) :
    mvsMerge M S true cls v1 v2 = .ok (M, none) := by
  have h := reach_holds hM
  unfold mvsMerge
  rw [deref_live (show M.m.sv v1 = .live from h.inv.vlive hv1), Res.bind_ok,
    deref_live (show M.m.sv v2 = .live from h.inv.vlive hv2), Res.bind_ok,
    if_pos (show true = true ∧ cls v1 ≠ cls v2 from ⟨rfl, hc⟩)]
  rfl

/-- **C99, negation.** The first vertex does not learn of the regions of the second: it answers the same
regions as before, so those that had only the second are not among them, although they use the first now. -/
theorem C99_negation_regions (k : Known) (M : Made) (hM : Reach k M) (v1 v2 : Nat) (hv1 : k.vert v1 = true)
    (hv2 : k.vert v2 = true) (hne : v1 ≠ v2) (hs : StandardAt k v2) (S : List (List Nat)) (topoflag : Bool)
    (cls : Nat → Int × Int) (hc : topoflag = true → cls v1 = cls v2) :
    ∃ M' S', mvsMerge M S topoflag cls v1 v2 = .ok (M', some S') ∧ mvRegions M'.m v1 = mvRegions M.m v1 ∧
      ∀ r, k.alive r = true → k.Has r v2 → ¬ k.Has r v1 → mrUsesVertex M'.m r v1 = .ok true ∧
        ∃ o, mvRegions M'.m v1 = .ok o ∧ r ∉ o.getD [] := by
  have h := reach_holds hM
  obtain ⟨M', h1, hsv, hve, hsr, hk, hch, _, _⟩ := merge_run hM hv1 hv2 hs S hc
  have hreg : mvRegions M'.m v1 = .ok (listOrNull (M.m.ve v1)) := by
    obtain ⟨h2, _⟩ := regionsIn_ok (M := M'.m) (M.m.ve v1) (fun r hr => by
      rw [hsr]; exact h.inv.live ((h.inv.ve v1 r).1 hr).1)
    unfold mvRegions
    rw [deref_live (show M'.m.sv v1 = .live by rw [hsv, upd_ne _ _ hne]; exact h.inv.vlive hv1), Res.bind_ok, hve,
      h2, Res.bind_ok, null_eq]; rfl
  refine ⟨M', _, h1, by rw [hreg, h.regions hv1], fun r ha h2 hn1 => ⟨?_, _, hreg, ?_⟩⟩
  · obtain ⟨vs, hvs, hm⟩ := h2
    obtain ⟨ws, hw, _, hnd⟩ := hs r ha ⟨vs, hvs, hm⟩
    rw [hvs] at hw
    cases hw
    have hl : M.m.sr r = .live := h.inv.live ha
    unfold mrUsesVertex
    rw [deref_live (by rw [hsr]; exact hl), Res.bind_ok,
      hch r ((h.inv.ve v2 r).2 ⟨ha, vs, hvs, hm⟩), h.rv, hvs]
    show Res.ok (decide (v1 ∈ replace1 v2 v1 vs)) = _
    rw [replace1_swapped hnd, decide_eq_true]
    exact List.mem_map.2 ⟨v2, hm, if_pos rfl⟩
  · rw [null_getD]
    intro hm
    exact hn1 ((h.inv.ve v1 r).1 hm).2

/-- **C99, negation.** Edges and faces that were made before keep the vertex that was deleted. -/
theorem C99_negation_made (k : Known) (M : Made) (hM : Reach k M) (v1 v2 : Nat) (hv1 : k.vert v1 = true)
    (hv2 : k.vert v2 = true) (hs : StandardAt k v2) (S : List (List Nat)) (topoflag : Bool)
    (cls : Nat → Int × Int) (hc : topoflag = true → cls v1 = cls v2) :
    ∃ M' S', mvsMerge M S topoflag cls v1 v2 = .ok (M', some S') ∧ M'.m.sv v2 = .kept ∧
      (∀ e a, Joins M e v2 a → Joins M' e v2 a) ∧
      ∀ f fs, M.m.sf f = .live → M.m.fv f = some fs → M'.m.sf f = .live ∧ M'.m.fv f = some fs := by
  obtain ⟨M', h1, hsv, _, _, _, _, he, hf⟩ := merge_run hM hv1 hv2 hs S hc
  refine ⟨M', _, h1, by rw [hsv, upd_same], fun e a hj => ?_, fun f fs hl hv => ?_⟩
  · have hne : M.ev e ≠ none := by
      rcases hj with h | h <;> rw [h] <;> exact Option.some_ne_none _
    unfold Joins at hj ⊢
    rw [he e hne]; exact hj
  · obtain ⟨h2, h3⟩ := hf f (by rw [hl]; decide)
    exact ⟨h2.trans hl, h3.trans hv⟩

/-- **C99, negation.** A region that has both vertices has the first one twice afterwards, and remains of the
kind it was. -/
theorem C99_negation_both (k : Known) (M : Made) (hM : Reach k M) (v1 v2 : Nat) (hv1 : k.vert v1 = true)
    (hv2 : k.vert v2 = true) (hne : v1 ≠ v2) (hs : StandardAt k v2) (S : List (List Nat)) (topoflag : Bool)
    (cls : Nat → Int × Int) (hc : topoflag = true → cls v1 = cls v2) (r : Nat) (vs : List Nat)
    (ha : k.alive r = true) (hvs : k.verts r = some vs) (h1 : v1 ∈ vs) (h2 : v2 ∈ vs) :
    ∃ M' S' ws, mvsMerge M S topoflag cls v1 v2 = .ok (M', some S') ∧ mrVertices M'.m r = .ok ws ∧
      ws.length = vs.length ∧ ¬ ws.Nodup := by
  obtain ⟨M', S', hr, hm, _⟩ := C99_merge_partial k M hM v1 v2 hv1 hv2 hne hs S topoflag cls hc
  refine ⟨M', S', _, hr, hm.verts r vs ha hvs, List.length_map .., fun hn => ?_⟩
  obtain ⟨i, hi, ei⟩ := List.mem_iff_getElem.1 h1
  obtain ⟨j, hj, ej⟩ := List.mem_iff_getElem.1 h2
  have hij : i ≠ j := by
    rintro rfl
    exact hne (ei.symm.trans ej)
  refine hij ((List.Nodup.getElem_inj_iff hn (hi := by rw [swapped, List.length_map]; exact hi)
    (hj := by rw [swapped, List.length_map]; exact hj)).1 ?_)
  unfold swapped
  rw [List.getElem_map, List.getElem_map, ei, ej, if_neg hne, if_pos rfl]

/-- a tet on top of a hex that share nothing yet: vertex 8 of the tet is merged into vertex 4 of the hex -/
def apart : List Op :=
  (List.range 12).map .newV ++
  [.newR 0, .setR 0 [0, 1, 2, 3, 4, 5, 6, 7] [], .newR 1, .setR 1 [8, 9, 10, 11] [], .newF 0, .setF 0 [8, 9, 10]]

example : Legal nothing apart ∧
    (do let M ← afresh apart
        let x ← mvsMerge M [[3, 8], [4, 8], [5]] true (fun _ => (3, 1)) 4 8
        pure ([← mrVertices x.1.m 0, ← mrVertices x.1.m 1], [← mvRegions x.1.m 4, x.1.m.fv 0], x.2)) =
      .ok ([[0, 1, 2, 3, 4, 5, 6, 7], [4, 9, 10, 11]], [some [0], some [8, 9, 10]], some [[3, 4], [4], [5]]) := by
  decide +kernel

/-- the theorems speak about this mesh -/
example : ∃ M, Reach (apart.foldl note nothing) M ∧ (apart.foldl note nothing).vert 4 = true ∧
    (apart.foldl note nothing).vert 8 = true ∧ StandardAt (apart.foldl note nothing) 8 ∧
    (apart.foldl note nothing).alive 1 = true ∧ (apart.foldl note nothing).Has 1 8 := by
  have hok : ∃ M, run empty apart = .ok M := by
    obtain ⟨M, hM, _⟩ := run_inv apart inv_empty (by decide +kernel)
    exact ⟨M, hM⟩
  obtain ⟨M, hM⟩ := hok
  refine ⟨_, .start apart M 1 (by decide +kernel) hM ?_, by decide +kernel, by decide +kernel, ?_,
    by decide +kernel, [8, 9, 10, 11], rfl, by decide⟩
  · intro f hf
    show upd (fun _ => false) 0 true f = false
    rw [upd_ne _ _ (by omega)]
  · intro r ha _
    have ha' : upd (upd (fun _ => false) 0 true) 1 true r = true := ha
    by_cases h1 : r = 1
    · subst h1; exact ⟨[8, 9, 10, 11], rfl, rfl, by decide⟩
    · by_cases h0 : r = 0
      · subst h0; exact ⟨[0, 1, 2, 3, 4, 5, 6, 7], rfl, rfl, by decide⟩
      · rw [upd_ne _ _ h1, upd_ne _ _ h0] at ha'; cases ha'

end MSTK.R1M

namespace MSTK.R4M

open R1M (deref deref_live deref_ok replace1 replace1_swapped swapped swapped_absent SetsMerged sets_ok)

theorem replaceInFaces_ok {v w : Nat} : ∀ (l : List Nat) (M : Mesh4), l.Nodup →
    (∀ f ∈ l, M.sf f = .live ∧ M.fv f ≠ none) →
    ∃ fv, replaceInFaces v w l M = .ok { M with fv := fv } ∧ (∀ f, f ∉ l → fv f = M.fv f) ∧
      ∀ f ∈ l, fv f = (M.fv f).map (replace1 v w)
  | [], M, _, _ => ⟨M.fv, rfl, fun _ _ => rfl, fun _ h => absurd h List.not_mem_nil⟩
  | f :: l, M, hn, h => by
    obtain ⟨h1, h2⟩ := h f (List.mem_cons_self ..)
    obtain ⟨hnot, hn'⟩ := List.nodup_cons.1 hn
    obtain ⟨vs, hvs⟩ := Option.ne_none_iff_exists'.1 h2
    have hne : ∀ g ∈ l, g ≠ f := by rintro g hg rfl; exact hnot hg
    obtain ⟨fv, hr, hk, hc⟩ := replaceInFaces_ok (v := v) (w := w) l
      { M with fv := upd M.fv f (some (replace1 v w vs)) } hn' (by
        intro g hg
        refine ⟨(h g (List.mem_cons_of_mem _ hg)).1, ?_⟩
        show upd M.fv f _ g ≠ none
        rw [upd_ne _ _ (hne g hg)]; exact (h g (List.mem_cons_of_mem _ hg)).2)
    refine ⟨fv, ?_, fun g hg => ?_, fun g hg => ?_⟩
    · rw [replaceInFaces, replaceInFace, deref_live h1, Res.bind_ok, hvs, Res.ofOption_some, Res.bind_ok,
        Res.pure_eq, Res.bind_ok, hr]
    · rw [List.mem_cons, not_or] at hg
      rw [hk g hg.2]
      exact upd_ne _ _ hg.1
    · rcases List.mem_cons.1 hg with rfl | hg
      · rw [hk g hnot, hvs]
        exact upd_same _ _ _
      · rw [hc g hg]
        show (upd M.fv f _ g).map _ = _
        rw [upd_ne _ _ (hne g hg)]

/-- **C99, in part.** In `R4`, for every mesh made through the interface: the call succeeds, the sets have the
first vertex in place of the second, the second is deleted, and the faces that were deleted and restored
have the first in place of the second.  All other faces stay as they were, `C99_negation_r4`. -/
theorem C99_r4_partial (ops : List Op) (hl : Legal nothing ops) (v1 v2 : Nat)
    (hv1 : (ops.foldl note nothing).vert v1 = true) (hv2 : (ops.foldl note nothing).vert v2 = true)
    (hne : v1 ≠ v2) (S : List (List Nat)) (topoflag : Bool) (cls : Nat → Int × Int)
    (hc : topoflag = true → cls v1 = cls v2) :
    ∃ M M' S', run empty ops = .ok M ∧ mvsMerge M S topoflag cls v1 v2 = .ok (M', some S') ∧
      SetsMerged v1 v2 S S' ∧ M'.sv v2 = .kept ∧ (∀ v, v ≠ v2 → M'.sv v = M.sv v) ∧
      M'.sf = M.sf ∧ M'.sr = M.sr ∧ M'.rf = M.rf ∧ M'.fr = M.fr ∧
      ∀ f vs, (ops.foldl note nothing).fverts f = some vs → vs.Nodup →
        M'.fv f = some (if (ops.foldl note nothing).back f = true then swapped v1 v2 vs else vs) := by
  obtain ⟨M, hM, h⟩ := run_inv ops inv_empty hl
  have hl1 := h.vlive hv1
  have hl2 := h.vlive hv2
  obtain ⟨fv, hr, hk, hch⟩ := replaceInFaces_ok (v := v2) (w := v1) (M.vf v2) M (h.nodup v2) (fun f hf => by
    obtain ⟨hb, _⟩ := (h.vf v2 f).1 hf
    obtain ⟨ha, hn⟩ := h.backed f hb
    refine ⟨?_, by rw [h.fv]; exact hn⟩
    rw [h.sf, h.hasFace hn, ha]; rfl)
  refine ⟨M, { M with fv := fv, sv := upd M.sv v2 .kept }, _, hM, ?_, sets_ok hne S, upd_same _ _ _,
    fun v hv => upd_ne _ _ hv, rfl, rfl, rfl, rfl, ?_⟩
  · unfold mvsMerge
    rw [deref_live hl1, Res.bind_ok, deref_live hl2, Res.bind_ok,
      if_neg (show ¬ (topoflag = true ∧ cls v1 ≠ cls v2) from fun hx => hx.2 (hc hx.1)), mvFaces, deref_live hl2,
      Res.bind_ok, Res.pure_eq, Res.bind_ok, hr]
    rfl
  · intro f vs hvs hnd
    show fv f = _
    by_cases hm : f ∈ M.vf v2
    · obtain ⟨hb, _⟩ := (h.vf v2 f).1 hm
      rw [hch f hm, h.fv, hvs, if_pos hb]
      show some (replace1 v2 v1 vs) = _
      rw [replace1_swapped hnd]
    · rw [hk f hm, h.fv, hvs]
      split
      · rename_i hb
        rw [swapped_absent]
        intro hx
        exact hm ((h.vf v2 f).2 ⟨hb, by unfold Known.Has; rw [hvs]; exact hx⟩)
      · rfl

/-- **C99, negation.** In `R4`, unless a face was deleted and restored, no face is changed: every face that
uses the second vertex uses it still, after it was deleted, and none uses the first that did not before. -/
theorem C99_negation_r4 (ops : List Op) (hl : Legal nothing ops) (hn : ∀ f, Op.resF f ∉ ops) (v1 v2 : Nat)
    (hv1 : (ops.foldl note nothing).vert v1 = true) (hv2 : (ops.foldl note nothing).vert v2 = true)
    (S : List (List Nat)) (topoflag : Bool) (cls : Nat → Int × Int) (hc : topoflag = true → cls v1 = cls v2) :
    ∃ M M' S', run empty ops = .ok M ∧ mvsMerge M S topoflag cls v1 v2 = .ok (M', some S') ∧
      M'.sv v2 = .kept ∧ ∀ f v, mfUsesVertex M' f v = mfUsesVertex M f v := by
  obtain ⟨M, hM, hf, _, _⟩ := C95_negation_vertices ops hl hn v2 hv2
  obtain ⟨M0, hM0, h⟩ := run_inv ops inv_empty hl
  rw [hM] at hM0
  cases hM0
  refine ⟨M, { M with sv := upd M.sv v2 .kept }, S.map (Topo.mergeInSet v1 v2), hM, ?_, upd_same _ _ _, fun f v => rfl⟩
  unfold mvsMerge
  rw [deref_live (h.vlive hv1), Res.bind_ok, deref_live (h.vlive hv2), Res.bind_ok,
    if_neg (show ¬ (topoflag = true ∧ cls v1 ≠ cls v2) from fun hx => hx.2 (hc hx.1)), hf, Res.bind_ok]
  rfl

/-- face 0 of two tets keeps vertex 0 when it is merged into vertex 3, face 1, which was restored, does not -/
example : ∃ M, run empty twoTets = .ok M ∧
    (match mvsMerge M [[0]] true (fun _ => (3, 1)) 4 0 with
      | .ok (M', S) => decide (M'.fv 0 = some [0, 1, 2] ∧ M'.fv 1 = some [4, 1, 3] ∧ S = some [[4]] ∧
          M'.sv 0 = .kept)
      | _ => false) = true := by
  obtain ⟨M, h, _⟩ := C95_answers_partial twoTets (by decide +kernel)
  refine ⟨M, h, ?_⟩
  have : ∀ o, run empty twoTets = o → (match o with
    | .ok M => (match mvsMerge M [[0]] true (fun _ => (3, 1)) 4 0 with
      | .ok (M', S) => decide (M'.fv 0 = some [0, 1, 2] ∧ M'.fv 1 = some [4, 1, 3] ∧ S = some [[4]] ∧
          M'.sv 0 = .kept)
      | _ => false)
    | _ => false) = true := by rintro o rfl; decide +kernel
  exact this _ h

end MSTK.R4M
