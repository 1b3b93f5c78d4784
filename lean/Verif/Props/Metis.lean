import Verif.MetisModel
import Verif.Props.ElementGraph
import Mathlib.Data.List.Perm.Subperm

/-!
C91: the partitioner METIS is handed the dual graph of the mesh, and every cell gets a part.

Specification: `Graph.Describes` (of C62) says that a graph lists for every cell the other cells as often
as they share a side with it; `Proper` is what METIS demands of a graph; `MetisLib.Sound` is what the
manual of METIS promises for such a graph.  `Parts` is a table of parts a caller can use.
-/
namespace MSTK
namespace Topo

/-- What METIS demands of its arguments: offsets that start with 0, ascend and end with the number of
entries; neighbours that exist; no vertex that is its own neighbour; every edge listed at both ends. -/
structure Graph.Proper (g : Graph) : Prop where
  pos : 0 < g.n
  size : g.beg.length = g.n + 1
  first : g.beg[0]? = some 0
  last : g.beg[g.n]? = some g.adj.length
  mono : ∀ i : Nat, i < g.n → g.beg.getD i 0 ≤ g.beg.getD (i+1) 0
  range : ∀ (i : Nat) k, i < g.n → k ∈ g.nbrs i → 0 ≤ k ∧ k < g.n
  loop : ∀ i : Nat, i < g.n → (i : Int) ∉ g.nbrs i
  symm : ∀ i j : Nat, i < g.n → j < g.n → (g.nbrs i).count (j : Int) = (g.nbrs j).count (i : Int)

/-- `part` tells for each of `n` cells one of the parts 0, …, `num`-1 -/
def Parts (n num : Nat) (part : List Int) : Prop := part.length = n ∧ ∀ x ∈ part, 0 ≤ x ∧ x < num

/-- METIS finds a partition of every proper graph into one or more parts. -/
structure MetisLib.Sound (lib : MetisLib) : Prop where
  recursive : ∀ g k, g.Proper → 0 < k → Parts g.n k (lib.recursive g k)
  kway : ∀ g k, g.Proper → 0 < k → Parts g.n k (lib.kway g k)

/-- for every face the number of edges it shares with other ones, added up -/
def borders (T : Topo) (fl : List Nat) : Nat :=
  (fl.map fun x => (fl.map fun y => if x = y then 0 else T.sharedEdges x y).sum).sum

/-- no edge has more than two of the faces -/
def Surface (T : Topo) (fl : List Nat) : Prop :=
  ∀ e, (fl.filter fun f => e ∈ (T.view.edges f).map (·.1)).length ≤ 2

/-- What every process gets for its table of parts when it calls `MESH_Get_Partitioning` with METIS
(method 0) on a mesh with cells `els`: the first process parts for the cells, chosen by METIS for the dual
graph of the mesh when there are several parts; the others nothing. -/
def Partitioned (lib : MetisLib) (get : Nat → Nat → Res (Option (List Int))) (els : List Nat)
    (share : Nat → Nat → Nat) : Prop :=
  get 0 1 = .ok (some (List.replicate els.length 0)) ∧
  ∀ num, 2 ≤ num →
    (∃ g, g.Describes els share ∧ g.Proper ∧
      get 0 num = .ok (some (if num ≤ 8 then lib.recursive g num else lib.kway g num))) ∧
    (∃ part, get 0 num = .ok (some part) ∧ Parts els.length num part) ∧
    ∀ rank, rank ≠ 0 → get rank num = .ok none

/-! ### proofs -/

theorem proper_of {g : Graph} {els : List Nat} {share : Nat → Nat → Nat} (hd : g.Describes els share)
    (h0 : els ≠ []) (hs : ∀ x ∈ els, ∀ y ∈ els, share x y = share y x) : g.Proper := by
  have hn := hd.num
  refine ⟨?_, ?_, hd.first, ?_, ?_, ?_, ?_, ?_⟩
  · rw [hn]; exact List.length_pos_iff.2 h0
  · rw [hn]; exact hd.size
  · rw [hn]; exact hd.last
  · rw [hn]; exact hd.mono
  · intro i k hi hk
    rw [hn] at hi ⊢
    obtain ⟨j, hj, rfl⟩ := hd.range i k hi hk
    omega
  · intro i hi hm
    rw [hn] at hi
    have e := List.getElem?_eq_getElem hi
    have := hd.count i i _ _ e e
    rw [if_pos rfl] at this
    exact List.count_eq_zero.1 this hm
  · intro i j hi hj
    rw [hn] at hi hj
    have ei := List.getElem?_eq_getElem hi
    have ej := List.getElem?_eq_getElem hj
    rw [hd.count i j _ _ ei ej, hd.count j i _ _ ej ei]
    by_cases hxy : els[i] = els[j]
    · rw [if_pos hxy, if_pos hxy.symm]
    · rw [if_neg hxy, if_neg (Ne.symm hxy), hs _ (List.getElem_mem hi) _ (List.getElem_mem hj)]

theorem copyPart_ok (idx : List Int) : ∀ n, n ≤ idx.length → copyPart idx n = .ok (idx.take n)
  | 0, _ => rfl
  | n+1, h => by
    unfold copyPart
    rw [copyPart_ok idx n (by omega), Res.bind_ok, List.getElem?_eq_getElem (by omega), Res.ofOption_some,
      Res.bind_ok, List.take_add_one, List.getElem?_eq_getElem (by omega)]
    rfl

theorem put3_eq (b : Buf) (x : Int) : b.write x = b.put3 x := by
  unfold Buf.write Buf.put3
  by_cases hc : b.out.length = b.cap
  · rw [if_pos hc, if_neg (by omega)]
  · rw [if_neg hc]

/-! #### regions -/

theorem metisRegion_eq {T : Topo} (h : T.Consistent) {rid : Nat → Int} {r : Nat} :
    ∀ (fs : List Nat) (b : Buf), (∀ f ∈ fs, T.RegionHas r f ∧ T.sf f = .live) → b.out.length ≤ b.cap →
    T.metisRegion rid r fs b =
      if b.out.length + (fs.flatMap (T.oth r)).length ≤ b.cap then
        .ok ⟨b.cap, b.out ++ (fs.flatMap (T.oth r)).map (rid · - 1)⟩ else .ub := by
  intro fs b hfs hb
  rw [← nbrs3_eq h fs b hfs hb]
  clear hfs
  induction fs generalizing b with
  | nil => rfl
  | cons f fs ih =>
    show (do
      let L ← T.mfRegions f
      let l ← Res.ofOption L
      if 1 < l.length then
        let o ← Res.ofOption (if l[0]? = some r then l[1]? else l[0]?)
        T.derefR o
        let b ← b.write (rid o - 1)
        metisRegion T rid r fs b
      else metisRegion T rid r fs b) = (do
      let L ← T.mfRegions f
      let l ← Res.ofOption L
      if l.length = 1 then nbrs3 T rid r fs b
      else
        let o ← Res.ofOption (oppr l r)
        T.derefR o
        let b ← b.put3 (rid o - 1)
        nbrs3 T rid r fs b)
    unfold mfRegions
    by_cases hf : (T.sf f).alloc
    · rw [derefF_ok hf, Res.bind_ok, Res.pure_eq, Res.bind_ok, Res.bind_ok]
      unfold orNull
      generalize (T.fr f).1.toList ++ (T.fr f).2.toList = l
      by_cases hz : l.length = 0
      · rw [if_pos hz]; rfl
      · rw [if_neg hz, Res.ofOption_some, Res.bind_ok, Res.bind_ok]
        by_cases h1 : l.length = 1
        · rw [if_pos h1, if_neg (by omega), ih b hb]
        · rw [if_neg h1, if_pos (by omega)]
          unfold oppr
          generalize (if l[0]? = some r then l[1]? else l[0]?) = o
          cases o with
          | none => rfl
          | some o =>
            rw [Res.ofOption_some, Res.bind_ok, Res.bind_ok]
            by_cases ho : (T.sr o).alloc
            · rw [derefR_ok ho, Res.bind_ok, Res.bind_ok, put3_eq b _]
              unfold Buf.put3
              by_cases hc : b.out.length = b.cap
              · rw [if_pos hc]; rfl
              · rw [if_neg hc]
                have hlt : b.out.length < b.cap := by omega
                rw [if_pos hlt, Res.bind_ok, Res.bind_ok]
                exact ih _ (by simp; omega)
            · unfold derefR; rw [if_neg ho]; rfl
    · unfold derefF; rw [if_neg hf]; rfl

theorem metisVolume_eq {T : Topo} (h : T.Consistent) {rid : Nat → Int} :
    ∀ (rs : List Nat) (xadj : List Nat) (b : Buf),
    (∀ r ∈ rs, T.sr r = .live ∧ ∃ l, T.rf r = some l) → b.out.length ≤ b.cap →
    T.metisVolume rid rs (xadj ++ [b.out.length]) b =
      if b.out.length + (rs.flatMap T.nb3).length ≤ b.cap then
        .ok (xadj ++ offs b.out.length (rs.map fun x => (T.nb3 x).map (rid · - 1)),
          ⟨b.cap, b.out ++ (rs.map fun x => (T.nb3 x).map (rid · - 1)).flatten⟩) else .ub := by
  intro rs
  induction rs with
  | nil => intro beg b _ hb; simp [metisVolume, hb, offs]
  | cons r rs ih =>
    intro xadj b hrs hb
    obtain ⟨hr, l, hl⟩ := hrs r (by simp)
    rw [show T.metisVolume rid (r :: rs) (xadj ++ [b.out.length]) b = (do
      let l ← T.mrFaces r
      let b' ← T.metisRegion rid r l b
      metisVolume T rid rs ((xadj ++ [b.out.length]) ++ [b'.out.length]) b') from rfl]
    unfold mrFaces
    have hF : ∀ f ∈ l, T.RegionHas r f ∧ T.sf f = .live := by
      intro f hf
      have hm : f ∈ (T.rf r).getD [] := by rw [hl]; exact hf
      exact ⟨(RegionHas_iff h).2 ⟨hr, hm⟩, h.rfacesLive hr hm⟩
    have hnb : l.flatMap (T.oth r) = T.nb3 r := by unfold nb3; rw [hl]; rfl
    rw [rfaces_ok (alloc_of_live hr) hl, Res.bind_ok, metisRegion_eq h l b hF hb, hnb, List.flatMap_cons,
      List.length_append]
    by_cases hc : b.out.length + (T.nb3 r).length ≤ b.cap
    · rw [if_pos hc, Res.bind_ok, ih _ _ (fun x hx => hrs x (by simp [hx])) (by simp; omega)]
      simp only [List.length_append, List.length_map, Nat.add_assoc, List.map_cons, List.flatten_cons, offs,
        List.append_assoc, List.cons_append, List.nil_append]
    · rw [if_neg hc, Res.bind_ub, if_neg (by omega)]

theorem sum_le {a b : Nat → Nat} : ∀ (l : List Nat), (∀ x ∈ l, a x ≤ b x) → (l.map a).sum ≤ (l.map b).sum
  | [], _ => Nat.le_refl _
  | x :: l, h => by
    have h1 := h x (by simp)
    have h2 := sum_le l (fun y hy => h y (by simp [hy]))
    simp only [List.map_cons, List.sum_cons]; omega

theorem sum_const (k : Nat) : ∀ (l : List Nat), (l.map fun _ => k).sum = k * l.length
  | [] => rfl
  | x :: l => by
    simp only [List.map_cons, List.sum_cons, List.length_cons, sum_const k l, Nat.mul_add]; omega

/-- lists in which every entry occurs at most twice together -/
theorem twice_le {rl fl : List Nat} {g : Nat → List Nat} (hfl : fl.Nodup) (hm : ∀ r ∈ rl, ∀ f ∈ g r, f ∈ fl)
    (hn : ∀ r ∈ rl, (g r).Nodup) (h2 : ∀ f ∈ fl, (rl.filter fun r => f ∈ g r).length ≤ 2) :
    (rl.flatMap g).length ≤ 2 * fl.length := by
  rw [← sum_count hfl (rl.flatMap g) (fun z hz => by
    obtain ⟨r, hr, hz⟩ := List.mem_flatMap.1 hz; exact hm r hr z hz), ← sum_const 2 fl]
  apply sum_le
  intro f hf
  rw [count_flatMap (p := fun r => f ∈ g r)]
  · exact h2 f hf
  · intro r hr
    by_cases hc : f ∈ g r
    · rw [if_pos (by simpa using hc), List.count_eq_one_of_mem (hn r hr) hc]
    · rw [if_neg (by simpa using hc), List.count_eq_zero.2 hc]

theorem flatMap_le {a b : Nat → List Nat} (l : List Nat) (h : ∀ x ∈ l, (a x).length ≤ (b x).length) :
    (l.flatMap a).length ≤ (l.flatMap b).length := by
  rw [List.length_flatMap, List.length_flatMap]
  exact sum_le l h

theorem ones_le {a : Nat → List Nat} (l : List Nat) (h : ∀ x ∈ l, (a x).length ≤ 1) :
    (l.flatMap a).length ≤ l.length := by
  rw [List.length_flatMap]
  have := sum_le (b := fun _ => 1) l h
  rw [sum_const] at this
  omega

/-- the array for the neighbours of the regions is large enough -/
theorem volume_fits {T : Topo} (h : T.Consistent) {fl rl : List Nat} (hfl : Lists fl T.sf)
    (hrl : Lists rl T.sr) (hdef : ∀ r ∈ rl, ∃ l, T.rf r = some l) :
    (rl.flatMap T.nb3).length ≤ 2 * fl.length := by
  have hlive : ∀ r ∈ rl, T.sr r = .live := fun r hr => (hrl.2 r).1 hr
  refine Nat.le_trans (flatMap_le (b := fun r => (T.rf r).getD []) rl fun r _ => ?_)
    (twice_le hfl.1 (fun r hr f hf => (hfl.2 f).2 (h.rfacesLive (hlive r hr) hf)) ?_ ?_)
  · apply ones_le
    intro f _
    unfold oth
    dsimp only
    split
    · simp
    · cases oppr _ r <;> simp
  · intro r hr
    obtain ⟨l, hl⟩ := hdef r hr
    rw [hl]
    exact (h.reg r l (alloc_of_live (hlive r hr)) hl).1
  · intro f hf
    have hsub : (rl.filter fun r => f ∈ (T.rf r).getD []) ⊆ (T.fr f).1.toList ++ (T.fr f).2.toList := by
      intro r hr
      obtain ⟨h1, h2⟩ := List.mem_filter.1 hr
      have := (h.mem_fr ((hfl.2 f).1 hf) (r := r)).2 ((RegionHas_iff h).2 ⟨hlive r h1, by simpa using h2⟩)
      rw [List.mem_append]
      exact this
    have := (List.subperm_of_subset (hrl.1.filter _) hsub).length_le
    refine Nat.le_trans this ?_
    cases (T.fr f).1 <;> cases (T.fr f).2 <;> simp

/-! #### faces -/

theorem metisEdge_eq {T : Topo} {fid : Nat → Int} {f : Nat} : ∀ (gs : List Nat) (b : Buf),
    (∀ g ∈ gs, T.sf g = .live) → b.out.length ≤ b.cap →
    T.metisEdge fid f gs b =
      if b.out.length + (gs.filter (· ≠ f)).length ≤ b.cap then
        .ok ⟨b.cap, b.out ++ (gs.filter (· ≠ f)).map (fid · - 1)⟩ else .ub := by
  intro gs
  induction gs with
  | nil => intro b _ hb; simp [metisEdge, hb]
  | cons g gs ih =>
    intro b hg hb
    have hg' : ∀ x ∈ gs, T.sf x = .live := fun x hx => hg x (by simp [hx])
    rw [show T.metisEdge fid f (g :: gs) b = (if g ≠ f then do
      T.derefF g
      let b ← b.write (fid g - 1)
      metisEdge T fid f gs b
    else metisEdge T fid f gs b) from rfl]
    by_cases hgf : g ≠ f
    · rw [if_pos hgf, derefF_ok (alloc_of_live (hg g (by simp))), Res.bind_ok,
        List.filter_cons_of_pos (by simpa using hgf)]
      unfold Buf.write
      by_cases hc : b.out.length < b.cap
      · rw [if_pos hc, Res.bind_ok, ih _ hg' (by simp; omega)]
        simp only [List.length_append, List.length_nil, List.length_cons, List.map_cons,
          List.append_assoc, List.cons_append, List.nil_append, Nat.add_assoc, Nat.add_comm 1, Nat.zero_add]
      · rw [if_neg hc, Res.bind_ub, if_neg]
        rw [List.length_cons]; omega
    · rw [if_neg hgf, List.filter_cons_of_neg (by simpa using hgf), ih b hg' hb]

theorem metisFace_eq {T : Topo} (h : T.Consistent) {fid : Nat → Int} {f : Nat} :
    ∀ (es : List Nat) (b : Buf), (∀ e ∈ es, T.se e = .live ∧ f ∈ T.ef e) → b.out.length ≤ b.cap →
    T.metisFace fid f es b =
      if b.out.length + (es.flatMap fun e => (T.ef e).filter (· ≠ f)).length ≤ b.cap then
        .ok ⟨b.cap, b.out ++ (es.flatMap fun e => (T.ef e).filter (· ≠ f)).map (fid · - 1)⟩ else .ub := by
  intro es
  induction es with
  | nil => intro b _ hb; simp [metisFace, hb]
  | cons e es ih =>
    intro b hes hb
    obtain ⟨he, hf⟩ := hes e (by simp)
    have hes' : ∀ x ∈ es, T.se x = .live ∧ f ∈ T.ef x := fun x hx => hes x (by simp [hx])
    rw [show T.metisFace fid f (e :: es) b = (do
      let L ← T.meFaces e
      let l ← Res.ofOption L
      if l.length = 1 then metisFace T fid f es b
      else
        let b ← T.metisEdge fid f l b
        metisFace T fid f es b) from rfl]
    have hmf : T.meFaces e = .ok (some (T.ef e)) := by
      unfold meFaces
      rw [derefE_ok (alloc_of_live he), Res.bind_ok, if_neg]
      · rfl
      · intro hz; rw [List.eq_nil_of_length_eq_zero hz] at hf; cases hf
    rw [hmf, Res.bind_ok, Res.ofOption_some, Res.bind_ok, List.flatMap_cons]
    by_cases h1 : (T.ef e).length = 1
    · have : (T.ef e).filter (fun g => decide (g ≠ f)) = [] := by
        obtain ⟨x, hx⟩ := List.length_eq_one_iff.1 h1
        rw [hx] at hf ⊢
        rw [List.mem_singleton] at hf
        subst hf; simp
      rw [if_pos h1, this, List.nil_append, ih b hes' hb]
    · rw [if_neg h1, metisEdge_eq (T.ef e) b
        (fun g hg => ((h.ef.mem e (alloc_of_live he) g).1 hg).1) hb, List.length_append]
      by_cases hc : b.out.length + ((T.ef e).filter (· ≠ f)).length ≤ b.cap
      · rw [if_pos hc, Res.bind_ok, ih _ hes' (by simp only [List.length_append, List.length_map]; exact hc)]
        simp only [List.length_append, List.length_map, List.map_append, List.append_assoc, Nat.add_assoc]
      · rw [if_neg hc, Res.bind_ub, if_neg (by omega)]

theorem metisSurface_eq {T : Topo} (h : T.Consistent) {fid : Nat → Int} :
    ∀ (fs : List Nat) (xadj : List Nat) (b : Buf),
    (∀ f ∈ fs, T.sf f = .live ∧ ∃ l, T.fe f = some l) → b.out.length ≤ b.cap →
    T.metisSurface fid fs (xadj ++ [b.out.length]) b =
      if b.out.length + (fs.flatMap T.nb2).length ≤ b.cap then
        .ok (xadj ++ offs b.out.length (fs.map fun x => (T.nb2 x).map (fid · - 1)),
          ⟨b.cap, b.out ++ (fs.map fun x => (T.nb2 x).map (fid · - 1)).flatten⟩) else .ub := by
  intro fs
  induction fs with
  | nil => intro beg b _ hb; simp [metisSurface, hb, offs]
  | cons f fs ih =>
    intro xadj b hfs hb
    obtain ⟨hf, l, hl⟩ := hfs f (by simp)
    rw [show T.metisSurface fid (f :: fs) (xadj ++ [b.out.length]) b = (do
      let l ← T.mfEdges f true none
      let b' ← T.metisFace fid f l b
      metisSurface T fid fs ((xadj ++ [b.out.length]) ++ [b'.out.length]) b') from rfl]
    have hlive := h.fedgesLive hf hl
    have hE : ∀ e ∈ l, T.se e = .live ∧ f ∈ T.ef e := by
      intro e he
      refine ⟨hlive e he, (h.ef.mem e (alloc_of_live (hlive e he)) f).2 ⟨hf, ?_⟩⟩
      unfold bounds; rw [hl]; exact he
    have hnb : (l.flatMap fun e => (T.ef e).filter (· ≠ f)) = T.nb2 f := by unfold nb2; rw [hl]; rfl
    rw [mfEdges_plain (alloc_of_live hf) hl, Res.bind_ok, metisFace_eq h l b hE hb, hnb, List.flatMap_cons,
      List.length_append]
    by_cases hc : b.out.length + (T.nb2 f).length ≤ b.cap
    · rw [if_pos hc, Res.bind_ok, ih _ _ (fun x hx => hfs x (by simp [hx])) (by simp; omega)]
      simp only [List.length_append, List.length_map, Nat.add_assoc, List.map_cons, List.flatten_cons, offs,
        List.append_assoc, List.cons_append, List.nil_append]
    · rw [if_neg hc, Res.bind_ub, if_neg (by omega)]

theorem borders_eq {T : Topo} (h : T.Consistent) {fl : List Nat} (hfl : Lists fl T.sf) :
    (fl.flatMap T.nb2).length = T.borders fl := by
  unfold borders
  have : ∀ x ∈ fl, (fl.map fun y => if x = y then 0 else T.sharedEdges x y).sum = (T.nb2 x).length := by
    intro x hx
    have hxl := (hfl.2 x).1 hx
    rw [← sum_count hfl.1 (T.nb2 x) (fun z hz => (hfl.2 z).2 (nb2_live h hxl hz))]
    congr 1
    apply List.map_congr_left
    intro y hy
    exact (nb2_count h hxl ((hfl.2 y).1 hy)).symm
  rw [List.map_congr_left this, List.length_flatMap]

/-- the edges of a face -/
theorem edges_fst (T : Topo) (f : Nat) : (T.view.edges f).map (·.1) = (T.fe f).getD [] :=
  pairs_map_fst _ _

/-- with at most two faces at every edge the array for the neighbours of the faces is large enough -/
theorem surface_fits {T : Topo} (h : T.Consistent) {el fl : List Nat} (hel : Lists el T.se)
    (hfl : Lists fl T.sf) (hdef : ∀ f ∈ fl, ∃ l, T.fe f = some l ∧ l.Nodup) (hs : T.Surface fl) :
    T.borders fl ≤ 2 * el.length := by
  rw [← borders_eq h hfl]
  have hlive : ∀ f ∈ fl, T.sf f = .live := fun r hr => (hfl.2 r).1 hr
  have hs' : ∀ e, (fl.filter fun f => e ∈ (T.fe f).getD []).length ≤ 2 := by
    intro e
    have := hs e
    simp only [edges_fst] at this
    exact this
  refine Nat.le_trans (flatMap_le (b := fun f => (T.fe f).getD []) fl fun f hf => ?_)
    (twice_le hel.1 (fun f hf e he => (hel.2 e).2 (h.ef.down f e (hlive f hf) he)) ?_ (fun e _ => hs' e))
  · apply ones_le
    intro e he
    have hel' := alloc_of_live (h.ef.down f e (hlive f hf) he)
    have hfe : f ∈ T.ef e := (h.ef.mem e hel' f).2 ⟨hlive f hf, he⟩
    have hsub : T.ef e ⊆ fl.filter fun f => e ∈ (T.fe f).getD [] := by
      intro g hg
      have := (h.ef.mem e hel' g).1 hg
      rw [List.mem_filter]
      exact ⟨(hfl.2 g).2 this.1, decide_eq_true this.2⟩
    have h1 := (List.subperm_of_subset (h.ef.nodup e hel') hsub).length_le
    have h2 := hs' e
    have h3 : ((T.ef e).filter fun g => decide (g ≠ f)).length < (T.ef e).length :=
      List.length_filter_lt_length_iff_exists.2 ⟨f, hfe, by simp⟩
    omega
  · intro f hf
    obtain ⟨l, hl, hn⟩ := hdef f hf
    rw [hl]; exact hn

/-! ### the property -/

theorem partitioned_of {lib : MetisLib} (hlib : lib.Sound) {z : Nat → Res (Option (List Int))} {T : Topo}
    {el fl rl : List Nat} {fid rid : Nat → Int} {els : List Nat} {share : Nat → Nat → Nat} {g : Graph}
    (hels : els = if rl.length ≠ 0 then rl else fl) (hg : T.metisGraph el fl rl fid rid = .ok g)
    (hd : g.Describes els share) (hp : g.Proper) :
    Partitioned lib (fun rank num => getPartitioning (some lib) z T el fl rl fid rid rank num 0) els share := by
  refine ⟨?_, fun num hnum => ?_⟩
  · show getPartitioning (some lib) z T el fl rl fid rid 0 1 0 = _
    unfold getPartitioning
    rw [if_pos rfl, if_pos rfl, hels]
    split <;> rfl
  · have hparts : Parts g.n num (if num ≤ 8 then lib.recursive g num else lib.kway g num) := by
      split
      · exact hlib.recursive g num hp (by omega)
      · exact hlib.kway g num hp (by omega)
    have hget : getPartitioning (some lib) z T el fl rl fid rid 0 num 0 =
        .ok (some (if num ≤ 8 then lib.recursive g num else lib.kway g num)) := by
      unfold getPartitioning
      rw [if_neg (by omega), if_pos rfl, if_pos rfl]
      dsimp only
      unfold partitionWithMetis
      rw [hg, Res.bind_ok]
      dsimp only
      rw [copyPart_ok _ _ (by rw [hparts.1]), Res.bind_ok, List.take_of_length_le (by rw [hparts.1])]
      rfl
    refine ⟨⟨g, hd, hp, hget⟩, ⟨_, hget, by rw [← hd.num]; exact hparts⟩, fun rank hr => ?_⟩
    show getPartitioning (some lib) z T el fl rl fid rid rank num 0 = _
    unfold getPartitioning
    rw [if_neg (by omega), if_pos rfl, if_neg hr]

/-- **C91, volumes.**  The regions of a mesh whose IDs count them are partitioned by METIS according to
the dual graph of the mesh. -/
theorem C91_volume_partial {lib : MetisLib} (hlib : lib.Sound) (z : Nat → Res (Option (List Int)))
    {T : Topo} (h : T.Consistent) {el fl rl : List Nat} {fid rid : Nat → Int}
    (hfl : Lists fl T.sf) (hrl : Lists rl T.sr) (hdef : ∀ r ∈ rl, ∃ l, T.rf r = some l) (h0 : rl ≠ [])
    (hid : Numbered rl rid) :
    Partitioned lib (fun rank num => getPartitioning (some lib) z T el fl rl fid rid rank num 0) rl
      T.sharedFaces := by
  have hlive : ∀ r ∈ rl, T.sr r = .live := fun r hr => (hrl.2 r).1 hr
  have hn0 : rl.length ≠ 0 := by simpa using h0
  have hd := describes_of (share := T.sharedFaces) (nb := T.nb3) hid hrl.1
    (fun x hx y hy => (hrl.2 y).2 (nb3_live h (hlive x hx) hy))
    (fun x hx y hy => nb3_count h (hlive x hx) (hlive y hy))
  refine partitioned_of hlib (by rw [if_pos hn0]) ?_ hd (proper_of hd h0 ?_)
  · unfold metisGraph
    rw [if_neg hn0]
    have := metisVolume_eq h (rid := rid) rl [] ⟨2 * fl.length, []⟩
      (fun r hr => ⟨hlive r hr, hdef r hr⟩) (Nat.zero_le _)
    rw [show ([] : List Nat) ++ [(Buf.mk (2 * fl.length) []).out.length] = [0] from rfl] at this
    rw [this, if_pos (by simpa using volume_fits h hfl hrl hdef), Res.bind_ok]
    rfl
  · intro x hx y hy
    have hn : ∀ x ∈ rl, ((T.view.faces x).map (·.1)).Nodup := by
      intro x hx
      obtain ⟨l, hl⟩ := hdef x hx
      show ((pairs ((T.rf x).getD []) _).map (·.1)).Nodup
      rw [pairs_map_fst, hl]
      exact (h.reg x l (alloc_of_live (hlive x hx)) hl).1
    exact common_symm (hn x hx) (hn y hy)

/-- **C91, surfaces.**  The faces of a mesh without regions whose IDs count them are partitioned by METIS
according to the dual graph of the mesh, provided the neighbours fit the array. -/
theorem C91_surface_partial {lib : MetisLib} (hlib : lib.Sound) (z : Nat → Res (Option (List Int)))
    {T : Topo} (h : T.Consistent) {el fl : List Nat} {fid rid : Nat → Int}
    (hfl : Lists fl T.sf) (hdef : ∀ f ∈ fl, ∃ l, T.fe f = some l ∧ l.Nodup) (h0 : fl ≠ [])
    (hid : Numbered fl fid) (hsize : T.borders fl ≤ 2 * el.length) :
    Partitioned lib (fun rank num => getPartitioning (some lib) z T el fl [] fid rid rank num 0) fl
      T.sharedEdges := by
  have hlive : ∀ r ∈ fl, T.sf r = .live := fun r hr => (hfl.2 r).1 hr
  have hn0 : fl.length ≠ 0 := by simpa using h0
  have hd := describes_of (share := T.sharedEdges) (nb := T.nb2) hid hfl.1
    (fun x hx y hy => (hfl.2 y).2 (nb2_live h (hlive x hx) hy))
    (fun x hx y hy => nb2_count h (hlive x hx) (hlive y hy))
  refine partitioned_of hlib (by simp) ?_ hd (proper_of hd h0 ?_)
  · unfold metisGraph
    rw [if_pos List.length_nil, if_neg hn0]
    have := metisSurface_eq h (fid := fid) fl [] ⟨2 * el.length, []⟩
      (fun r hr => ⟨hlive r hr, (hdef r hr).imp fun _ h => h.1⟩) (Nat.zero_le _)
    rw [show ([] : List Nat) ++ [(Buf.mk (2 * el.length) []).out.length] = [0] from rfl] at this
    rw [this, if_pos (by rw [borders_eq h hfl]; simpa using hsize), Res.bind_ok]
    rfl
  · intro x hx y hy
    have hn : ∀ x ∈ fl, ((T.view.edges x).map (·.1)).Nodup := by
      intro x hx
      obtain ⟨l, hl, hnd⟩ := hdef x hx
      rw [edges_fst, hl]
      exact hnd
    exact common_symm (hn x hx) (hn y hy)

/-- **C91, ordinary surfaces.**  In particular, when no edge has more than two faces. -/
theorem C91_manifold_partial {lib : MetisLib} (hlib : lib.Sound) (z : Nat → Res (Option (List Int)))
    {T : Topo} (h : T.Consistent) {el fl : List Nat} {fid rid : Nat → Int} (hel : Lists el T.se)
    (hfl : Lists fl T.sf) (hdef : ∀ f ∈ fl, ∃ l, T.fe f = some l ∧ l.Nodup) (h0 : fl ≠ [])
    (hid : Numbered fl fid) (hs : T.Surface fl) :
    Partitioned lib (fun rank num => getPartitioning (some lib) z T el fl [] fid rid rank num 0) fl
      T.sharedEdges :=
  C91_surface_partial hlib z h hfl hdef h0 hid (surface_fits h hel hfl hdef hs)

/-! ### where the library fails -/

/-- **C91, too many neighbours.**  When the neighbours of the faces do not fit the array of twice the
number of edges, the program writes behind its end, whatever METIS would answer. -/
theorem C91_negation_overflow (lib : MetisLib) (z : Nat → Res (Option (List Int)))
    {T : Topo} (h : T.Consistent) {el fl : List Nat} {fid rid : Nat → Int}
    (hfl : Lists fl T.sf) (hdef : ∀ f ∈ fl, ∃ l, T.fe f = some l)
    (hsize : 2 * el.length < T.borders fl) {num : Nat} (hnum : 2 ≤ num) :
    getPartitioning (some lib) z T el fl [] fid rid 0 num 0 = .ub := by
  have hlive : ∀ r ∈ fl, T.sf r = .live := fun r hr => (hfl.2 r).1 hr
  have hn0 : fl.length ≠ 0 := by
    intro hz
    rw [List.eq_nil_of_length_eq_zero hz] at hsize
    simp [borders] at hsize
  have hg : T.metisGraph el fl [] fid rid = .ub := by
    unfold metisGraph
    rw [if_pos List.length_nil, if_neg hn0]
    have := metisSurface_eq h (fid := fid) fl [] ⟨2 * el.length, []⟩
      (fun r hr => ⟨hlive r hr, hdef r hr⟩) (Nat.zero_le _)
    rw [show ([] : List Nat) ++ [(Buf.mk (2 * el.length) []).out.length] = [0] from rfl] at this
    rw [this, if_neg (by rw [borders_eq h hfl]; simpa using hsize), Res.bind_ub]
  unfold getPartitioning
  rw [if_neg (by omega), if_pos rfl, if_pos rfl]
  dsimp only
  unfold partitionWithMetis
  rw [hg, Res.bind_ub, Res.bind_ub]

/-- **C91, wire meshes.**  Without faces and regions the program ends. -/
theorem C91_negation_wire (lib : MetisLib) (z : Nat → Res (Option (List Int))) (T : Topo) (el : List Nat)
    (fid rid : Nat → Int) {num : Nat} (hnum : 2 ≤ num) :
    getPartitioning (some lib) z T el [] [] fid rid 0 num 0 = .fatal := by
  unfold getPartitioning
  rw [if_neg (by omega), if_pos rfl, if_pos rfl]
  rfl

/-- **C91, IDs.**  When a region was deleted the IDs have a gap, and the graph of the two remaining
regions handed to METIS names a third vertex. -/
theorem C91_negation_ids :
    answer twoTets (fun T => T.metisGraph [] (List.range 7) [0,1] (fun _ => 0)
      (fun r => if r = 0 then 1 else 3)) = .ok ⟨2, [0,1,2], [2,0]⟩ ∧
    ¬ (Graph.mk 2 [0,1,2] [2,0]).Proper := by
  refine ⟨by decide +kernel, fun h => ?_⟩
  have : (2 : Int) < (2 : Nat) := (h.range 0 2 (by decide) (by decide)).2
  omega

/-! ### concrete cases -/

/-- a partitioner that puts everything into the last part -/
def lastPart : MetisLib where
  recursive := fun g k => List.replicate g.n ((k : Int) - 1)
  kway := fun g k => List.replicate g.n ((k : Int) - 1)

/-- It does what METIS promises. -/
theorem lastPart_sound : lastPart.Sound := by
  have : ∀ (n k : Nat), 0 < k → Parts n k (List.replicate n ((k : Int) - 1)) := by
    intro n k hk
    refine ⟨List.length_replicate, fun x hx => ?_⟩
    have := (List.mem_replicate.1 hx).2
    omega
  exact ⟨fun g k _ hk => this g.n k hk, fun g k _ hk => this g.n k hk⟩

/-- Two tetrahedra meet the hypotheses of `C91_volume_partial`; their dual graph is an edge. -/
example : ∃ T, empty.run twoTets = .ok T ∧ T.Consistent ∧ Lists (List.range 7) T.sf ∧ Lists [1,0] T.sr ∧
    (∀ r ∈ [1,0], ∃ l, T.rf r = some l) ∧ Numbered [1,0] (fun r => 2 - (r : Int)) ∧
    T.metisGraph [] (List.range 7) [1,0] (fun _ => 0) (fun r => 2 - (r : Int)) = .ok ⟨2, [0,1,2], [1,0]⟩ := by
  obtain ⟨T, h1, h2⟩ := reachable (os := twoTets) (by decide +kernel)
  have hq : answer twoTets (fun T => .ok (listsB [1,0] T.sr T.nr && listsB (List.range 7) T.sf T.nf &&
      [1,0].all (fun r => (T.rf r).isSome) &&
      decide (T.metisGraph [] (List.range 7) [1,0] (fun _ => 0) (fun r => 2 - (r : Int)) =
        .ok ⟨2, [0,1,2], [1,0]⟩))) = .ok true := by decide +kernel
  unfold answer at hq
  rw [h1, Res.bind_ok, Res.ok.injEq] at hq
  simp only [Bool.and_eq_true, decide_eq_true_iff, List.all_eq_true] at hq
  obtain ⟨⟨⟨a, c⟩, b⟩, d⟩ := hq
  exact ⟨T, h1, h2, listsB_sound c h2.newF, listsB_sound a h2.newR,
    fun r hr => Option.isSome_iff_exists.1 (b r hr), numbered_two rfl rfl, d⟩

/-- `k` triangles with a common edge -/
def fan (k : Nat) : List Op :=
  List.replicate (k + 2) .newVertex ++
  (List.range k).flatMap fun i => [.newFace, .setVertices i [0, 1, i + 2]]

theorem numbered_range (n : Nat) : Numbered (List.range n) (fun f => (f : Int) + 1) := by
  intro i x h
  obtain ⟨hi, hx⟩ := List.getElem?_eq_some_iff.1 h
  rw [List.getElem_range] at hx
  subst hx; rfl

/-- Two triangles with a common edge meet the hypotheses of `C91_manifold_partial`. -/
example : ∃ T, empty.run (fan 2) = .ok T ∧ T.Consistent ∧ Lists (List.range 5) T.se ∧
    Lists (List.range 2) T.sf ∧ (∀ f ∈ List.range 2, ∃ l, T.fe f = some l ∧ l.Nodup) ∧
    T.Surface (List.range 2) ∧ Numbered (List.range 2) (fun f => (f : Int) + 1) ∧
    T.metisGraph (List.range 5) (List.range 2) [] (fun f => (f : Int) + 1) (fun _ => 0) =
      .ok ⟨2, [0,1,2], [1,0]⟩ := by
  obtain ⟨T, h1, h2⟩ := reachable (os := fan 2) (by decide +kernel)
  have hq : answer (fan 2) (fun T => .ok (listsB (List.range 5) T.se T.ne && listsB (List.range 2) T.sf T.nf &&
      (List.range 2).all (fun f => match T.fe f with | some l => decide l.Nodup | none => false) &&
      decide (T.metisGraph (List.range 5) (List.range 2) [] (fun f => (f : Int) + 1) (fun _ => 0) =
        .ok ⟨2, [0,1,2], [1,0]⟩))) = .ok true := by decide +kernel
  unfold answer at hq
  rw [h1, Res.bind_ok, Res.ok.injEq] at hq
  simp only [Bool.and_eq_true, decide_eq_true_iff, List.all_eq_true] at hq
  obtain ⟨⟨⟨a, c⟩, b⟩, d⟩ := hq
  refine ⟨T, h1, h2, listsB_sound a h2.newE, listsB_sound c h2.newF, fun f hf => ?_, fun e => ?_,
    numbered_range 2, d⟩
  · have := b f hf
    split at this
    · rename_i l hl; exact ⟨l, hl, by simpa using this⟩
    · cases this
  · exact Nat.le_trans (List.length_filter_le _ _) (Nat.le_refl 2)

/-- Six triangles with a common edge meet the hypotheses of `C91_negation_overflow`: 30 neighbours, 13
edges. -/
example : ∃ T, empty.run (fan 6) = .ok T ∧ T.Consistent ∧ Lists (List.range 13) T.se ∧
    Lists (List.range 6) T.sf ∧ (∀ f ∈ List.range 6, ∃ l, T.fe f = some l) ∧
    2 * (List.range 13).length < T.borders (List.range 6) := by
  obtain ⟨T, h1, h2⟩ := reachable (os := fan 6) (by decide +kernel)
  have hq : answer (fan 6) (fun T => .ok (listsB (List.range 13) T.se T.ne && listsB (List.range 6) T.sf T.nf &&
      (List.range 6).all (fun f => (T.fe f).isSome) &&
      decide (2 * (List.range 13).length < T.borders (List.range 6)))) = .ok true := by decide +kernel
  unfold answer at hq
  rw [h1, Res.bind_ok, Res.ok.injEq] at hq
  simp only [Bool.and_eq_true, decide_eq_true_iff, List.all_eq_true] at hq
  obtain ⟨⟨⟨a, c⟩, b⟩, d⟩ := hq
  exact ⟨T, h1, h2, listsB_sound a h2.newE, listsB_sound c h2.newF,
    fun r hr => Option.isSome_iff_exists.1 (b r hr), d⟩

end Topo
end MSTK
