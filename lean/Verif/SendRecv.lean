import Verif.SendBuild

/-!
What `MESH_RecvMesh` makes of the messages of `MESH_SendMesh` (SendModel.lean).
-/
namespace MSTK
namespace Send
open File Copy

variable {D : Type}

theorem loopN_ok {σ : Type} {step : Nat → σ → Res σ} {n : Nat} (P : σ → Nat → Prop) {s : σ} (h0 : P s 0)
    (hstep : ∀ k s, k < n → P s k → ∃ s', step k s = .ok s' ∧ P s' (k+1)) :
    ∃ s', loopN step n s = .ok s' ∧ P s' n := by
  obtain ⟨s', h1, h2⟩ := loop_ok (step := step) (l := List.range n) (P := P) (by
    intro k x s hx hp
    have hk : k < n := by simpa using (List.getElem?_eq_some_iff.1 hx).1
    rw [List.getElem?_range hk] at hx
    cases hx
    exact hstep _ s hk hp) (List.range n) 0 s rfl h0
  rw [List.length_range, Nat.zero_add] at h2
  exact ⟨s', h1, h2⟩

theorem takeInts_ok {cap : Nat} {l : List Int} {ms : List (Msg D)} (h : l.length ≤ cap) :
    takeInts cap (.ints l :: ms) = .ok (l, ms) := by exact if_pos h
theorem takeDbls_ok {cap : Nat} {l : List D} {ms : List (Msg D)} (h : l.length ≤ cap) :
    takeDbls cap (.dbls l :: ms) = .ok (l, ms) := by exact if_pos h
theorem takeNames_ok {cap : Nat} {l : List (List Char)} {ms : List (Msg D)} (h : l.length ≤ cap) :
    takeNames cap (.names l :: ms) = .ok (l, ms) := by exact if_pos h

theorem recvVerts_ok {zero : D} {S : CMesh D} (h : Sendable S) (rest : List (Msg D)) :
    ∃ N, recvVerts zero S.F.vl.length (.ints (S.F.vl.map (vI S)).flatten :: .dbls (S.F.vl.flatMap (vDbls S)) :: rest) =
        .ok (N, rest) ∧
      Rcv zero S N ⟨S.F.vl.length, 0, 0, 0, S.F.vl.length, S.F.vl.length, 0, 0, 0⟩ := by
  have hN := times_newV (S := S) S.F.vl.length (rcv_new zero S)
  dsimp only at hN
  rw [Nat.zero_add] at hN
  obtain ⟨N1, h1, p1⟩ := loopN_ok (step := recvV (S.F.vl.map (vI S)).flatten) (n := S.F.vl.length)
    (fun N k => Rcv zero S N ⟨S.F.vl.length, 0, 0, 0, k, 0, 0, 0, 0⟩) hN
    fun k s hk hp => rcv_recvV h hp rfl (List.getElem?_eq_getElem hk)
  obtain ⟨N2, h2, p2⟩ := loopN_ok (step := recvX (S.F.vl.flatMap (vDbls S))) (n := S.F.vl.length)
    (fun N k => Rcv zero S N ⟨S.F.vl.length, 0, 0, 0, S.F.vl.length, k, 0, 0, 0⟩) p1
    fun k s hk hp => rcv_recvX hp rfl (List.getElem?_eq_getElem hk)
  refine ⟨N2, ?_, p2⟩
  unfold recvVerts
  rw [takeInts_ok (flatten_len fun _ _ => Nat.le_refl 3), Res.bind_ok]
  dsimp only
  rw [h1, Res.bind_ok, takeDbls_ok (by rw [List.flatMap_def]; exact flatten_len fun _ _ => Nat.le_refl 3), Res.bind_ok]
  dsimp only
  rw [h2, Res.bind_ok]
  rfl

theorem recvOthers_ok {zero : D} {S N : CMesh D} (h : Sendable S) (hv : S.F.vl ≠ []) (he : S.F.el ≠ []) (hf : S.F.fl ≠ [])
    (hN : Rcv zero S N ⟨S.F.vl.length, 0, 0, 0, S.F.vl.length, S.F.vl.length, 0, 0, 0⟩) (rest : List (Msg D)) :
    ∃ N', recvOthers S.F.el.length S.F.fl.length S.F.rl.length N (.ints (S.F.el.map (eI S)).flatten ::
        .ints (S.F.fl.map (fI S)).flatten :: ((if S.F.rl = [] then [] else [.ints (S.F.rl.map (rI S)).flatten]) ++ rest)) =
        .ok (N', rest) ∧
      Rcv zero S N' ⟨S.F.vl.length, S.F.el.length, S.F.fl.length, S.F.rl.length, S.F.vl.length, S.F.vl.length,
        S.F.el.length, S.F.fl.length, S.F.rl.length⟩ := by
  have h1 := times_newR S.F.rl.length (times_newF S.F.fl.length (times_newE S.F.el.length hN (Nat.le_refl 0))
    (Nat.le_refl 0)) (Nat.le_refl 0)
  simp only [Nat.zero_add] at h1
  obtain ⟨N1, e1, p1⟩ := loopN_ok (step := recvE (S.F.el.map (eI S)).flatten) (n := S.F.el.length)
    (fun N k => Rcv zero S N ⟨S.F.vl.length, S.F.el.length, S.F.fl.length, S.F.rl.length, S.F.vl.length, S.F.vl.length,
        k, 0, 0⟩) h1
    fun k s hk hp => rcv_recvE h hp rfl rfl (List.getElem?_eq_getElem hk)
  obtain ⟨⟨N2, q2⟩, e2, p2, _⟩ := loopN_ok (step := recvF (S.F.fl.map (fI S)).flatten) (n := S.F.fl.length)
    (fun s k => Rcv zero S s.1 ⟨S.F.vl.length, S.F.el.length, S.F.fl.length, S.F.rl.length, S.F.vl.length, S.F.vl.length,
        S.F.el.length, k, 0⟩ ∧ (S.F.fl.map (fI S)).flatten.drop s.2 = ((S.F.fl.drop k).map (fI S)).flatten)
    (s := (N1, 0)) ⟨p1, rfl⟩
    (by
      intro k s hk hp
      obtain ⟨N', q', a1, a2, a3⟩ := rcv_recvF h hp.1 rfl rfl (List.getElem?_eq_getElem hk) hp.2
      exact ⟨(N', q'), a1, a2, a3⟩)
  obtain ⟨⟨N3, q3⟩, e3, p3, _⟩ := loopN_ok (step := recvR (S.F.rl.map (rI S)).flatten) (n := S.F.rl.length)
    (fun s k => Rcv zero S s.1 ⟨S.F.vl.length, S.F.el.length, S.F.fl.length, S.F.rl.length, S.F.vl.length, S.F.vl.length,
        S.F.el.length, S.F.fl.length, k⟩ ∧ (S.F.rl.map (rI S)).flatten.drop s.2 = ((S.F.rl.drop k).map (rI S)).flatten)
    (s := (N2, 0)) ⟨p2, rfl⟩
    (by
      intro k s hk hp
      obtain ⟨N', q', a1, a2, a3⟩ := rcv_recvR h hp.1 rfl rfl rfl (List.getElem?_eq_getElem hk) hp.2
      exact ⟨(N', q'), a1, a2, a3⟩)
  refine ⟨N3, ?_, p3⟩
  have nv0 : N.F.vl ≠ [] := by
    rw [hN.vl]
    intro h0
    exact hv (List.length_eq_zero_iff.1 (by simpa using congrArg List.length h0))
  have ne0 : S.F.el.length ≠ 0 := fun h0 => he (List.length_eq_zero_iff.1 h0)
  have nf0 : S.F.fl.length ≠ 0 := fun h0 => hf (List.length_eq_zero_iff.1 h0)
  have t1 : takeIf (S.F.el.length ≠ 0) (5*S.F.el.length) (.ints (S.F.el.map (eI S)).flatten ::
        .ints (S.F.fl.map (fI S)).flatten :: ((if S.F.rl = [] then [] else [.ints (S.F.rl.map (rI S)).flatten]) ++ rest)) =
      .ok ((S.F.el.map (eI S)).flatten, .ints (S.F.fl.map (fI S)).flatten ::
        ((if S.F.rl = [] then [] else [.ints (S.F.rl.map (rI S)).flatten]) ++ rest)) := by
    unfold takeIf
    rw [if_pos (by simpa using he), takeInts_ok (flatten_len fun _ _ => Nat.le_refl 5)]
  have t2 : takeIf (S.F.fl.length ≠ 0) ((1 + 30 + 3)*S.F.fl.length) (.ints (S.F.fl.map (fI S)).flatten ::
        ((if S.F.rl = [] then [] else [.ints (S.F.rl.map (rI S)).flatten]) ++ rest)) =
      .ok ((S.F.fl.map (fI S)).flatten, (if S.F.rl = [] then [] else [.ints (S.F.rl.map (rI S)).flatten]) ++ rest) := by
    unfold takeIf
    rw [if_pos (by simpa using hf), takeInts_ok (flatten_len fun f hf => by
      have := h.edges f hf
      unfold fI
      simp only [List.length_cons, List.length_append, List.length_map, List.length_nil]
      omega)]
  have t3 : takeIf (S.F.rl.length ≠ 0) ((1 + 512 + 3)*S.F.rl.length) 
        ((if S.F.rl = [] then [] else [Msg.ints (D := D) (S.F.rl.map (rI S)).flatten]) ++ rest) =
      .ok ((S.F.rl.map (rI S)).flatten, rest) := by
    unfold takeIf
    by_cases hr : S.F.rl = []
    · rw [if_pos hr, hr]; rfl
    · rw [if_pos (by simpa using hr), if_neg hr]
      exact takeInts_ok (flatten_len fun f hf => by
        have := h.faces f hf
        unfold rI
        simp only [List.length_cons, List.length_append, List.length_map, List.length_nil]
        omega)
  unfold recvOthers
  rw [if_neg nv0, if_neg (by omega), t1, Res.bind_ok]
  dsimp only
  rw [t2, Res.bind_ok]
  dsimp only
  rw [t3, Res.bind_ok]
  dsimp only
  rw [e1, Res.bind_ok, e2, Res.bind_ok, e3, Res.bind_ok]
  rfl

/-- all that is there of a mesh that has been received -/
def full (S : CMesh D) : Cnt :=
  ⟨S.F.vl.length, S.F.el.length, S.F.fl.length, S.F.rl.length, S.F.vl.length, S.F.vl.length, S.F.el.length,
    S.F.fl.length, S.F.rl.length⟩

theorem recvEnts_ok {zero : D} {S : CMesh D} (h : Sendable S) (hv : S.F.vl ≠ []) (he : S.F.el ≠ []) (hf : S.F.fl ≠ [])
    (rest : List (Msg D)) : ∃ N, recvEnts zero (entMsgs S ++ rest) = .ok (N, rest) ∧ Rcv zero S N (full S) := by
  obtain ⟨N1, h1, p1⟩ := recvVerts_ok (zero := zero) h (.ints (S.F.el.map (eI S)).flatten ::
        .ints (S.F.fl.map (fI S)).flatten :: ((if S.F.rl = [] then [] else [.ints (S.F.rl.map (rI S)).flatten]) ++ rest))
  obtain ⟨N2, h2, p2⟩ := recvOthers_ok h hv he hf p1 rest
  refine ⟨N2, ?_, p2⟩
  unfold recvEnts entMsgs metaMsg
  rw [List.cons_append, takeInts_ok (by simp), Res.bind_ok]
  dsimp only
  rw [show rd [(0 : Int), S.F.vl.length, S.F.el.length, S.F.fl.length, S.F.rl.length] 0 = .ok 0 from rfl, Res.bind_ok,
    show rd [(0 : Int), S.F.vl.length, S.F.el.length, S.F.fl.length, S.F.rl.length] 1 = .ok (S.F.vl.length : Int) from rfl,
    Res.bind_ok,
    show rd [(0 : Int), S.F.vl.length, S.F.el.length, S.F.fl.length, S.F.rl.length] 2 = .ok (S.F.el.length : Int) from rfl,
    Res.bind_ok,
    show rd [(0 : Int), S.F.vl.length, S.F.el.length, S.F.fl.length, S.F.rl.length] 3 = .ok (S.F.fl.length : Int) from rfl,
    Res.bind_ok,
    show rd [(0 : Int), S.F.vl.length, S.F.el.length, S.F.fl.length, S.F.rl.length] 4 = .ok (S.F.rl.length : Int) from rfl,
    Res.bind_ok]
  simp only [Int.toNat_natCast, List.cons_append]
  rw [h1, Res.bind_ok]
  exact h2

theorem upto_ext {α : Type} {n : Nat} {g g' : Nat → α} {d : α} {old : Nat → α} (hg : ∀ i < n, g i = g' i) (ho : ∀ i, old i = d) :
    upto n g d = ext 0 n g' old := by
  funext i
  unfold upto ext
  by_cases hi : i < n
  · rw [if_pos hi, if_pos (by omega), hg i hi, Nat.sub_zero]
  · rw [if_neg hi, if_neg (by omega), ho]

theorem upto_ids {n : Nat} {l : List Nat} {ids : Nat → Int} {old : Nat → Int} (hn : n = l.length)
    (h : ∀ (i : Nat) v, l[i]? = some v → ids v = i+1) (ho : ∀ i, old i = 0) :
    upto n (fun i => (i : Int) + 1) 0 = tab 0 n l ids old := by
  refine upto_ext (fun i hi => ?_) ho
  rw [hn] at hi
  rw [List.getD_eq_getElem?_getD, List.getElem?_eq_getElem hi, Option.getD_some]
  exact (h i _ (List.getElem?_eq_getElem hi)).symm

/-- the state after receiving all entities is that after copying them to a new mesh -/
theorem cop_of_rcv {zero : D} {S N : CMesh D} (h : Sendable S) (hi : Rcv zero S N (full S)) :
    Cop S (CMesh.new zero) ⟨N, fun k x => some ((S.F.list k).idxOf x)⟩ S.F.vl.length S.F.el.length S.F.fl.length
      S.F.rl.length where
  cons := hi.cons
  cv := hi.cv.trans (Nat.zero_add _).symm
  ce := hi.ce.trans (Nat.zero_add _).symm
  cf := hi.cf.trans (Nat.zero_add _).symm
  cr := hi.cr.trans (Nat.zero_add _).symm
  vl := by rw [show (CMesh.new zero).F.T.nv = 0 from rfl]; simp only [Nat.zero_add, List.map_id']; exact hi.vl
  el := by rw [show (CMesh.new zero).F.T.ne = 0 from rfl]; simp only [Nat.zero_add, List.map_id']; exact hi.el
  fl := by rw [show (CMesh.new zero).F.T.nf = 0 from rfl]; simp only [Nat.zero_add, List.map_id']; exact hi.fl
  rl := by rw [show (CMesh.new zero).F.T.nr = 0 from rfl]; simp only [Nat.zero_add, List.map_id']; exact hi.rl
  view := by
    rw [hi.view]
    unfold partly grown
    congr 1
    · exact upto_ext (fun _ _ => rfl) fun _ => rfl
    · exact upto_ext (fun _ _ => rfl) fun _ => rfl
    · exact upto_ext (fun _ _ => rfl) fun _ => rfl
    · exact upto_ext (fun _ _ => rfl) fun _ => rfl
    · refine upto_ext (fun i _ => ?_) fun _ => rfl
      unfold endsI endsC
      rw [show (CMesh.new zero).F.T.nv = 0 from rfl]
      simp only [Nat.zero_add]
    · refine upto_ext (fun i _ => ?_) fun _ => rfl
      unfold edgesI edgesC
      rw [show (CMesh.new zero).F.T.ne = 0 from rfl]
      simp only [Nat.zero_add]
    · refine upto_ext (fun i _ => ?_) fun _ => rfl
      unfold facesI facesC
      rw [show (CMesh.new zero).F.T.nf = 0 from rfl]
      simp only [Nat.zero_add]
  fe := fun i h => by rw [show (CMesh.new zero).F.T.nf + i = i from Nat.zero_add i]; exact hi.fe i h
  rf := fun i h => by rw [show (CMesh.new zero).F.T.nr + i = i from Nat.zero_add i]; exact hi.rf i h
  feOld := fun f hf => absurd hf (Nat.not_lt_zero f)
  rfOld := fun f hf => absurd hf (Nat.not_lt_zero f)
  xyz := hi.xyz
  vc := hi.vc
  ec := hi.ec
  fc := hi.fc
  rc := hi.rc
  vid := by rw [hi.vid]; exact upto_ids rfl h.vid fun _ => rfl
  eid := by rw [hi.eid]; exact upto_ids rfl h.eid fun _ => rfl
  fid := by rw [hi.fid]; exact upto_ids rfl h.fid fun _ => rfl
  rid := by rw [hi.rid]; exact upto_ids rfl h.rid fun _ => rfl
  par0 := hi.par0
  par1 := hi.par1
  par2 := hi.par2
  par3 := hi.par3
  cp0 := fun i x _ hx => congrArg some ((idxOf_at h.mesh.vl.1 hx).trans (Nat.zero_add i).symm)
  cp1 := fun i x _ hx => congrArg some ((idxOf_at h.mesh.el.1 hx).trans (Nat.zero_add i).symm)
  cp2 := fun i x _ hx => congrArg some ((idxOf_at h.mesh.fl.1 hx).trans (Nat.zero_add i).symm)
  cp3 := fun i x _ hx => congrArg some ((idxOf_at h.mesh.rl.1 hx).trans (Nat.zero_add i).symm)
  atts := hi.atts
  sets := hi.sets

/-! ### attributes -/

/-- An attribute that can be sent: the name fits into the buffer, the kind of entity and the number of
components fit into one integer, the values are of the kind it says, and vectors and tensors have
more than one component and are there for all entities. -/
structure AttFits (S : CMesh D) (a : Attr D) : Prop where
  name : a.name.length < 256
  comps : a.ncomp = compsOf a.ty a.ncomp
  ent : a.ent < 8
  fits : 64 * a.ncomp < 2147483648
  vals : ∀ k x v, a.val k x = some v → Holds a v
  vector : a.ty = .vec ∨ a.ty = .tns → 1 < a.ncomp ∧ (∀ x ∈ S.F.list a.ent, ∃ v, a.val a.ent x = some v)

/-- the attribute without values -/
def blank (a : Attr D) : Attr D := ⟨a.name, a.ty, a.ncomp, a.ent, fun _ _ => none⟩

/-- the word for an attribute -/
def aW (a : Attr D) : Int := 64 * a.ncomp + (8 * (a.ent : Int) + tyCode a.ty)

/-- the messages about the kinds of attributes -/
def attMeta (bs : List (Attr D)) : List (Msg D) :=
  if bs = [] then [.ints [0]]
  else [.ints [(bs.length : Int)], .ints (bs.map aW), .names (bs.map (·.name))]

theorem sendAttrMeta_ok {as : List (Attr D)} (hn : ∀ a ∈ as, a.name.length < 256)
    (hf : ∀ a ∈ as, a.ty ≠ .ptr → 64 * a.ncomp < 2147483648) :
    sendAttrMeta as = .ok (attMeta (as.filter fun a => a.ty ≠ .ptr)) := by
  unfold sendAttrMeta
  rw [if_neg (by
    rw [List.any_eq_true]
    rintro ⟨a, ha, h⟩
    have := hn a ha
    have := of_decide_eq_true h
    omega)]
  dsimp only
  rw [if_neg (by
    rw [List.any_eq_true]
    rintro ⟨a, ha, h⟩
    rw [List.mem_filter] at ha
    have := hf a ha.1 (by simpa using ha.2)
    have := of_decide_eq_true h
    omega)]
  unfold attMeta
  split <;> rfl

theorem aW_ty (a : Attr D) : tyOf (aW a % 8) = some a.ty := by
  have h : aW a % 8 = tyCode a.ty := by
    unfold aW
    have : 0 ≤ tyCode a.ty ∧ tyCode a.ty < 8 := by cases a.ty <;> decide
    omega
  rw [h]
  cases a.ty <;> rfl

theorem aW_ent {a : Attr D} (h : a.ent < 8) : (aW a / 8 % 8).toNat = a.ent := by
  have : 0 ≤ tyCode a.ty ∧ tyCode a.ty < 8 := by cases a.ty <;> decide
  unfold aW
  omega

theorem aW_comp {a : Attr D} (h : a.ent < 8) : aW a / 64 = a.ncomp := by
  have : 0 ≤ tyCode a.ty ∧ tyCode a.ty < 8 := by cases a.ty <;> decide
  unfold aW
  omega

/-- the mesh with other attributes -/
def withAtts (N : CMesh D) (as : List (Attr D)) : CMesh D := { N with F := { N.F with atts := as } }

theorem take_next {α : Type} {l : List α} {k : Nat} {x : α} (h : l[k]? = some x) : l.take (k+1) = l.take k ++ [x] := by
  rw [List.take_add_one, h]; rfl

theorem not_before {l : List (List Char)} (hn : l.Nodup) {k : Nat} {x : List Char} (h : l[k]? = some x) : x ∉ l.take k := by
  intro hm
  obtain ⟨i, hi⟩ := List.mem_iff_getElem?.1 hm
  have hik : i < k := by
    have := (List.getElem?_eq_some_iff.1 hi).1
    rw [List.length_take] at this; omega
  rw [List.getElem?_take_of_lt hik] at hi
  have := (List.getElem?_inj (List.getElem?_eq_some_iff.1 hi).1 hn).1 (hi.trans h.symm)
  omega

theorem makeAttrs_ok {N : CMesh D} {S : CMesh D} {bs : List (Attr D)} (hn : (bs.map (·.name)).Nodup)
    (hb : ∀ a ∈ bs, AttFits S a) {k : Nat} (hk : k < bs.length) :
    makeAttrs (bs.map aW) (bs.map (·.name)) k (withAtts N ((bs.take k).map blank)) =
      .ok (withAtts N ((bs.take (k+1)).map blank)) := by
  have hx : bs[k]? = some bs[k] := List.getElem?_eq_getElem hk
  have hm := List.getElem_mem hk
  generalize bs[k] = a at hx hm
  have r1 : rd (bs.map (·.name)) k = .ok a.name := rd_ok (by rw [List.getElem?_map, hx]; rfl)
  have r2 : rd (bs.map aW) k = .ok (aW a) := rd_ok (by rw [List.getElem?_map, hx]; rfl)
  have hno : ¬ (((bs.take k).map blank).any fun b => b.name = a.name) = true := by
    rw [List.any_eq_true]
    rintro ⟨b, hb', h⟩
    obtain ⟨c, hc, rfl⟩ := List.mem_map.1 hb'
    refine not_before hn (k := k) (x := a.name) (by rw [List.getElem?_map, hx]; rfl) ?_
    rw [← List.map_take]
    exact List.mem_map.2 ⟨c, hc, of_decide_eq_true h⟩
  have hv : ¬ (a.ncomp = 1 ∧ (a.ty = .vec ∨ a.ty = .tns)) := by
    rintro ⟨h1, h2⟩
    have := ((hb a hm).vector h2).1
    omega
  unfold makeAttrs
  rw [r1, Res.bind_ok, if_neg (show ¬ ((withAtts N ((bs.take k).map blank)).F.atts.any fun b => b.name = a.name) = true from hno), r2, Res.bind_ok, aW_ty, Res.ofOption_some, Res.bind_ok]
  dsimp only
  rw [aW_comp (hb a hm).ent, if_neg hv, aW_ent (hb a hm).ent, ← (hb a hm).comps, take_next hx, List.map_append]
  rfl

theorem recvAttrMeta_ok {N : CMesh D} {S : CMesh D} (h0 : N.F.atts = []) {bs : List (Attr D)} (hn : (bs.map (·.name)).Nodup)
    (hb : ∀ a ∈ bs, AttFits S a) (rest : List (Msg D)) :
    recvAttrMeta N (attMeta bs ++ rest) = .ok (withAtts N (bs.map blank), rest) := by
  have hN : N = withAtts N ((bs.take 0).map blank) := by
    obtain ⟨F, _, _, _⟩ := N
    unfold withAtts
    simp only [List.take_zero, List.map_nil] at h0 ⊢
    rw [← h0]
  unfold recvAttrMeta attMeta
  by_cases he : bs = []
  · rw [if_pos he, List.cons_append, takeInts_ok (by simp), Res.bind_ok]
    subst he
    dsimp only
    rw [show rd [(0 : Int)] 0 = .ok 0 from rfl, Res.bind_ok]
    rw [if_pos (show Int.toNat 0 = 0 from rfl)]
    rw [List.take_zero] at hN
    rw [← hN]
    rfl
  · rw [if_neg he, List.cons_append, takeInts_ok (by simp), Res.bind_ok]
    dsimp only
    rw [show rd [(bs.length : Int)] 0 = .ok (bs.length : Int) from rfl, Res.bind_ok]
    have hl : bs.length ≠ 0 := fun h => he (List.length_eq_zero_iff.1 h)
    rw [Int.toNat_natCast, if_neg hl, List.cons_append, takeInts_ok (by simp), Res.bind_ok]
    dsimp only
    rw [List.cons_append, takeNames_ok (by simp), Res.bind_ok]
    dsimp only
    obtain ⟨N', h1, h2⟩ := loopN_ok (step := makeAttrs (bs.map aW) (bs.map (·.name))) (n := bs.length)
      (fun M k => M = withAtts N ((bs.take k).map blank)) hN (by
        rintro k _ hk rfl
        exact ⟨_, makeAttrs_ok hn hb hk, rfl⟩)
    rw [h1, Res.bind_ok, h2, List.take_length]
    rfl

/-- the number sent for an entity -/
def valI (a : Attr D) (x : Nat) : Int :=
  match a.val a.ent x with
  | some (.int i) => i
  | _ => 0
/-- the numbers sent for an entity -/
def valD (zero : D) (a : Attr D) (x : Nat) : List D :=
  match a.val a.ent x with
  | some (.dbl y) => [y]
  | some (.arr ys) => ys
  | _ => [zero]

/-- the messages about the values of an attribute -/
def attMsgs (zero : D) (S : CMesh D) (a : Attr D) : List (Msg D) :=
  if 4 ≤ a.ent then []
  else [.ints ((S.F.list a.ent).map fun x => ((S.par a.ent x).gid : Int)),
    if a.ty = .int then .ints ((S.F.list a.ent).map (valI a)) else .dbls ((S.F.list a.ent).map (valD zero a)).flatten]

theorem AttFits.one {S : CMesh D} {a : Attr D} (h : AttFits S a) (ht : a.ty ≠ .vec ∧ a.ty ≠ .tns) : a.ncomp = 1 := by
  have := h.comps
  revert this ht
  cases a.ty <;> simp [compsOf]

theorem sendAttr_ok {zero : D} {S : CMesh D} {a : Attr D} (h : AttFits S a) :
    sendAttr zero S a = .ok (attMsgs zero S a) := by
  unfold sendAttr attMsgs
  by_cases h4 : 4 ≤ a.ent
  · rw [if_pos h4, if_pos h4]
  · have hc : ¬ a.ncomp < 1 := by
      by_cases hv : a.ty = .vec ∨ a.ty = .tns
      · have := (h.vector hv).1; omega
      · have := h.one ⟨fun e => hv (Or.inl e), fun e => hv (Or.inr e)⟩; omega
    rw [if_neg h4, if_neg hc, if_neg h4]
    dsimp only
    by_cases hi : a.ty = .int
    · rw [if_pos hi, if_pos hi, each_ok (h := valI a) (fun x _ => ?_), Res.bind_ok]
      · rfl
      · unfold valI
        cases hv : a.val a.ent x with
        | none => rfl
        | some v =>
          cases v with
          | int i => rfl
          | dbl y => have := h.vals _ _ _ hv; unfold Holds at this; rw [hi] at this; cases this
          | arr ys => have := h.vals _ _ _ hv; unfold Holds at this; rw [hi] at this; simp at this
    · rw [if_neg hi, if_neg hi, each_ok (h := valD zero a) (fun x hx => ?_), Res.bind_ok]
      · rfl
      · unfold valD
        cases hv : a.val a.ent x with
        | none =>
          have : a.ncomp = 1 := by
            refine h.one ⟨fun e => ?_, fun e => ?_⟩
            · obtain ⟨_, h2⟩ := h.vector (Or.inl e)
              obtain ⟨v, hv'⟩ := h2 x hx
              rw [hv] at hv'; cases hv'
            · obtain ⟨_, h2⟩ := h.vector (Or.inr e)
              obtain ⟨v, hv'⟩ := h2 x hx
              rw [hv] at hv'; cases hv'
          exact if_pos this
        | some v =>
          have hh := h.vals _ _ _ hv
          cases v with
          | int i => exact absurd hh hi
          | dbl y => exact if_pos hh
          | arr ys =>
            have h1 := (h.vector hh.1).1
            unfold dblsOf
            dsimp only
            rw [if_neg (by omega), if_pos (by rw [hh.2]), ← hh.2, List.take_length]

/-- the attribute with the values of the first `k` entities -/
def partA (nz : D → Bool) (S : CMesh D) (a : Attr D) (k : Nat) : Attr D :=
  { blank a with val := fun k' j => if k' = a.ent ∧ j < k then keepIn nz a (a.val a.ent ((S.F.list a.ent).getD j 0)) else none }

theorem partA_some {nz : D → Bool} {S : CMesh D} {a : Attr D} {k x : Nat} {v : AVal D} (hx : (S.F.list a.ent)[k]? = some x)
    (hv : keepIn nz a (a.val a.ent x) = some v) : (partA nz S a k).put a.ent k v = partA nz S a (k+1) := by
  unfold partA Attr.put blank
  congr 1
  funext k' j
  dsimp only
  by_cases h : k' = a.ent ∧ j = k
  · rw [if_pos h, if_pos ⟨h.1, by omega⟩, h.2, List.getD_eq_getElem?_getD, hx, Option.getD_some, hv]
  · rw [if_neg h]
    by_cases h2 : k' = a.ent ∧ j < k
    · rw [if_pos h2, if_pos ⟨h2.1, by omega⟩]
    · rw [if_neg h2, if_neg (by omega)]

theorem partA_none {nz : D → Bool} {S : CMesh D} {a : Attr D} {k x : Nat} (hx : (S.F.list a.ent)[k]? = some x)
    (hv : keepIn nz a (a.val a.ent x) = none) : partA nz S a k = partA nz S a (k+1) := by
  unfold partA blank
  dsimp only
  congr 1
  funext k' j
  by_cases h : k' = a.ent ∧ j = k
  · rw [if_neg (by omega), if_pos ⟨h.1, by omega⟩, h.2, List.getD_eq_getElem?_getD, hx, Option.getD_some, hv]
  · by_cases h2 : k' = a.ent ∧ j < k
    · rw [if_pos h2, if_pos ⟨h2.1, by omega⟩]
    · rw [if_neg h2, if_neg (by omega)]

/-- what receiving attributes and sets needs to know of the mesh: the entities are numbered, with the global IDs
of those that were sent -/
structure Placed (S N : CMesh D) : Prop where
  list : ∀ k, N.F.list k = List.range (S.F.list k).length
  gid : ∀ k (i x : Nat), (S.F.list k)[i]? = some x → (N.par k i).gid = (S.par k x).gid

theorem tab0_at {α : Type} {l : List Nat} {i x : Nat} {src old f : Nat → α} (hf : f = tab 0 l.length l src old)
    (hx : l[i]? = some x) : f i = src x := by
  have hi := (List.getElem?_eq_some_iff.1 hx).1
  rw [hf]; unfold tab
  have := ext_at (n := 0) (g := fun i => src (l.getD i 0)) (old := old) hi
  rw [Nat.zero_add] at this
  rw [this, List.getD_eq_getElem?_getD, hx]
  rfl

theorem placed_of_rcv {zero : D} {S N : CMesh D} (hi : Rcv zero S N (full S)) : Placed S N where
  list := by
    intro k
    match k with
    | 0 => exact hi.vl
    | 1 => exact hi.el
    | 2 => exact hi.fl
    | 3 => exact hi.rl
    | k+4 => rfl
  gid := by
    intro k i x hx
    match k, hx with
    | 0, hx => rw [tab0_at hi.par0 hx]
    | 1, hx => rw [tab0_at hi.par1 hx]
    | 2, hx => rw [tab0_at hi.par2 hx]
    | 3, hx => rw [tab0_at hi.par3 hx]; rfl
    | k+4, hx => simp [FMesh.list] at hx

theorem Placed.at {S N : CMesh D} (h : Placed S N) {k i : Nat} (hi : i < (S.F.list k).length) : rd (N.F.list k) i = .ok i :=
  rd_ok (by rw [h.list, List.getElem?_range hi])

theorem flatten_block {α β : Type} {g : α → List β} {c : Nat} : ∀ {l : List α} {i : Nat} {x : α}, (∀ x ∈ l, (g x).length = c) →
    l[i]? = some x → ¬ (l.map g).flatten.length < i * c + c ∧ ((l.map g).flatten.drop (i * c)).take c = g x
  | [], i, x, _, h => by simp at h
  | y :: ys, 0, x, hc, h => by
    simp only [List.getElem?_cons_zero, Option.some.injEq] at h
    subst h
    have := hc y (by simp)
    rw [List.map_cons, List.flatten_cons, List.length_append, Nat.zero_mul]
    refine ⟨by omega, ?_⟩
    rw [List.drop_zero, ← this, List.take_left]
  | y :: ys, i+1, x, hc, h => by
    rw [List.getElem?_cons_succ] at h
    obtain ⟨h1, h2⟩ := flatten_block (fun z hz => hc z (List.mem_cons_of_mem _ hz)) h
    have := hc y (by simp)
    rw [List.map_cons, List.flatten_cons, List.length_append, Nat.succ_mul]
    refine ⟨by omega, ?_⟩
    rw [show i * c + c = (g y).length + i * c by omega, List.drop_append, List.drop_eq_nil_of_le (by omega), List.nil_append,
      show (g y).length + i * c - (g y).length = i * c by omega]
    exact h2

/-- what becomes of an attribute -/
def Arrived (nz : D → Bool) (S N0 : CMesh D) (a B : Attr D) : Prop :=
  if a.ent < 4 then CarriedTo nz S N0 a B else B = blank a

theorem off_new (zero : D) (k : Nat) : off (CMesh.new zero) k = 0 := by
  match k with
  | 0 => rfl
  | 1 => rfl
  | 2 => rfl
  | k+3 => rfl

theorem partA_full {nz : D → Bool} {S : CMesh D} {zero : D} {a : Attr D} (h : AttFits S a) (h4 : a.ent < 4) :
    CarriedTo nz S (CMesh.new zero) a (partA nz S a (S.F.list a.ent).length) where
  head := ⟨rfl, rfl, h.comps, rfl⟩
  vals := by
    intro k hk i x hx
    have : k = a.ent := by
      unfold Attr.kinds at hk
      rw [if_neg (by omega), if_pos h4] at hk
      simpa using hk
    subst this
    rw [off_new, Nat.zero_add]
    unfold partA
    dsimp only
    rw [if_pos ⟨rfl, (List.getElem?_eq_some_iff.1 hx).1⟩, List.getD_eq_getElem?_getD, hx]
    rfl
  none := by
    intro k j hk
    unfold partA
    dsimp only
    refine if_neg ?_
    rintro ⟨rfl, hj⟩
    rw [off_new] at hk
    rcases hk with hk | hk | hk
    · refine hk ?_
      unfold Attr.kinds
      rw [if_neg (by omega), if_pos h4]
      simp
    · omega
    · omega

theorem recvAttr_ok {nz : D → Bool} {zero : D} {S N : CMesh D} (hN : Placed S N) (hz : nz zero = false) {a : Attr D}
    (h : AttFits S a) (hp : a.ty ≠ .ptr) (rest : List (Msg D)) :
    ∃ B, recvAttr nz N (blank a) (attMsgs zero S a ++ rest) = .ok (B, rest) ∧ Arrived nz S (CMesh.new zero) a B := by
  unfold recvAttr attMsgs Arrived
  by_cases h4 : 4 ≤ a.ent
  · rw [if_pos (show 4 ≤ (blank a).ent from h4), if_pos h4]
    simp only [if_neg (show ¬ a.ent < 4 by omega)]
    exact ⟨_, rfl, rfl⟩
  · rw [if_neg (show ¬ 4 ≤ (blank a).ent from h4), if_neg h4]
    simp only [if_pos (show a.ent < 4 by omega)]
    refine ⟨partA nz S a (S.F.list a.ent).length, ?_, partA_full h (by omega)⟩
    have hlen : (N.F.list (blank a).ent).length = (S.F.list a.ent).length := by
      rw [hN.list, List.length_range]; rfl
    have hgid : ∀ i x, (S.F.list a.ent)[i]? = some x →
        rd ((S.F.list a.ent).map fun x => ((S.par a.ent x).gid : Int)) i = .ok ((S.par a.ent x).gid : Int) :=
      fun i x hx => rd_ok (by rw [List.getElem?_map, hx]; rfl)
    have hs : blank a = partA nz S a 0 := by
      unfold partA blank
      congr 1
      funext k' j
      rw [if_neg (by omega)]
    rw [hlen, List.cons_append, takeInts_ok (by simp), Res.bind_ok]
    dsimp only
    by_cases hi : a.ty = .int
    · have h1 : a.ncomp = 1 := h.one ⟨by rw [hi]; decide, by rw [hi]; decide⟩
      rw [if_pos (show (blank a).ty = .int from hi), if_pos hi, List.cons_append, takeInts_ok (by
        rw [show (blank a).ncomp = a.ncomp from rfl, h1]; simp), Res.bind_ok]
      dsimp only
      obtain ⟨B, b1, b2⟩ := loopN_ok (step := recvInt N ((S.F.list a.ent).map fun x => ((S.par a.ent x).gid : Int))
          ((S.F.list a.ent).map (valI a))) (n := (S.F.list a.ent).length) (fun b k => b = partA nz S a k) hs (by
        rintro k _ hk rfl
        have hx := List.getElem?_eq_getElem hk
        generalize (S.F.list a.ent)[k] = x at hx
        have r1 : rd ((S.F.list a.ent).map (valI a)) k = .ok (valI a x) := rd_ok (by rw [List.getElem?_map, hx]; rfl)
        unfold recvInt
        rw [show (partA nz S a k).ent = a.ent from rfl, hN.at hk, Res.bind_ok, hgid k x hx, Res.bind_ok,
          if_neg (by rw [hN.gid a.ent k x hx]; simp), r1, Res.bind_ok]
        refine ⟨_, rfl, ?_⟩
        unfold valI
        cases hv : a.val a.ent x with
        | none =>
          rw [if_neg (by simp)]
          exact partA_none hx (by rw [hv]; unfold keepIn; rw [if_neg hp]; rfl)
        | some v =>
          cases v with
          | int i =>
            dsimp only
            by_cases h0 : i = 0
            · rw [if_neg (by simpa using h0)]
              exact partA_none hx (by rw [hv]; unfold keepIn; rw [if_neg hp]; exact if_neg (by simpa using h0))
            · rw [if_pos h0]
              exact partA_some hx (by rw [hv]; unfold keepIn; rw [if_neg hp]; exact if_pos h0)
          | dbl y => have := h.vals _ _ _ hv; unfold Holds at this; rw [hi] at this; cases this
          | arr ys => have := h.vals _ _ _ hv; unfold Holds at this; rw [hi] at this; simp at this)
      rw [b1, Res.bind_ok, b2]
      rfl
    · rw [if_neg (show ¬ (blank a).ty = .int from hi), if_neg hi, List.cons_append]
      have hlenD : ∀ x ∈ S.F.list a.ent, (valD zero a x).length = a.ncomp.toNat := by
        intro x hx
        unfold valD
        cases hv : a.val a.ent x with
        | none =>
          have : a.ncomp = 1 := by
            refine h.one ⟨fun e => ?_, fun e => ?_⟩
            · obtain ⟨v, hv'⟩ := (h.vector (Or.inl e)).2 x hx
              rw [hv] at hv'; cases hv'
            · obtain ⟨v, hv'⟩ := (h.vector (Or.inr e)).2 x hx
              rw [hv] at hv'; cases hv'
          rw [this]; rfl
        | some v =>
          have hh := h.vals _ _ _ hv
          cases v with
          | int i => exact absurd hh hi
          | dbl y =>
            have : a.ncomp = 1 := h.one ⟨by rw [show a.ty = _ from hh]; decide, by rw [show a.ty = _ from hh]; decide⟩
            rw [this]; rfl
          | arr ys => exact hh.2
      rw [takeDbls_ok (by
        rw [Nat.mul_comm]
        exact flatten_len fun x hx => Nat.le_of_eq (hlenD x hx)), Res.bind_ok]
      dsimp only
      by_cases hd : a.ty = .dbl
      · have h1 : a.ncomp = 1 := h.one ⟨by rw [hd]; decide, by rw [hd]; decide⟩
        rw [if_pos (show (blank a).ty = .dbl from hd)]
        obtain ⟨B, b1, b2⟩ := loopN_ok (step := recvDbl nz N ((S.F.list a.ent).map fun x => ((S.par a.ent x).gid : Int))
            ((S.F.list a.ent).map (valD zero a)).flatten) (n := (S.F.list a.ent).length) (fun b k => b = partA nz S a k) hs (by
          rintro k _ hk rfl
          have hx := List.getElem?_eq_getElem hk
          have hm := List.getElem_mem hk
          generalize (S.F.list a.ent)[k] = x at hx hm
          have r1 : ∀ y, valD zero a x = [y] → rd ((S.F.list a.ent).map (valD zero a)).flatten k = .ok y := by
            intro y hy
            have := rd_flat (g := valD zero a) (c := 1) (fun z hz => by rw [hlenD z hz, h1]; rfl) hx (j := 0) (by omega)
              (y := y) (by rw [hy]; rfl)
            rwa [Nat.one_mul, Nat.add_zero] at this
          unfold recvDbl
          rw [show (partA nz S a k).ent = a.ent from rfl, hN.at hk, Res.bind_ok, hgid k x hx, Res.bind_ok,
            if_neg (by rw [hN.gid a.ent k x hx]; simp)]
          cases hv : a.val a.ent x with
          | none =>
            rw [r1 zero (by unfold valD; rw [hv]), Res.bind_ok, hz]
            exact ⟨_, rfl, partA_none hx (by rw [hv]; unfold keepIn; rw [if_neg hp]; rfl)⟩
          | some v =>
            have hh := h.vals _ _ _ hv
            cases v with
            | int i => exact absurd hh hi
            | dbl y =>
              rw [r1 y (by unfold valD; rw [hv]), Res.bind_ok]
              refine ⟨_, rfl, ?_⟩
              cases hy : nz y with
              | true =>
                rw [if_pos rfl]
                exact partA_some hx (by rw [hv]; unfold keepIn; rw [if_neg hp]; exact if_pos hy)
              | false =>
                rw [if_neg (by simp)]
                exact partA_none hx (by rw [hv]; unfold keepIn; rw [if_neg hp]; exact if_neg (by rw [hy]; simp))
            | arr ys => have := hh.1; rw [hd] at this; simp at this)
        rw [b1, Res.bind_ok, b2]
        rfl
      · rw [if_neg (show ¬ (blank a).ty = .dbl from hd)]
        have hvec : a.ty = .vec ∨ a.ty = .tns := by
          revert hp hi hd
          cases a.ty <;> simp
        obtain ⟨hc, hall⟩ := h.vector hvec
        obtain ⟨B, b1, b2⟩ := loopN_ok (step := recvArr N ((S.F.list a.ent).map fun x => ((S.par a.ent x).gid : Int))
            ((S.F.list a.ent).map (valD zero a)).flatten) (n := (S.F.list a.ent).length) (fun b k => b = partA nz S a k) hs (by
          rintro k _ hk rfl
          have hx := List.getElem?_eq_getElem hk
          have hm := List.getElem_mem hk
          generalize (S.F.list a.ent)[k] = x at hx hm
          obtain ⟨l1, l2⟩ := flatten_block (g := valD zero a) (c := a.ncomp.toNat) hlenD hx
          obtain ⟨v, hv⟩ := hall x hm
          have hh := h.vals _ _ _ hv
          unfold recvArr
          rw [show (partA nz S a k).ent = a.ent from rfl, show (partA nz S a k).ncomp = a.ncomp from rfl, hN.at hk,
            Res.bind_ok, hgid k x hx, Res.bind_ok, if_neg (by rw [hN.gid a.ent k x hx]; simp), if_pos hc, if_neg l1, l2]
          cases v with
          | int i => exact absurd hh hi
          | dbl y => exact absurd hh hd
          | arr ys =>
            rw [show valD zero a x = ys by unfold valD; rw [hv]]
            exact ⟨_, rfl, partA_some hx (by rw [hv]; unfold keepIn; rw [if_neg hp]; rfl)⟩)
        rw [b1, Res.bind_ok, b2]
        rfl

theorem recvAttrs_ok {nz : D → Bool} {zero : D} {S N : CMesh D} (hN : Placed S N) (hz : nz zero = false) :
    ∀ (bs : List (Attr D)), (∀ a ∈ bs, AttFits S a ∧ a.ty ≠ .ptr) → ∀ (rest : List (Msg D)),
    ∃ Bs, recvAttrs nz N (bs.map blank) ((bs.map (attMsgs zero S)).flatten ++ rest) = .ok (Bs, rest) ∧
      List.Forall₂ (Arrived nz S (CMesh.new zero)) bs Bs
  | [], _, rest => ⟨[], rfl, .nil⟩
  | a :: bs, h, rest => by
    obtain ⟨Bs, h1, h2⟩ := recvAttrs_ok hN hz bs (fun b hb => h b (List.mem_cons_of_mem _ hb)) rest
    obtain ⟨B, h3, h4⟩ := recvAttr_ok hN hz (h a (by simp)).1 (h a (by simp)).2 ((bs.map (attMsgs zero S)).flatten ++ rest)
    refine ⟨B :: Bs, ?_, .cons h4 h2⟩
    rw [List.map_cons, List.map_cons, List.flatten_cons, List.append_assoc]
    unfold recvAttrs
    rw [h3, Res.bind_ok]
    dsimp only
    rw [h1, Res.bind_ok]
    rfl

/-! ### sets -/

/-- the messages about the kinds of sets -/
def setMeta (ms : List SetD) : List (Msg D) :=
  if ms = [] then [.ints [0]]
  else [.ints [(ms.length : Int)], .ints (ms.map fun m => (m.dim : Int)), .names (ms.map (·.name))]

theorem sendSetMeta_ok {ms : List SetD} (hn : ∀ m ∈ ms, m.name.length < 256) :
    sendSetMeta (D := D) ms = .ok (setMeta ms) := by
  unfold sendSetMeta setMeta
  by_cases h : ms = []
  · rw [if_pos h, if_pos h]
  · rw [if_neg h, if_neg h, if_neg]
    rw [List.any_eq_true]
    rintro ⟨m, hm, h⟩
    have := hn m hm
    have := of_decide_eq_true h
    omega

/-- the messages about a set -/
def setMsgs (S : CMesh D) (m : SetD) : List (Msg D) :=
  [.ints [((m.ents.filterMap id).length : Int)],
    .ints ((m.ents.filterMap id).map fun p => [(p.1 : Int), ((S.par p.1 p.2).gid : Int)]).flatten]

theorem sendSet_ok {S : CMesh D} {m : SetD} (h : m.ents.filterMap id ≠ []) : sendSet S m = .ok (setMsgs S m) := by
  unfold sendSet
  dsimp only
  rw [if_neg h, List.flatMap_def]
  rfl

/-- the mesh with other sets -/
def withSets (N : CMesh D) (ms : List SetD) : CMesh D := { N with sets := ms }

theorem makeSets_ok {N : CMesh D} {ms : List SetD} (hn : (ms.map (·.name)).Nodup) {k : Nat} (hk : k < ms.length) :
    makeSets (ms.map fun m => (m.dim : Int)) (ms.map (·.name)) k
      (withSets N ((ms.take k).map fun m => ⟨m.name, m.dim, []⟩)) =
      .ok (withSets N ((ms.take (k+1)).map fun m => ⟨m.name, m.dim, []⟩)) := by
  have hx : ms[k]? = some ms[k] := List.getElem?_eq_getElem hk
  generalize ms[k] = m at hx
  have r1 : rd (ms.map (·.name)) k = .ok m.name := rd_ok (by rw [List.getElem?_map, hx]; rfl)
  have r2 : rd (ms.map fun m => (m.dim : Int)) k = .ok (m.dim : Int) := rd_ok (by rw [List.getElem?_map, hx]; rfl)
  have hno : ¬ (((ms.take k).map fun m => (⟨m.name, m.dim, []⟩ : SetD)).any fun b => b.name = m.name) = true := by
    rw [List.any_eq_true]
    rintro ⟨b, hb', h⟩
    obtain ⟨c, hc, rfl⟩ := List.mem_map.1 hb'
    refine not_before hn (k := k) (x := m.name) (by rw [List.getElem?_map, hx]; rfl) ?_
    rw [← List.map_take]
    exact List.mem_map.2 ⟨c, hc, of_decide_eq_true h⟩
  unfold makeSets
  rw [r1, Res.bind_ok, if_neg (show ¬ ((withSets N ((ms.take k).map fun m => ⟨m.name, m.dim, []⟩)).sets.any fun b => b.name = m.name) = true from hno),
    r2, Res.bind_ok, Int.toNat_natCast, take_next hx, List.map_append]
  rfl

theorem recvSetMeta_ok {N : CMesh D} (h0 : N.sets = []) {ms : List SetD} (hn : (ms.map (·.name)).Nodup)
    (rest : List (Msg D)) :
    recvSetMeta N (setMeta ms ++ rest) = .ok (withSets N (ms.map fun m => ⟨m.name, m.dim, []⟩), rest) := by
  have hN : N = withSets N ((ms.take 0).map fun m => ⟨m.name, m.dim, []⟩) := by
    obtain ⟨_, _, _, _⟩ := N
    unfold withSets
    simp only [List.take_zero, List.map_nil] at h0 ⊢
    rw [h0]
  unfold recvSetMeta setMeta
  by_cases he : ms = []
  · rw [if_pos he, List.cons_append, takeInts_ok (by simp), Res.bind_ok]
    subst he
    dsimp only
    rw [show rd [(0 : Int)] 0 = .ok 0 from rfl, Res.bind_ok]
    rw [if_pos (show Int.toNat 0 = 0 from rfl)]
    rw [List.take_zero] at hN
    rw [← hN]
    rfl
  · rw [if_neg he, List.cons_append, takeInts_ok (by simp), Res.bind_ok]
    dsimp only
    rw [show rd [(ms.length : Int)] 0 = .ok (ms.length : Int) from rfl, Res.bind_ok]
    have hl : ms.length ≠ 0 := fun h => he (List.length_eq_zero_iff.1 h)
    rw [Int.toNat_natCast, if_neg hl, List.cons_append, takeInts_ok (by simp), Res.bind_ok]
    dsimp only
    rw [List.cons_append, takeNames_ok (by simp), Res.bind_ok]
    dsimp only
    obtain ⟨N', h1, h2⟩ := loopN_ok (step := makeSets (ms.map fun m => (m.dim : Int)) (ms.map (·.name))) (n := ms.length)
      (fun M k => M = withSets N ((ms.take k).map fun m => ⟨m.name, m.dim, []⟩)) hN (by
        rintro k _ hk rfl
        exact ⟨_, makeSets_ok hn hk, rfl⟩)
    rw [h1, Res.bind_ok, h2, List.take_length]
    rfl

theorem fromGid_ok {srch : (Nat → Nat) → List Nat → Nat → Option Nat} (hs : Finds srch) {S N : CMesh D} (hN : Placed S N)
    {k x : Nat} (hk : k < 4) (hx : x ∈ S.F.list k) (hn : (S.F.list k).Nodup)
    (hg : ∀ x ∈ S.F.list k, ∀ y ∈ S.F.list k, (S.par k x).gid = (S.par k y).gid → x = y) :
    fromGid srch N k (S.par k x).gid = .ok (some ((S.F.list k).idxOf x)) := by
  have hlt := List.idxOf_lt_length_of_mem hx
  have hxi : (S.F.list k)[(S.F.list k).idxOf x]? = some x := by rw [List.getElem?_eq_getElem hlt, List.getElem_idxOf]
  have hne : N.F.list k ≠ [] := by
    rw [hN.list]
    intro h0
    have := congrArg List.length h0
    rw [List.length_range, List.length_nil] at this
    omega
  unfold fromGid
  rw [if_neg (by omega), if_neg hne]
  obtain ⟨h1, h2⟩ := hs (fun x => (N.par k x).gid) (N.F.list k) (S.par k x).gid
  cases hr : srch (fun x => (N.par k x).gid) (N.F.list k) (S.par k x).gid with
  | none =>
    exact absurd (hN.gid k _ x hxi) (h2 hr _ (by rw [hN.list]; exact List.mem_range.2 hlt))
  | some y =>
    obtain ⟨m1, m2⟩ := h1 y hr
    rw [hN.list, List.mem_range] at m1
    have hy := List.getElem?_eq_getElem m1
    have hm := List.getElem_mem m1
    generalize (S.F.list k)[y] = z at hy hm
    have e : z = x := hg z hm x hx (by rw [← hN.gid k y z hy]; exact m2)
    subst e
    rw [idxOf_at hn hy]

/-- A set that can be sent: it has entries, which are entities of the mesh. -/
structure SetFits (S : CMesh D) (m : SetD) : Prop where
  name : m.name.length < 256
  some : m.ents.filterMap id ≠ []
  ents : ∀ p, Option.some p ∈ m.ents → p.1 < 4 ∧ p.2 ∈ S.F.list p.1

theorem recvSet_ok {srch : (Nat → Nat) → List Nat → Nat → Option Nat} (hs : Finds srch) {zero : D} {S N : CMesh D}
    (hN : Placed S N) (hS : S.F.Sound)
    (hg : ∀ k < 4, ∀ x ∈ S.F.list k, ∀ y ∈ S.F.list k, (S.par k x).gid = (S.par k y).gid → x = y) {m : SetD}
    (hm : SetFits S m) (rest : List (Msg D)) :
    recvSet srch N ⟨m.name, m.dim, []⟩ (setMsgs S m ++ rest) = .ok (setC S (CMesh.new zero) m, rest) := by
  have hm1 := hm.some
  have hin : ∀ p ∈ m.ents.filterMap id, p.1 < 4 ∧ p.2 ∈ S.F.list p.1 := by
    intro p hp
    obtain ⟨o, ho, e⟩ := List.mem_filterMap.1 hp
    rw [show o = some p from e] at ho
    exact hm.ents p ho
  unfold recvSet setMsgs setC
  generalize m.ents.filterMap id = es at hm1 hin
  rw [List.cons_append, takeInts_ok (by simp), Res.bind_ok]
  dsimp only
  rw [show rd [(es.length : Int)] 0 = .ok (es.length : Int) from rfl, Res.bind_ok]
  have hl : es.length ≠ 0 := fun h => hm1 (List.length_eq_zero_iff.1 h)
  rw [Int.toNat_natCast, if_neg hl, List.cons_append, takeInts_ok (flatten_len fun _ _ => Nat.le_refl 2), Res.bind_ok]
  dsimp only
  obtain ⟨m', h1, h2⟩ := loopN_ok (step := recvEnt srch N
      (es.map fun p => [(p.1 : Int), ((S.par p.1 p.2).gid : Int)]).flatten) (n := es.length)
    (fun m' k => m' = (⟨m.name, m.dim, (es.take k).map fun p => some (p.1, (S.F.list p.1).idxOf p.2)⟩ : SetD))
    (s := ⟨m.name, m.dim, []⟩) rfl (by
      rintro k _ hk rfl
      have hx : es[k]? = some es[k] := List.getElem?_eq_getElem hk
      have hmem := List.getElem_mem hk
      generalize es[k] = p at hx hmem
      obtain ⟨p1, p2⟩ := hin p hmem
      have r1 : rd (es.map fun p => [(p.1 : Int), ((S.par p.1 p.2).gid : Int)]).flatten (2*k) = .ok (p.1 : Int) :=
        rd_flat (c := 2) (fun _ _ => rfl) hx (j := 0) (by omega) rfl
      have r2 : rd (es.map fun p => [(p.1 : Int), ((S.par p.1 p.2).gid : Int)]).flatten (2*k+1) =
          .ok ((S.par p.1 p.2).gid : Int) := rd_flat (c := 2) (fun _ _ => rfl) hx (j := 1) (by omega) rfl
      unfold recvEnt
      rw [r1, Res.bind_ok, r2, Res.bind_ok, Int.toNat_natCast, Int.toNat_natCast,
        fromGid_ok hs hN p1 p2 (hS.nodup p.1) (hg p.1 p1), Res.bind_ok, take_next hx, List.map_append]
      exact ⟨_, rfl, rfl⟩)
  rw [h1, Res.bind_ok, h2, List.take_length]
  simp only [off_new, Nat.zero_add]
  rfl

theorem recvSets_ok {srch : (Nat → Nat) → List Nat → Nat → Option Nat} (hs : Finds srch) {zero : D} {S N : CMesh D}
    (hN : Placed S N) (hS : S.F.Sound)
    (hg : ∀ k < 4, ∀ x ∈ S.F.list k, ∀ y ∈ S.F.list k, (S.par k x).gid = (S.par k y).gid → x = y) :
    ∀ (ms : List SetD), (∀ m ∈ ms, SetFits S m) → ∀ (rest : List (Msg D)),
    recvSets srch N (ms.map fun m => ⟨m.name, m.dim, []⟩) ((ms.map (setMsgs S)).flatten ++ rest) =
      .ok (ms.map (setC S (CMesh.new zero)), rest)
  | [], _, rest => rfl
  | m :: ms, h, rest => by
    rw [List.map_cons, List.map_cons, List.flatten_cons, List.append_assoc]
    unfold recvSets
    rw [recvSet_ok hs (zero := zero) hN hS hg (h m (by simp)), Res.bind_ok]
    dsimp only
    rw [recvSets_ok hs (zero := zero) hN hS hg ms (fun b hb => h b (List.mem_cons_of_mem _ hb)), Res.bind_ok]
    rfl

end Send
end MSTK
