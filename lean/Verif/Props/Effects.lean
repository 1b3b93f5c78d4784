import Verif.TopoCheck
import Verif.RegionPoly
import Verif.Props.RegionEdits

/-!
C49: every edit operation of the topology API does what it says and nothing else.

The mesh is looked at through `View`: for every entity whether it is there, for an edge its two
vertices, for a face its edges with their directions, for a region its faces with their
directions (`C49_view` says which queries show these things).  `Effect` says for each operation
how the view changes; the upward adjacencies follow from the view (C19, C22).
-/
namespace MSTK
namespace Topo

/-- What a user sees of a mesh. -/
structure View where
  /-- state of the vertices, edges, faces and regions -/
  sv : Nat → Stat
  se : Nat → Stat
  sf : Nat → Stat
  sr : Nat → Stat
  /-- the two vertices of an edge -/
  ends : Nat → Option Nat × Option Nat
  /-- the edges of a face with their directions -/
  edges : Nat → List (Nat × Bool)
  /-- the faces of a region with their directions -/
  faces : Nat → List (Nat × Bool)

def view (T : Topo) : View where
  sv := T.sv
  se := T.se
  sf := T.sf
  sr := T.sr
  ends := T.ev
  edges := T.edgesOf
  faces := facesOf T.rf T.rd

/-! ### the specification -/

/-- edge `e` gets the vertices `p` -/
def View.putEnds (V : View) (e : Nat) (p : Option Nat × Option Nat) : View :=
  { V with ends := upd V.ends e p }
/-- face `f` gets the edges `es` -/
def View.putEdges (V : View) (f : Nat) (es : List (Nat × Bool)) : View :=
  { V with edges := upd V.edges f es }
/-- region `r` gets the faces `fs` -/
def View.putFaces (V : View) (r : Nat) (fs : List (Nat × Bool)) : View :=
  { V with faces := upd V.faces r fs }

/-- turn round the use of face `f` -/
def turnUse (f : Nat) (p : Nat × Bool) : Nat × Bool := if p.1 = f then (f, !p.2) else p

/-- `W` is `V` but for the edges of face `f` -/
def OtherEdges (V W : View) (f : Nat) : Prop := ∃ es, W = V.putEdges f es

/-- In face `f` the `nold` edges from position `i` on gave way to the edges `nu`, walked forwards
or backwards.  The position at which the edges of the face are listed from may change, and the rest
of the cycle is as before.  For faces that lose two edges or more the library does not keep the
cycle (C25). -/
def Exchanged (V W : View) (f nold i : Nat) (nu : List Nat) : Prop :=
  OtherEdges V W f ∧
  (((W.edges f).map (·.1)).Perm (nu ++ (((V.edges f).rotate i).drop nold).map (·.1))) ∧
  (nold ≤ nu.length + 1 → ∃ new, (new.map (·.1) = nu ∨ new.map (·.1) = nu.reverse) ∧
    W.edges f ~r new ++ ((V.edges f).rotate i).drop nold)

/-- How the view changes. -/
def Effect (V W : View) : Op → Prop
  | .newVertex => ∃ n, V.sv n = .unused ∧ W = { V with sv := upd V.sv n .live }
  | .newEdge => ∃ n, V.se n = .unused ∧
      W = { V with se := upd V.se n .live, ends := upd V.ends n (none, none) }
  | .newFace => ∃ n, V.sf n = .unused ∧
      W = { V with sf := upd V.sf n .live, edges := upd V.edges n [] }
  | .newRegion => ∃ n, V.sr n = .unused ∧
      W = { V with sr := upd V.sr n .live, faces := upd V.faces n [] }
  | .setVertex e i v => W = V.putEnds e
      (if i then ((V.ends e).1, some v) else (some v, (V.ends e).2))
  | .replaceVertex e o n => W = V.putEnds e
      (if (V.ends e).1 = some o then (some n, (V.ends e).2)
       else if (V.ends e).2 = some o then ((V.ends e).1, some n) else V.ends e)
  | .setEdges f es => W = V.putEdges f es
  | .remEdge f e => W = V.putEdges f ((V.edges f).filter fun p => p.1 ≠ e)
  | .replaceEdges f old nu => ∃ i, Exchanged V W f old.length i nu ∧
      ∀ s, s < (V.edges f).length → old = (((V.edges f).map (·.1)).rotate s).take old.length →
        old.length < (V.edges f).length ∨ s + old.length ≤ (V.edges f).length → i = s
  | .replaceEdgesAt f nold i nu => Exchanged V W f nold i nu
  | .revEdgeDir f i => W = V.putEdges f ((V.edges f).modify i fun p => (p.1, !p.2))
  | .setVertices f vs =>
      W.sv = V.sv ∧ W.sf = V.sf ∧ W.sr = V.sr ∧ W.faces = V.faces ∧
      (∀ g, g ≠ f → W.edges g = V.edges g) ∧ (W.edges f).length = vs.length ∧
      (∀ e, V.se e = .live → W.se e = .live ∧ W.ends e = V.ends e) ∧
      (∀ e, W.se e ≠ V.se e → V.se e = .unused ∧ W.se e = .live ∧ ∃ d, (e, d) ∈ W.edges f) ∧
      (∀ (k : Nat) a b, vs[k]? = some a → vs[(k+1) % vs.length]? = some b → a ≠ b →
        ∃ e d, (W.edges f)[k]? = some (e, d) ∧ W.se e = .live ∧
          W.ends e = if d then (some a, some b) else (some b, some a))
  | .setFaces r fs => W = V.putFaces r fs
  | .remFace r f => W = V.putFaces r ((V.faces r).filter fun p => p.1 ≠ f)
  | .setFaceDir r i d => W = V.putFaces r
      (if i < 512 then (V.faces r).modify i fun p => (p.1, d) else V.faces r)
  | .revFaceDir r i => ∃ f d, (V.faces r)[i]? = some (f, d) ∧
      W = { V with faces := fun o => if V.sr o = .live then (V.faces o).map (turnUse f) else V.faces o }
  | .replaceFaces r old nu => W = V.putFaces r
      ((V.faces r).map (fun p => ((old.zip nu).lookup p.1).getD p) ++ nu.drop old.length)
  | .replaceFaceAt r i g d => W = V.putFaces r ((V.faces r).set i (g, d))
  | .delVertex v k => W = { V with sv := upd V.sv v (if k then .kept else .freed) }
  | .delEdge e k => W = { V with se := upd V.se e (if k then .kept else .freed) }
  | .delFace f k => W = { V with sf := upd V.sf f (if k then .kept else .freed) }
  | .delRegion r k => W = { V with sr := upd V.sr r (if k then .kept else .freed) }
  | .restoreVertex v => W = { V with sv := upd V.sv v .live }
  | .restoreEdge e => W = { V with se := upd V.se e .live }
  | .restoreFace f => W = { V with sf := upd V.sf f .live }
  | .restoreRegion r => W = { V with sr := upd V.sr r .live }

/-! ### proofs -/

/-- the edges of the faces after new edges were stored with face `f` -/
theorem edgesOf_upd {T T' : Topo} {f : Nat} {l : List Nat} {d : BitVec 64} {es : List (Nat × Bool)}
    (h1 : T'.fe = upd T.fe f (some l)) (h2 : T'.fd = upd T.fd f d) (h : pairs l (fbit d) = es) :
    T'.edgesOf = upd T.edgesOf f es := by
  funext g
  unfold edgesOf
  by_cases hg : g = f
  · subst hg; rw [h1, h2, upd_same, upd_same, upd_same, ← h]; rfl
  · rw [h1, h2, upd_ne _ _ hg, upd_ne _ _ hg, upd_ne _ _ hg]

/-- the same for the faces of a region -/
theorem facesOf_upd {rf rf' : Nat → Option (List Nat)} {rd rd' : Nat → List (BitVec 32)} {r : Nat}
    {fs : List (Nat × Bool)} (h1 : ∀ z, z ≠ r → rf' z = rf z) (h2 : ∀ z, z ≠ r → rd' z = rd z)
    (h : facesOf rf' rd' r = fs) : facesOf rf' rd' = upd (facesOf rf rd) r fs := by
  funext z
  by_cases hz : z = r
  · subst hz; rw [upd_same, h]
  · rw [upd_ne _ _ hz]; unfold facesOf; rw [h1 z hz, h2 z hz]

theorem edgesOf_some {T : Topo} {f : Nat} {l : List Nat} (hl : T.fe f = some l) :
    T.edgesOf f = pairs l (fbit (T.fd f)) := by unfold edgesOf; rw [hl]; rfl

theorem edgesOf_map_fst (T : Topo) (f : Nat) : (T.edgesOf f).map (·.1) = (T.fe f).getD [] := by
  unfold edgesOf; exact pairs_map_fst _ _

theorem view_putEdges {T T' : Topo} {f : Nat} {es : List (Nat × Bool)}
    (he : T'.edgesOf = upd T.edgesOf f es) (h1 : T'.sv = T.sv) (h2 : T'.se = T.se) (h3 : T'.sf = T.sf)
    (h4 : T'.sr = T.sr) (h5 : T'.ev = T.ev) (h6 : T'.rf = T.rf) (h7 : T'.rd = T.rd) :
    T'.view = T.view.putEdges f es := by
  unfold view View.putEdges
  rw [he, h1, h2, h3, h4, h5, h6, h7]

theorem view_putFaces {T T' : Topo} {r : Nat} {fs : List (Nat × Bool)}
    (he : facesOf T'.rf T'.rd = upd (facesOf T.rf T.rd) r fs) (h1 : T'.sv = T.sv) (h2 : T'.se = T.se)
    (h3 : T'.sf = T.sf) (h4 : T'.sr = T.sr) (h5 : T'.ev = T.ev) (h6 : T'.fe = T.fe) (h7 : T'.fd = T.fd) :
    T'.view = T.view.putFaces r fs := by
  have hed : T'.edgesOf = T.edgesOf := by funext g; unfold edgesOf; rw [h6, h7]
  unfold view View.putFaces
  rw [he, hed, h1, h2, h3, h4, h5]

theorem putEnds_self (V : View) (e : Nat) : V.putEnds e (V.ends e) = V := by
  unfold View.putEnds; rw [upd_self]
theorem putEdges_self (V : View) (f : Nat) : V.putEdges f (V.edges f) = V := by
  unfold View.putEdges; rw [upd_self]
theorem putFaces_self (V : View) (r : Nat) : V.putFaces r (V.faces r) = V := by
  unfold View.putFaces; rw [upd_self]

/-- removing the only occurrence -/
theorem eraseIdx_filter {ps : List (Nat × Bool)} {e : Nat} (hc : (ps.map (·.1)).count e ≤ 1)
    (he : e ∈ ps.map (·.1)) :
    ps.eraseIdx ((ps.map (·.1)).idxOf e) = ps.filter fun p => p.1 ≠ e := by
  induction ps with
  | nil => rfl
  | cons p ps ih =>
    rw [List.map_cons] at hc he ⊢
    by_cases hp : p.1 = e
    · have hb : (p.1 == e) = true := by simp [hp]
      rw [List.idxOf_cons, hb, cond_true]
      rw [List.count_cons, hb, if_pos rfl] at hc
      have h0 : (ps.map (·.1)).count e = 0 := by omega
      rw [List.count_eq_zero] at h0
      rw [List.eraseIdx_cons_zero, List.filter_cons, if_neg (by simp [hp])]
      rw [List.filter_eq_self.2]
      intro q hq
      simp only [decide_eq_true_eq]
      rintro hqe
      exact h0 (hqe ▸ List.mem_map_of_mem hq)
    · have hb : (p.1 == e) = false := beq_false_of_ne hp
      rw [List.idxOf_cons, hb, cond_false, List.eraseIdx_cons_succ, List.filter_cons,
        if_pos (by simpa using hp), ih]
      · rw [List.count_cons, hb] at hc; simpa using hc
      · rcases List.mem_cons.1 he with h | h
        · exact absurd h.symm hp
        · exact h

theorem fbit_toggle (d : BitVec 64) {i : Nat} (hi : i < 64) (j : Nat) :
    fbit (d ^^^ (1#64 <<< i)) j = if j = i then !(fbit d j) else fbit d j := by
  unfold fbit
  rw [BitVec.getLsbD_xor, BitVec.getLsbD_shiftLeft]
  by_cases hj : j = i
  · subst hj; simp [hi]
  · rw [if_neg hj]
    by_cases h64 : j < 64
    · by_cases hlt : j < i
      · simp [hlt]
      · have : j - i ≠ 0 := by omega
        have h1 : (1#64).getLsbD (j - i) = false := by
          rw [BitVec.getLsbD_one]; simp [this]
        simp [h1]
    · have : d.getLsbD j = false := BitVec.getLsbD_of_ge _ _ (by omega)
      simp [h64]

theorem pairs_modify {l : List Nat} {b c : Nat → Bool} {i : Nat} {g : Bool → Bool}
    (h : ∀ j, c j = if j = i then g (b j) else b j) :
    pairs l c = (pairs l b).modify i fun p => (p.1, g p.2) := by
  apply List.ext_getElem?
  intro j
  rw [List.getElem?_modify, getElem?_pairs, getElem?_pairs, h]
  cases l[j]? with
  | none => simp
  | some x => by_cases hj : i = j <;> simp [hj, eq_comm]

theorem modify_const {l : List Nat} {b c : Nat → Bool} {i : Nat} {d : Bool}
    (h : ∀ j, c j = if j = i then d else b j) :
    pairs l c = (pairs l b).modify i fun p => (p.1, d) :=
  pairs_modify (g := fun _ => d) h

/-- new edges are the face's -/
theorem edgesFor_new : ∀ (ps : List (Nat × Nat)) (T : Topo) {T' : Topo} {es : List (Nat × Bool)},
    T.Consistent → (∀ p ∈ ps, T.sv p.1 = .live ∧ T.sv p.2 = .live) →
    edgesFor ps T = .ok (T', es) →
    ∀ e, T'.se e ≠ T.se e → T.se e = .unused ∧ T'.se e = .live ∧ ∃ d, (e, d) ∈ es := by
  intro ps
  induction ps with
  | nil =>
    intro T T' es _ _ r e he
    rw [show edgesFor [] T = .ok (T, []) from rfl] at r
    injection r with r; injection r with r1 r2; subst r1; exact absurd rfl he
  | cons p ps ih =>
    obtain ⟨a, b⟩ := p
    intro T T' es h hall r e he
    obtain ⟨ha, hb⟩ := hall (a, b) (by simp)
    obtain ⟨T1, e1, d1, r1, h1, g1, l1, -⟩ := edgeFor_ok h ha hb
    have hstep : ∀ x, T1.se x ≠ T.se x → T.se x = .unused ∧ T1.se x = .live ∧ x = e1 := by
      intro x hx
      have r1' := r1
      unfold edgeFor at r1'
      rw [mvsCommonEdge_ok h (alloc_of_live ha), Res.bind_ok] at r1'
      cases hf : (T.ve a).find? (fun e => usesB T e (some b)) with
      | some e' =>
        rw [hf] at r1'
        dsimp only at r1'
        have hm := List.mem_of_find?_eq_some hf
        rw [meVertex_ok (alloc_of_live (h.veLive (alloc_of_live ha) hm)), Res.bind_ok] at r1'
        injection r1' with r1'; injection r1' with r1' _; subst r1'; exact absurd rfl hx
      | none =>
        rw [hf] at r1'
        dsimp only at r1'
        obtain ⟨Ta, q1, r1'⟩ := Res.bind_eq_ok.1 r1'
        obtain ⟨Tb, q2, r1'⟩ := Res.bind_eq_ok.1 r1'
        injection r1' with r1'; injection r1' with r1' re; subst r1'
        injection re with re _
        obtain ⟨i1, i2⟩ := meSetVertex_inv q1
        rw [meSetVertex_eq i1 i2] at q1
        obtain ⟨i3, i4⟩ := meSetVertex_inv q2
        rw [meSetVertex_eq i3 i4] at q2
        injection q1 with q1; injection q2 with q2
        have hse : Tb.se = upd T.se T.ne .live := by rw [← q2, ← q1]; rfl
        rw [hse] at hx ⊢
        by_cases hxn : x = T.ne
        · subst hxn
          exact ⟨h.newE _ (Nat.le_refl _), upd_same _ _ _, re⟩
        · rw [upd_ne _ _ hxn] at hx; exact absurd rfl hx
    rw [show edgesFor ((a, b) :: ps) T = (edgeFor T a b >>= fun p =>
      edgesFor ps p.1 >>= fun q => pure (q.1, p.2 :: q.2)) from rfl, r1, Res.bind_ok] at r
    obtain ⟨⟨T2, es2⟩, r2, r⟩ := Res.bind_eq_ok.1 r
    injection r with r; injection r with ra rb
    dsimp only at ra rb
    subst ra; subst rb
    have hih := ih T1 h1 (by intro p hp; rw [g1.sv]; exact hall p (by simp [hp])) r2
    obtain ⟨T2', es2', r2', _, g2, _⟩ := edgesFor_ok ps T1 h1 (by
      intro p hp; rw [g1.sv]; exact hall p (by simp [hp]))
    dsimp only at r2
    rw [r2] at r2'
    injection r2' with r2'; injection r2' with ra rb; subst ra; subst rb
    by_cases hx : T1.se e = T.se e
    · rw [← hx] at he ⊢
      obtain ⟨a1, a2, d, a3⟩ := hih e he
      exact ⟨a1, a2, d, by simp [a3]⟩
    · obtain ⟨b1, b2, b3⟩ := hstep e hx
      refine ⟨b1, (g2.old e b2).1, d1, ?_⟩
      subst b3
      simp

theorem exchanged_of {T T' : Topo} {f nold i : Nat} {nu l l' : List Nat} {d' : BitVec 64}
    {new : List (Nat × Bool)} (hl : T.fe f = some l)
    (hT : ∃ ef, T' = { T with fe := upd T.fe f (some l'), fd := upd T.fd f d', ef := ef })
    (hm : new.map (·.1) = nu ∨ new.map (·.1) = nu.reverse)
    (hp : l'.Perm (nu ++ (l.rotate i).drop nold))
    (hrot : nold ≤ nu.length + 1 → ∃ s, (pairs l' (fbit d')).rotate s =
        new ++ ((pairs l (fbit (T.fd f))).rotate i).drop nold) :
    Exchanged T.view T'.view f nold i nu := by
  obtain ⟨ef, rfl⟩ := hT
  have he : edgesOf { T with fe := upd T.fe f (some l'), fd := upd T.fd f d', ef := ef } =
      upd T.edgesOf f (pairs l' (fbit d')) := edgesOf_upd rfl rfl rfl
  have hf : ({ T with fe := upd T.fe f (some l'), fd := upd T.fd f d', ef := ef } : Topo).view.edges f
      = pairs l' (fbit d') := by
    show edgesOf _ f = _
    rw [he, upd_same]
  have hv : T.view.edges f = pairs l (fbit (T.fd f)) := edgesOf_some hl
  refine ⟨⟨pairs l' (fbit d'), ?_⟩, ?_, ?_⟩
  · exact view_putEdges he rfl rfl rfl rfl rfl rfl rfl
  · rw [hf, hv, pairs_map_fst, List.map_drop, map_fst_rotate, pairs_map_fst]
    exact hp
  · intro hlt
    obtain ⟨s, hs⟩ := hrot hlt
    exact ⟨new, hm, by rw [hf, hv]; exact ⟨s, hs⟩⟩

/-- **C49.**  In a consistent mesh every legal operation succeeds, and the change it makes is the
one `Effect` describes and no other. -/
theorem C49_effect {T : Topo} (h : T.Consistent) (o : Op) (hl : T.Legal o) :
    ∃ T', T.step o = .ok T' ∧ T'.Consistent ∧ Effect T.view T'.view o := by
  obtain ⟨T', r, hc⟩ := h.step o hl
  refine ⟨T', r, hc, ?_⟩
  cases o with
  | newVertex => injection r with r; subst r; exact ⟨T.nv, h.newV _ (Nat.le_refl _), rfl⟩
  | newEdge => injection r with r; subst r; exact ⟨T.ne, h.newE _ (Nat.le_refl _), rfl⟩
  | newFace =>
    injection r with r; subst r
    refine ⟨T.nf, h.newF _ (Nat.le_refl _), ?_⟩
    have : T.mfNew.1.edgesOf = upd T.edgesOf T.nf [] := by
      funext g
      by_cases hg : g = T.nf
      · subst hg; rw [upd_same]; unfold edgesOf mfNew; dsimp only; rw [upd_same]; rfl
      · rw [upd_ne _ _ hg]; unfold edgesOf mfNew; dsimp only; rw [upd_ne _ _ hg, upd_ne _ _ hg]
    unfold view
    rw [this]
    rfl
  | newRegion =>
    injection r with r; subst r
    refine ⟨T.nr, h.newR _ (Nat.le_refl _), ?_⟩
    have : facesOf T.mrNew.1.rf T.mrNew.1.rd = upd (facesOf T.rf T.rd) T.nr [] :=
      facesOf_upd (fun z hz => upd_ne _ _ hz) (fun z hz => upd_ne _ _ hz)
        (by unfold facesOf mrNew; dsimp only; rw [upd_same]; rfl)
    unfold view
    rw [this]
    rfl
  | setVertex e i v =>
    have := (r.symm.trans (meSetVertex_ok (alloc_of_live hl.1) (alloc_of_live hl.2.1)))
    injection this with this; subst this
    rfl
  | replaceVertex e o n =>
    obtain ⟨he, hn, hon, hdeg⟩ := hl
    have hlive : ends T.ev e o → (T.sv o).alloc := fun hb => alloc_of_live (h.ve.down e o he hb)
    replace r : T.meReplaceVertex e o n = .ok T' := r
    unfold meReplaceVertex at r
    rw [derefE_ok (alloc_of_live he), Res.bind_ok] at r
    show T'.view = T.view.putEnds e (if (T.ev e).1 = some o then (some n, (T.ev e).2)
       else if (T.ev e).2 = some o then ((T.ev e).1, some n) else T.ev e)
    by_cases h1 : (T.ev e).1 = some o
    · rw [if_pos h1, mvAddEdge_ok (by exact alloc_of_live hn), Res.bind_ok,
        mvRemEdge_ok (by exact hlive (Or.inl h1))] at r
      injection r with r; subst r
      rw [if_pos h1]; rfl
    · rw [if_neg h1] at r ⊢
      by_cases h2 : (T.ev e).2 = some o
      · rw [if_pos h2, mvAddEdge_ok (by exact alloc_of_live hn), Res.bind_ok,
          mvRemEdge_ok (by exact hlive (Or.inr h2))] at r
        injection r with r; subst r
        rw [if_pos h2]; rfl
      · rw [if_neg h2] at r ⊢
        injection r with r; subst r
        exact (putEnds_self T.view e).symm
  | setEdges f es =>
    obtain ⟨d', h1, h2⟩ := mfSetEdges_ok (T := T) (f := f) (alloc_of_live hl.1) hl.2.2.1
      (fun p hp => alloc_of_live (hl.2.2.2 p hp))
    have := r.symm.trans h1
    injection this with this
    have he := edgesOf_upd (T := T) (T' := T') (f := f) (by rw [this]) (by rw [this]) h2
    subst this
    exact view_putEdges he rfl rfl rfl rfl rfl rfl rfl
  | remEdge f e =>
    obtain ⟨hf, l, hfl, h64, hcount⟩ := hl
    show T'.view = T.view.putEdges f ((T.edgesOf f).filter fun p => p.1 ≠ e)
    by_cases he : e ∈ l
    · obtain ⟨d', h1, h2⟩ := mfRemEdge_ok (T := T) (alloc_of_live hf) hfl he h64
        (alloc_of_live (h.fedgesLive hf hfl e he))
      have := r.symm.trans h1
      injection this with this
      have hee : (pairs l (fbit (T.fd f))).eraseIdx (l.idxOf e) =
          (pairs l (fbit (T.fd f))).filter fun p => p.1 ≠ e := by
        have := eraseIdx_filter (ps := pairs l (fbit (T.fd f))) (e := e)
          (by rw [pairs_map_fst]; exact hcount) (by rw [pairs_map_fst]; exact he)
        rwa [pairs_map_fst] at this
      have hv := edgesOf_upd (T := T) (T' := T') (f := f) (by rw [this]) (by rw [this]) (h2.trans hee)
      subst this
      rw [edgesOf_some hfl]
      exact view_putEdges hv rfl rfl rfl rfl rfl rfl rfl
    · replace r : T.mfRemEdge f e = .ok T' := r
      unfold mfRemEdge at r
      rw [fedges_ok (alloc_of_live hf) hfl, Res.bind_ok, if_neg he] at r
      injection r with r; subst r
      rw [List.filter_eq_self.2]
      · exact (putEdges_self T.view f).symm
      · intro p hp
        simp only [decide_eq_true_eq]
        rintro rfl
        apply he
        have := List.mem_map_of_mem (f := (·.1)) hp
        rwa [edgesOf_map_fst, hfl] at this
  | replaceEdges f old nu =>
    obtain ⟨hf, l, hfl, hnd, hone, hond, hold, hnu, hnn, hnl, h32, hsz, hgrow⟩ := hl
    replace r : T.mfReplaceEdges f old nu = .ok T' := r
    rw [mfReplaceEdges_eq (alloc_of_live hf) hfl hold] at r
    have hlen : old.length ≤ l.length := List.Nodup.length_le_of_subset hond hold
    have hpos : 0 < old.length := List.length_pos_iff.2 hone
    obtain ⟨o0, o1, n0, n1, new, l', d', _, _, _, _, _, hm, h1, hp, hrot⟩ :=
      mfReplaceEdges_i_ok (T := T) (alloc_of_live hf) hfl hnd (startOf_lt hone hold) hpos hlen hnu hnn
        (fun e he => ⟨alloc_of_live (hnl e he).1, (hnl e he).2⟩)
        (fun e he => alloc_of_live (h.fedgesLive hf hfl e he)) h32 hsz (by
          intro hlt
          obtain ⟨s, hs⟩ := hgrow hlt
          have hsl : s + old.length ≤ l.length := by
            have := congrArg List.length hs
            rw [List.length_take, List.length_drop] at this
            omega
          have hrot : (l.rotate s).take old.length = (l.drop s).take old.length := by
            rw [List.rotate_eq_drop_append_take (by omega), List.take_append_of_le_length (by simp; omega)]
          have : startOf l old = s := by
            have := startOf_forward (l := l) (s := s) (n := old.length) hnd h32 (by omega) hpos (Or.inr hsl)
            rwa [hrot, ← hs] at this
          omega)
    have := r.symm.trans h1
    injection this with this
    refine ⟨startOf l old, exchanged_of (new := new) hfl ⟨_, this⟩ ?_ hp hrot, ?_⟩
    · rw [hm]; split
      · exact Or.inr rfl
      · exact Or.inl rfl
    · intro s hs ho hlt
      have hv : T.view.edges f = pairs l (fbit (T.fd f)) := edgesOf_some hfl
      rw [hv, pairs_length] at hs hlt
      rw [hv, pairs_map_fst] at ho
      rw [ho]
      exact startOf_forward hnd h32 hs hpos hlt
  | replaceEdgesAt f nold i nu =>
    obtain ⟨hf, l, hfl, hnd, hi, hn0, hno, hnu, hnn, hnl, h32, hsz, hgrow⟩ := hl
    obtain ⟨o0, o1, n0, n1, new, l', d', _, _, _, _, _, hm, h1, hp, hrot⟩ :=
      mfReplaceEdges_i_ok (T := T) (alloc_of_live hf) hfl hnd hi hn0 hno hnu hnn
        (fun e he => ⟨alloc_of_live (hnl e he).1, (hnl e he).2⟩)
        (fun e he => alloc_of_live (h.fedgesLive hf hfl e he)) h32 hsz hgrow
    have := r.symm.trans h1
    injection this with this
    refine exchanged_of (new := new) hfl ⟨_, this⟩ ?_ hp hrot
    rw [hm]; split
    · exact Or.inr rfl
    · exact Or.inl rfl
  | revEdgeDir f i =>
    obtain ⟨hf, hi⟩ := hl
    replace r : T.mfRevEdgeDir_i f i = .ok T' := r
    unfold mfRevEdgeDir_i at r
    rw [derefF_ok (alloc_of_live hf), Res.bind_ok, if_pos hi] at r
    injection r with r
    have he : T'.edgesOf = upd T.edgesOf f ((T.edgesOf f).modify i fun p => (p.1, !p.2)) := by
      subst r
      funext g
      by_cases hg : g = f
      · subst hg
        rw [upd_same]
        unfold edgesOf
        dsimp only
        rw [upd_same]
        exact pairs_modify (g := fun b => !b) (fbit_toggle _ hi)
      · rw [upd_ne _ _ hg]
        unfold edgesOf
        dsimp only
        rw [upd_ne _ _ hg]
    subst r
    exact view_putEdges he rfl rfl rfl rfl rfl rfl rfl
  | setVertices f vs =>
    obtain ⟨hf, hfe, hn, hv⟩ := hl
    obtain ⟨T1, es, d', r0, h1, g1, r1, hp, hlen, hlive, hL, hc1⟩ := mfSetVertices_ok h hf hfe hn hv
    have hnew := edgesFor_new (cyclicPairs vs) T h (fun p hp => ⟨hv _ (mem_cyclicPairs hp).1, hv _ (mem_cyclicPairs hp).2⟩) r0
    have := r.symm.trans r1
    injection this with this
    have he : T'.edgesOf = upd T1.edgesOf f es := edgesOf_upd (by rw [this]) (by rw [this]) hp
    have hef : T'.edgesOf f = es := by rw [he, upd_same]
    subst this
    refine ⟨g1.sv, g1.sf, g1.sr, ?_, ?_, ?_, ?_, ?_, ?_⟩
    · show facesOf T1.rf T1.rd = facesOf T.rf T.rd
      rw [g1.rf, g1.rd]
    · intro g hg
      show edgesOf _ g = T.edgesOf g
      rw [he, upd_ne _ _ hg]
      unfold edgesOf
      rw [g1.fe, g1.fd]
    · show (edgesOf _ f).length = _
      rw [hef, hlen]
    · intro e hee
      exact ⟨(g1.old e hee).1, (g1.old e hee).2.1⟩
    · intro e hee
      obtain ⟨a1, a2, d, a3⟩ := hnew e hee
      refine ⟨a1, a2, d, ?_⟩
      show (e, d) ∈ edgesOf _ f
      rw [hef]; exact a3
    · intro k a b ha hb hab
      have hk : k < es.length := by rw [hlen]; exact (List.getElem?_eq_some_iff.1 ha).1
      obtain ⟨q, hq⟩ : ∃ q, es[k]? = some q := ⟨_, List.getElem?_eq_getElem hk⟩
      refine ⟨q.1, q.2, ?_, hlive q (List.mem_of_getElem? hq), hL k a b q ha hb hq hab⟩
      show (edgesOf _ f)[k]? = _
      rw [hef, hq]
  | setFaces r' fs =>
    obtain ⟨w', h1, _, h2⟩ := mrSetFaces_ok (T := T) (r := r') (alloc_of_live hl.1)
      (fun p hp => alloc_of_live (hl.2.2.2.1 p hp).1) hl.2.2.2.2
    have := r.symm.trans h1
    injection this with this
    have he : facesOf T'.rf T'.rd = upd (facesOf T.rf T.rd) r' fs := by
      subst this
      refine facesOf_upd (fun z hz => upd_ne _ _ hz) (fun z hz => upd_ne _ _ hz) ?_
      rw [facesOf_same]; exact h2
    subst this
    exact view_putFaces he rfl rfl rfl rfl rfl rfl rfl
  | remFace r' f =>
    obtain ⟨hr, l, hrl⟩ := hl
    have hok := h.reg r' l (alloc_of_live hr) hrl
    show T'.view = T.view.putFaces r' ((facesOf T.rf T.rd r').filter fun p => p.1 ≠ f)
    by_cases hf : f ∈ l
    · have hfl : T.sf f = .live := h.rfacesLive hr (by rw [hrl]; exact hf)
      obtain ⟨w, h1, h2, h3⟩ := mrRemFace_ok (alloc_of_live hr) hrl hf (alloc_of_live hfl) hok
      have := r.symm.trans h1
      injection this with this
      have hee : (pairs l (rbit (T.rd r'))).eraseIdx (l.idxOf f) =
          (pairs l (rbit (T.rd r'))).filter fun p => p.1 ≠ f := by
        have := eraseIdx_filter (ps := pairs l (rbit (T.rd r'))) (e := f)
          (by rw [pairs_map_fst]; exact List.nodup_iff_count_le_one.1 hok.1 f)
          (by rw [pairs_map_fst]; exact hf)
        rwa [pairs_map_fst] at this
      have he : facesOf T'.rf T'.rd = upd (facesOf T.rf T.rd) r'
          ((facesOf T.rf T.rd r').filter fun p => p.1 ≠ f) := by
        subst this
        refine facesOf_upd (fun z hz => upd_ne _ _ hz) (fun z hz => upd_ne _ _ hz) ?_
        rw [facesOf_same, h3, hee, facesOf_some hrl]
      subst this
      exact view_putFaces he rfl rfl rfl rfl rfl rfl rfl
    · replace r : T.mrRemFace r' f = .ok T' := r
      unfold mrRemFace at r
      rw [rfaces_ok (alloc_of_live hr) hrl, Res.bind_ok, if_neg hf] at r
      injection r with r; subst r
      rw [List.filter_eq_self.2]
      · exact (putFaces_self T.view r').symm
      · intro p hp
        simp only [decide_eq_true_eq]
        rintro rfl
        apply hf
        have := List.mem_map_of_mem (f := (·.1)) hp
        rwa [facesOf_map_fst, hrl] at this
  | setFaceDir r' i d =>
    obtain ⟨hr, l, f, hrl, hi, hfree⟩ := hl
    show T'.view = T.view.putFaces r' (if i < 512 then
      (facesOf T.rf T.rd r').modify i fun p => (p.1, d) else facesOf T.rf T.rd r')
    by_cases h512 : i < 512
    · have hok := h.reg r' l (alloc_of_live hr) hrl
      have hil : i < l.length := (List.getElem?_eq_some_iff.1 hi).1
      have hf : T.sf f = .live := h.rfacesLive hr (by rw [hrl]; exact List.mem_of_getElem? hi)
      obtain ⟨w, h1, h2, h3⟩ := mrSetFaceDir_i_ok (d := d) (alloc_of_live hr) hrl hi (alloc_of_live hf) h512
        (hok.word (by omega))
      have := r.symm.trans h1
      injection this with this
      have he : facesOf T'.rf T'.rd = upd (facesOf T.rf T.rd) r'
          ((facesOf T.rf T.rd r').modify i fun p => (p.1, d)) := by
        subst this
        refine facesOf_upd (fun z hz => rfl) (fun z hz => upd_ne _ _ hz) ?_
        rw [facesOf_dirs_same hrl, facesOf_some hrl]
        exact modify_const h3
      rw [if_pos h512]
      subst this
      exact view_putFaces he rfl rfl rfl rfl rfl rfl rfl
    · rw [if_neg h512]
      replace r : T.mrSetFaceDir_i r' i d = .ok T' := r
      unfold mrSetFaceDir_i at r
      rw [derefR_ok (alloc_of_live hr), Res.bind_ok, if_pos (by omega)] at r
      injection r with r; subst r
      exact (putFaces_self T.view r').symm
  | revFaceDir r' i =>
    obtain ⟨hr, l, f, hrl, hi, hlim⟩ := hl
    have hok := h.reg r' l (alloc_of_live hr) hrl
    have hf : T.sf f = .live := h.rfacesLive hr (by rw [hrl]; exact List.mem_of_getElem? hi)
    refine ⟨f, rbit (T.rd r') i, ?_, ?_⟩
    · show (facesOf T.rf T.rd r')[i]? = _
      rw [facesOf_some hrl, getElem?_pairs, hi]; rfl
    have hturn : ∀ (lz : List Nat) (b c : Nat → Bool) (k : Nat), lz.Nodup → lz[k]? = some f →
        (∀ j, c j = if j = k then !(b k) else b j) → pairs lz c = (pairs lz b).map (turnUse f) := by
      intro lz b c k hnd hk hcj
      apply List.ext_getElem?
      intro j
      rw [List.getElem?_map, getElem?_pairs, getElem?_pairs]
      cases hj : lz[j]? with
      | none => rfl
      | some x =>
        simp only [Option.map_some, Option.some.injEq]
        rw [hcj]
        unfold turnUse
        dsimp only
        by_cases hx : x = f
        · subst hx
          have := getElem?_inj_nodup hnd hk hj
          subst this
          rw [if_pos rfl, if_pos rfl]
        · rw [if_neg hx, if_neg]
          rintro rfl
          rw [hk] at hj; injection hj with hj; exact hx hj.symm
    have hsame : ∀ z, (∀ d, (f, d) ∉ facesOf T.rf T.rd z) →
        (facesOf T.rf T.rd z).map (turnUse f) = facesOf T.rf T.rd z := by
      intro z hz
      conv_rhs => rw [← List.map_id (facesOf T.rf T.rd z)]
      apply List.map_congr_left
      intro p hp
      unfold turnUse
      rw [if_neg, id]
      rintro rfl
      exact hz p.2 hp
    obtain ⟨w, hw1, hw2, hcase⟩ := mrRevFaceDir_i_ok h hr hrl hi hlim
    have hslot : endAt (T.fr f) (!(rbit (T.rd r') i)) = some r' := (h.slotAt hr hrl hi _).2 rfl
    suffices he : facesOf T'.rf T'.rd = (fun o => if T.sr o = .live then
        (facesOf T.rf T.rd o).map (turnUse f) else facesOf T.rf T.rd o) ∧ T'.sv = T.sv ∧ T'.se = T.se ∧
        T'.sf = T.sf ∧ T'.sr = T.sr ∧ T'.ev = T.ev ∧ T'.fe = T.fe ∧ T'.fd = T.fd by
      obtain ⟨he, h1, h2, h3, h4, h5, h6, h7⟩ := he
      have hed : T'.edgesOf = T.edgesOf := by funext g; unfold edgesOf; rw [h6, h7]
      unfold view
      rw [he, hed, h1, h2, h3, h4, h5]
    rcases hcase with ⟨hn, hrun⟩ | ⟨o, lo, k, w2, ho1, ho2, hol, hlo, hk, hkb, hw3, hw4, hrun⟩
    · have := r.symm.trans hrun
      injection this with this
      have he : facesOf T'.rf T'.rd = fun o => if T.sr o = .live then
          (facesOf T.rf T.rd o).map (turnUse f) else facesOf T.rf T.rd o := by
        subst this
        funext z
        by_cases hz : z = r'
        · subst hz
          rw [if_pos hr, facesOf_dirs_same hrl, facesOf_some hrl]
          exact hturn l _ _ i hok.1 hi hw2
        · rw [facesOf_dirs_ne _ hz]
          split
          · rename_i hzl
            rw [hsame]
            intro d hd
            have := (h.fr.mem f (alloc_of_live hf) z d).2 ⟨hzl, hd⟩
            by_cases hdb : d = rbit (T.rd r') i
            · subst hdb; rw [hslot] at this; injection this with this; exact hz this.symm
            · have hd' : (!d) = rbit (T.rd r') i := by
                revert hdb; cases d <;> cases rbit (T.rd r') i <;> simp
              rw [hd', hn] at this; cases this
          · rfl
      subst this
      exact ⟨he, rfl, rfl, rfl, rfl, rfl, rfl, rfl⟩
    · have := r.symm.trans hrun
      injection this with this
      have hoko := h.reg o lo (alloc_of_live hol) hlo
      have he : facesOf T'.rf T'.rd = fun o => if T.sr o = .live then
          (facesOf T.rf T.rd o).map (turnUse f) else facesOf T.rf T.rd o := by
        subst this
        funext z
        by_cases hzo : z = o
        · subst hzo
          rw [if_pos hol, facesOf_dirs_same hlo, facesOf_some hlo]
          exact hturn lo _ _ k hoko.1 hk (by intro j; rw [hw4, hkb, Bool.not_not])
        · rw [facesOf_dirs_ne _ hzo]
          by_cases hz : z = r'
          · subst hz
            rw [if_pos hr, facesOf_dirs_same hrl, facesOf_some hrl]
            exact hturn l _ _ i hok.1 hi hw2
          · rw [facesOf_dirs_ne _ hz]
            split
            · rename_i hzl
              rw [hsame]
              intro d hd
              have := (h.fr.mem f (alloc_of_live hf) z d).2 ⟨hzl, hd⟩
              by_cases hdb : d = rbit (T.rd r') i
              · subst hdb; rw [hslot] at this; injection this with this; exact hz this.symm
              · have hd' : (!d) = rbit (T.rd r') i := by
                  revert hdb; cases d <;> cases rbit (T.rd r') i <;> simp
                rw [hd', ho1] at this; injection this with this; exact hzo this.symm
            · rfl
      subst this
      exact ⟨he, rfl, rfl, rfl, rfl, rfl, rfl, rfl⟩
  | replaceFaces r' old nu =>
    obtain ⟨hr, l, hrl, h1, h2, h3, h4, h5, h6, h7, h8⟩ := hl
    obtain ⟨T2, l', h9, _, ho, _, _, hF⟩ := mrReplaceFaces_ok h hr hrl h1 h2 h3 h4 h5 h6 h7 h8
    have := r.symm.trans h9
    injection this with this; subst this
    have he := facesOf_upd (r := r') ho.rf ho.rd hF
    exact view_putFaces he ho.sv ho.se ho.sf ho.sr ho.ev ho.fe ho.fd
  | replaceFaceAt r' i g d =>
    obtain ⟨hr, l, hrl, h1, h2, h3, h4, h5, h6⟩ := hl
    obtain ⟨T2, h9, _, ho, _, _, hF⟩ := mrReplaceFace_i_ok h hr hrl h1 h2 h3 h4 h5 h6
    have := r.symm.trans h9
    injection this with this; subst this
    have he := facesOf_upd (r := r') ho.rf ho.rd hF
    exact view_putFaces he ho.sv ho.se ho.sf ho.sr ho.ev ho.fe ho.fd
  | delVertex v k =>
    replace r : T.mvDelete v k = .ok T' := r
    unfold mvDelete at r
    rw [derefV_ok hl.1, Res.bind_ok] at r
    injection r with r; subst r; rfl
  | delEdge e k =>
    by_cases hlv : T.se e = .live
    · have := r.symm.trans (meDelete_ok hlv (fun v hv => alloc_of_live (h.ve.down e v hlv hv)))
      injection this with this; subst this; rfl
    · replace r : T.meDelete e k = .ok T' := r
      unfold meDelete at r
      rw [derefE_ok hl.1, Res.bind_ok, if_neg hlv] at r
      injection r with r; subst r; rfl
  | delFace f k =>
    by_cases hlv : T.sf f = .live
    · have := r.symm.trans (mfDelete_ok hlv (fun e he => alloc_of_live (h.ef.down f e hlv he)))
      injection this with this; subst this; rfl
    · replace r : T.mfDelete f k = .ok T' := r
      unfold mfDelete at r
      rw [derefF_ok hl.1, Res.bind_ok, if_neg hlv] at r
      injection r with r; subst r; rfl
  | delRegion r' k =>
    by_cases hlv : T.sr r' = .live
    · have := r.symm.trans (mrDelete_ok hlv (h.rfacesNodup hl)
        (fun f hf => alloc_of_live (h.rfacesLive hlv hf)))
      injection this with this; subst this; rfl
    · replace r : T.mrDelete r' k = .ok T' := r
      unfold mrDelete at r
      rw [derefR_ok hl, Res.bind_ok, if_neg hlv] at r
      injection r with r; subst r; rfl
  | restoreVertex v =>
    replace r : T.mvRestore v = .ok T' := r
    unfold mvRestore at r
    rw [derefV_ok hl, Res.bind_ok] at r
    injection r with r; subst r; rfl
  | restoreEdge e =>
    obtain ⟨he, a, b, hev, ha, hb⟩ := hl
    replace r : T.meRestore e = .ok T' := r
    unfold meRestore at r
    rw [derefE_ok he, Res.bind_ok] at r
    simp only [hev, addToEnd] at r
    rw [mvAddEdge_ok (by exact alloc_of_live ha), Res.bind_ok] at r
    simp only [hev] at r
    rw [mvAddEdge_ok (by exact alloc_of_live hb)] at r
    injection r with r; subst r; rfl
  | restoreFace f =>
    obtain ⟨hf, l, hfl, hall⟩ := hl
    replace r : T.mfRestore f = .ok T' := r
    unfold mfRestore at r
    rw [fedges_ok hf hfl, Res.bind_ok] at r
    have := r.symm.trans (meAddFaceAll_ok f l _ (fun e he => alloc_of_live (hall e he)))
    injection this with this; subst this; rfl
  | restoreRegion r' =>
    obtain ⟨hr, l, hrl, hfree⟩ := hl
    have hal : (T.sr r').alloc := by rw [hr]; rfl
    have hok := h.reg r' l hal hrl
    rw [facesOf_some hrl] at hfree
    replace r : T.mrRestore r' = .ok T' := r
    unfold mrRestore at r
    rw [rfaces_ok hal hrl, Res.bind_ok, restoreFaces_ok r' _ l 0 _ (by
      intro k hk; exact hok.word (by omega)) (by
      intro f hf
      have hf' : f ∈ (T.rf r').getD [] := by rw [hrl]; exact hf
      obtain ⟨d, hd⟩ := mem_facesOf_iff.1 hf'
      rw [facesOf_some hrl] at hd
      exact alloc_of_live (hfree _ hd).1)] at r
    injection r with r; subst r; rfl

/-- The steps of a history, each with its effect. -/
def Effects : List View → List Op → Prop
  | [_], [] => True
  | V :: W :: Vs, o :: os => Effect V W o ∧ Effects (W :: Vs) os
  | _, _ => False

/-- **C49**, for histories: from an empty mesh every legal history runs through, and the mesh
goes through views related by the effects of the operations. -/
theorem C49_history {os : List Op} (hl : empty.LegalRun os) :
    ∃ T Vs, empty.run os = .ok T ∧ Effects (empty.view :: Vs) os ∧
      (empty.view :: Vs).getLast? = some T.view := by
  suffices h : ∀ (os : List Op) (T : Topo), T.Consistent → T.LegalRun os → ∃ T' Vs, T.run os = .ok T' ∧
      Effects (T.view :: Vs) os ∧ (T.view :: Vs).getLast? = some T'.view from
    h os empty empty_consistent hl
  intro os
  induction os with
  | nil => intro T _ _; exact ⟨T, [], rfl, trivial, rfl⟩
  | cons o os ih =>
    intro T h hl
    obtain ⟨T1, h1, h2, h3⟩ := C49_effect h o hl.1
    obtain ⟨T2, Vs, h4, h5, h6⟩ := ih T1 h2 (hl.2 T1 h1)
    refine ⟨T2, T1.view :: Vs, ?_, ⟨h3, h5⟩, ?_⟩
    · rw [show T.run (o :: os) = (T.step o >>= fun T => Topo.run T os) from rfl, h1, Res.bind_ok, h4]
    · rw [List.getLast?_cons_cons]; exact h6

/-- The view is what the queries answer: `ME_Vertex`, `MF_Edges` with `MF_EdgeDir_i`, `MR_Faces`
with `MR_FaceDir_i`. -/
theorem C49_view {T : Topo} (h : T.Consistent) :
    (∀ e i, T.se e = .live → T.meVertex e i = .ok (if i then (T.view.ends e).2 else (T.view.ends e).1)) ∧
    (∀ f, T.sf f = .live → T.view.edges f ≠ [] →
      T.mfEdges f true none = .ok ((T.view.edges f).map (·.1)) ∧
      ∀ i p, i < 64 → (T.view.edges f)[i]? = some p → T.mfEdgeDir_i f i = .ok p.2) ∧
    (∀ r, T.sr r = .live → T.view.faces r ≠ [] →
      T.mrFaces r = .ok ((T.view.faces r).map (·.1)) ∧
      ∀ i p, (T.view.faces r)[i]? = some p → T.mrFaceDir_i r i = .ok p.2) := by
  refine ⟨fun e i he => meVertex_ok (alloc_of_live he) i, ?_, ?_⟩
  · intro f hf hne
    replace hne : T.edgesOf f ≠ [] := hne
    cases hl : T.fe f with
    | none => exact absurd (by unfold edgesOf; rw [hl]; rfl) hne
    | some l =>
      have hv : T.view.edges f = pairs l (fbit (T.fd f)) := edgesOf_some hl
      rw [hv]
      refine ⟨by rw [pairs_map_fst]; exact mfEdges_plain (alloc_of_live hf) hl, ?_⟩
      intro i p hi hp
      unfold mfEdgeDir_i
      rw [derefF_ok (alloc_of_live hf), Res.bind_ok, bit_ok _ hi]
      rw [getElem?_pairs] at hp
      cases hx : l[i]? with
      | none => rw [hx] at hp; cases hp
      | some x => rw [hx] at hp; injection hp with hp; rw [← hp]
  · intro r hr hne
    replace hne : facesOf T.rf T.rd r ≠ [] := hne
    cases hl : T.rf r with
    | none => exact absurd (by unfold facesOf; rw [hl]; rfl) hne
    | some l =>
      have hv : T.view.faces r = pairs l (rbit (T.rd r)) := facesOf_some hl
      have hok := h.reg r l (alloc_of_live hr) hl
      rw [hv]
      refine ⟨by rw [pairs_map_fst]; exact rfaces_ok (alloc_of_live hr) hl, ?_⟩
      intro i p hp
      unfold mrFaceDir_i
      rw [getElem?_pairs] at hp
      cases hx : l[i]? with
      | none => rw [hx] at hp; cases hp
      | some x =>
        rw [hx] at hp; injection hp with hp; rw [← hp]
        have hil : i < l.length := (List.getElem?_eq_some_iff.1 hx).1
        rw [derefR_ok (alloc_of_live hr), Res.bind_ok, getW_ok (hok.word (by omega))]

/-- The history `twoTets ++ edits` of Props/Adjacency.lean (two tetrahedra sharing a face; regions
deleted and restored, faces turned round and exchanged, an edge replaced) is legal, and so is
turning round an edge of a face. -/
example : empty.LegalRun (twoTets ++ edits) ∧ empty.LegalRun (twoTets ++ [.revEdgeDir 1 2]) :=
  ⟨legalRunB_sound empty_consistent (by decide +kernel),
   legalRunB_sound empty_consistent (by decide +kernel)⟩

/-- Turning an edge round changes its direction and that of no other edge. -/
example :
    answer twoTets (fun T => .ok (T.view.edges 1)) = .ok [(0,true),(3,true),(4,true)] ∧
    answer (twoTets ++ [.revEdgeDir 1 1]) (fun T => .ok (T.view.edges 1)) =
      .ok [(0,true),(3,false),(4,true)] := by decide +kernel

end Topo
end MSTK
