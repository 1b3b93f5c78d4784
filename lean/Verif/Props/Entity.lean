import Verif.EntityModel
/-! C13, C14, C15: markers, marks and header fields. -/
namespace MSTK

/-! ### C15 -/

/-- Specification: the abstract header, one unbounded value per field. -/
structure HdrSpec where
  deleted : Bool := false
  volatile : Bool := false
  dim : Int := 4
  id : Int := 0
  rep : Int := 5
  gdim : Int := 4
  gid : Int := 0
  ptype : Int := 0
  parbdry : Bool := false
  master : Int := 0
  global : Int := 0
  marks : Int → Bool := fun _ => false

inductive HdrOp where
  | setDim (d : Int) | setVolatile | setID (i : Int) | setRep (r : Int) | setGDim (d : Int) | setGID (i : Int)
  | setDel | remDel | setPType (p : Int) | setParBdry (b : Bool) | setMaster (m : Int) | setGlobal (g : Int)
  | mark (m : Int) | unmark (m : Int)

/-- values the fields can hold -/
def HdrOp.fits : HdrOp → Prop
  | .setDim d => d = -1 ∨ (0 ≤ d ∧ d < 8)
  | .setID i => 0 ≤ i ∧ i < 134217728
  | .setRep r => 0 ≤ r ∧ r < 8
  | .setGDim d => 0 ≤ d ∧ d < 8
  | .setGID i => 0 ≤ i ∧ i < 67108864
  | .setPType p => 0 ≤ p ∧ p < 4
  | .setMaster m => 0 ≤ m ∧ m < 536870912
  | .setGlobal g => -2147483648 ≤ g ∧ g < 2147483648
  | .mark m => 1 ≤ m ∧ m ≤ 32
  | .unmark m => 1 ≤ m ∧ m ≤ 32
  | _ => True

/-- Specification: each call changes one field. -/
def HdrSpec.step (s : HdrSpec) : HdrOp → HdrSpec
  | .setDim d => if d = -1 then { s with deleted := true } else { s with dim := d }
  | .setVolatile => { s with volatile := true }
  | .setID i => { s with id := i }
  | .setRep r => { s with rep := r }
  | .setGDim d => { s with gdim := d }
  | .setGID i => { s with gid := i }
  | .setDel => { s with deleted := true }
  | .remDel => { s with deleted := false }
  | .setPType p => { s with ptype := p }
  | .setParBdry b => { s with parbdry := b }
  | .setMaster m => { s with master := m }
  | .setGlobal g => { s with global := g }
  | .mark m => { s with marks := fun x => if x = m then true else s.marks x }
  | .unmark m => { s with marks := fun x => if x = m then false else s.marks x }

def Hdr.step (h : Hdr) : HdrOp → Res Hdr
  | .setDim d => .ok (h.setDim d)
  | .setVolatile => .ok h.setVolatile
  | .setID i => .ok (h.setID i)
  | .setRep r => .ok (h.setRep r)
  | .setGDim d => .ok (h.setGDim d)
  | .setGID i => .ok (h.setGID i)
  | .setDel => .ok h.setDel
  | .remDel => .ok h.remDel
  | .setPType p => .ok (h.setPType p)
  | .setParBdry b => .ok (h.setParBdry b)
  | .setMaster m => .ok (h.setMaster m)
  | .setGlobal g => .ok (h.setGlobal g)
  | .mark m => h.mark m
  | .unmark m => h.unmark m

def Hdr.run : Hdr → List HdrOp → Res Hdr
  | h, [] => .ok h
  | h, o :: os => do
    let h ← h.step o
    run h os

/-- Specification: what every query of the API must answer. -/
structure Reports (h : Hdr) (s : HdrSpec) : Prop where
  dim : h.dim = if s.deleted then -1 else s.dim
  origDim : h.origDim = s.dim
  volatile : h.isVolatile = s.volatile
  id : h.id = s.id
  rep : h.rep = s.rep
  gdim : h.gdim = s.gdim
  gid : h.gid = s.gid
  ptype : h.ptype = s.ptype
  parbdry : h.parBdry = s.parbdry
  master : h.master = s.master
  global : h.globalID = s.global
  marks : ∀ m, 1 ≤ m → m ≤ 32 → h.isMarked m = .ok (s.marks m)

/-- internal relation: raw field contents -/
structure HRel (h : Hdr) (s : HdrSpec) : Prop where
  del : (getField h.w1 0 1).toNat = if s.deleted then 1 else 0
  vol : (getField h.w1 1 1).toNat = if s.volatile then 1 else 0
  dim : ((getField h.w1 2 3).toNat : Int) = s.dim
  id : ((getField h.w1 5 27).toNat : Int) = s.id
  rep : ((getField h.w2 0 3).toNat : Int) = s.rep
  gdim : ((getField h.w2 3 3).toNat : Int) = s.gdim
  gid : ((getField h.w2 6 26).toNat : Int) = s.gid
  pt : ((getField h.w3 0 2).toNat : Int) = s.ptype
  pb : (getField h.w3 2 1).toNat = if s.parbdry then 1 else 0
  ma : ((getField h.w3 3 29).toNat : Int) = s.master
  gl : h.globalid.toInt = s.global
  mrk : ∀ m : Int, 1 ≤ m → m ≤ 32 → h.marker.getLsbD (m - 1).toNat = s.marks m

theorem getLsbD_or_bit (w : BitVec 32) (k i : Nat) (hi : i < 32) :
    (w ||| (1#32 <<< k)).getLsbD i = (w.getLsbD i || decide (i = k)) := by
  rw [BitVec.getLsbD_or, BitVec.getLsbD_shiftLeft, BitVec.getLsbD_one]
  by_cases h : i = k
  · subst h; simp [hi]
  · by_cases h2 : i < k
    · simp [h, h2]
    · simp [h, show ¬ (i - k = 0) by omega]

theorem getLsbD_andn_bit (w : BitVec 32) (k i : Nat) (hi : i < 32) :
    (w &&& ~~~(1#32 <<< k)).getLsbD i = (w.getLsbD i && decide (i ≠ k)) := by
  rw [BitVec.getLsbD_and, BitVec.getLsbD_not, BitVec.getLsbD_shiftLeft, BitVec.getLsbD_one]
  by_cases h : i = k
  · subst h; simp [hi]
  · by_cases h2 : i < k
    · simp [h, h2, hi]
    · simp [h, hi, show ¬ (i - k = 0) by omega]

theorem and_bit_ne (w : BitVec 32) (i : Nat) (hi : i < 32) :
    ((w &&& (1#32 <<< i)) != 0#32) = w.getLsbD i := by
  have hb : ∀ j, j < 32 → (w &&& (1#32 <<< i)).getLsbD j = (w.getLsbD j && decide (j = i)) := by
    intro j hj
    rw [BitVec.getLsbD_and, BitVec.getLsbD_shiftLeft, BitVec.getLsbD_one]
    by_cases h : j = i
    · subst h; simp [hj]
    · by_cases h2 : j < i
      · simp [h2, h]
      · simp [h, h2, hj, show ¬ (j - i = 0) by omega]
  cases hw : w.getLsbD i with
  | true =>
    rw [bne_iff_ne]
    intro h0
    have := hb i hi
    rw [h0, hw] at this; simp at this
  | false =>
    have : w &&& (1#32 <<< i) = 0#32 := by
      apply BitVec.eq_of_getLsbD_eq
      intro j hj
      rw [hb j hj]
      by_cases h : j = i
      · subst h; simp [hw]
      · simp [h]
    rw [this]; rfl

theorem reports_of_rel {h : Hdr} {s : HdrSpec} (r : HRel h s) : Reports h s := by
  constructor
  · unfold Hdr.dim; rw [r.del, r.dim]; cases s.deleted <;> simp
  · exact r.dim
  · unfold Hdr.isVolatile; rw [r.vol]; cases s.volatile <;> simp
  · exact r.id
  · exact r.rep
  · exact r.gdim
  · exact r.gid
  · exact r.pt
  · unfold Hdr.parBdry; rw [r.pb]; cases s.parbdry <;> simp
  · exact r.ma
  · exact r.gl
  · intro m h1 h2
    unfold Hdr.isMarked Hdr.markBit
    rw [if_pos ⟨h1, h2⟩]
    simp only [Res.bind_ok, Res.pure_eq]
    rw [and_bit_ne _ _ (by omega), r.mrk m h1 h2]

theorem ofI_toNat (x : Int) (h1 : 0 ≤ x) (h2 : x < 4294967296) : ((Hdr.ofI x).toNat : Int) = x := by
  unfold Hdr.ofI
  rw [BitVec.toNat_ofInt]
  omega

theorem field_fits (w : BitVec 32) (off len : Nat) (h : off + len ≤ 32) (x : Int) (h1 : 0 ≤ x)
    (h2 : x < (2 ^ len : Nat)) : ((getField (setField w off len (Hdr.ofI x)) off len).toNat : Int) = x := by
  rw [getField_setField_same _ _ _ _ h, toNat_and_maskW _ _ (by omega)]
  have hp : 2 ^ len ≤ 2 ^ 32 := Nat.pow_le_pow_right (by omega) (by omega)
  have := ofI_toNat x h1 (by omega)
  rw [Nat.mod_eq_of_lt (by omega)]
  exact this

theorem rel_step {h : Hdr} {s : HdrSpec} (r : HRel h s) (o : HdrOp) (hf : o.fits) :
    ∃ h', h.step o = .ok h' ∧ HRel h' (s.step o) := by
  have oth := getField_setField_other
  cases o with
  | setDim d =>
    refine ⟨_, rfl, ?_⟩
    unfold Hdr.setDim HdrSpec.step
    by_cases hd : d = -1
    · simp only [hd, if_true]
      refine ⟨?_, ?_, ?_, ?_, r.rep, r.gdim, r.gid, r.pt, r.pb, r.ma, r.gl, r.mrk⟩
      · simp only; rw [getField_setField_same _ _ _ _ (by omega)]; decide
      · simp only; rw [oth _ _ _ _ _ _ (by omega) (by omega)]; exact r.vol
      · simp only; rw [oth _ _ _ _ _ _ (by omega) (by omega)]; exact r.dim
      · simp only; rw [oth _ _ _ _ _ _ (by omega) (by omega)]; exact r.id
    · simp only [hd, if_false]
      have hf' : 0 ≤ d ∧ d < 8 := by rcases hf with h | h; exact absurd h hd; exact h
      refine ⟨?_, ?_, ?_, ?_, r.rep, r.gdim, r.gid, r.pt, r.pb, r.ma, r.gl, r.mrk⟩
      · simp only; rw [oth _ _ _ _ _ _ (by omega) (by omega)]; exact r.del
      · simp only; rw [oth _ _ _ _ _ _ (by omega) (by omega)]; exact r.vol
      · simp only; exact field_fits _ _ _ (by omega) _ hf'.1 (by simpa using hf'.2)
      · simp only; rw [oth _ _ _ _ _ _ (by omega) (by omega)]; exact r.id
  | setVolatile =>
    refine ⟨_, rfl, ?_, ?_, ?_, ?_, r.rep, r.gdim, r.gid, r.pt, r.pb, r.ma, r.gl, r.mrk⟩
    · simp only [Hdr.setVolatile]; rw [oth _ _ _ _ _ _ (by omega) (by omega)]; exact r.del
    · simp only [Hdr.setVolatile, HdrSpec.step]; rw [getField_setField_same _ _ _ _ (by omega)]; decide
    · simp only [Hdr.setVolatile]; rw [oth _ _ _ _ _ _ (by omega) (by omega)]; exact r.dim
    · simp only [Hdr.setVolatile]; rw [oth _ _ _ _ _ _ (by omega) (by omega)]; exact r.id
  | setID i =>
    refine ⟨_, rfl, ?_, ?_, ?_, ?_, r.rep, r.gdim, r.gid, r.pt, r.pb, r.ma, r.gl, r.mrk⟩
    · simp only [Hdr.setID]; rw [oth _ _ _ _ _ _ (by omega) (by omega)]; exact r.del
    · simp only [Hdr.setID]; rw [oth _ _ _ _ _ _ (by omega) (by omega)]; exact r.vol
    · simp only [Hdr.setID]; rw [oth _ _ _ _ _ _ (by omega) (by omega)]; exact r.dim
    · simp only [Hdr.setID]; exact field_fits _ _ _ (by omega) _ hf.1 (by simpa using hf.2)
  | setRep i =>
    refine ⟨_, rfl, r.del, r.vol, r.dim, r.id, ?_, ?_, ?_, r.pt, r.pb, r.ma, r.gl, r.mrk⟩
    · simp only [Hdr.setRep]; exact field_fits _ _ _ (by omega) _ hf.1 (by simpa using hf.2)
    · simp only [Hdr.setRep]; rw [oth _ _ _ _ _ _ (by omega) (by omega)]; exact r.gdim
    · simp only [Hdr.setRep]; rw [oth _ _ _ _ _ _ (by omega) (by omega)]; exact r.gid
  | setGDim i =>
    refine ⟨_, rfl, r.del, r.vol, r.dim, r.id, ?_, ?_, ?_, r.pt, r.pb, r.ma, r.gl, r.mrk⟩
    · simp only [Hdr.setGDim]; rw [oth _ _ _ _ _ _ (by omega) (by omega)]; exact r.rep
    · simp only [Hdr.setGDim]; exact field_fits _ _ _ (by omega) _ hf.1 (by simpa using hf.2)
    · simp only [Hdr.setGDim]; rw [oth _ _ _ _ _ _ (by omega) (by omega)]; exact r.gid
  | setGID i =>
    refine ⟨_, rfl, r.del, r.vol, r.dim, r.id, ?_, ?_, ?_, r.pt, r.pb, r.ma, r.gl, r.mrk⟩
    · simp only [Hdr.setGID]; rw [oth _ _ _ _ _ _ (by omega) (by omega)]; exact r.rep
    · simp only [Hdr.setGID]; rw [oth _ _ _ _ _ _ (by omega) (by omega)]; exact r.gdim
    · simp only [Hdr.setGID]; exact field_fits _ _ _ (by omega) _ hf.1 (by simpa using hf.2)
  | setDel =>
    refine ⟨_, rfl, ?_, ?_, ?_, ?_, r.rep, r.gdim, r.gid, r.pt, r.pb, r.ma, r.gl, r.mrk⟩
    · simp only [Hdr.setDel, HdrSpec.step]; rw [getField_setField_same _ _ _ _ (by omega)]; decide
    · simp only [Hdr.setDel]; rw [oth _ _ _ _ _ _ (by omega) (by omega)]; exact r.vol
    · simp only [Hdr.setDel]; rw [oth _ _ _ _ _ _ (by omega) (by omega)]; exact r.dim
    · simp only [Hdr.setDel]; rw [oth _ _ _ _ _ _ (by omega) (by omega)]; exact r.id
  | remDel =>
    refine ⟨_, rfl, ?_, ?_, ?_, ?_, r.rep, r.gdim, r.gid, r.pt, r.pb, r.ma, r.gl, r.mrk⟩
    · simp only [Hdr.remDel, HdrSpec.step]; rw [getField_setField_same _ _ _ _ (by omega)]; rfl
    · simp only [Hdr.remDel]; rw [oth _ _ _ _ _ _ (by omega) (by omega)]; exact r.vol
    · simp only [Hdr.remDel]; rw [oth _ _ _ _ _ _ (by omega) (by omega)]; exact r.dim
    · simp only [Hdr.remDel]; rw [oth _ _ _ _ _ _ (by omega) (by omega)]; exact r.id
  | setPType i =>
    refine ⟨_, rfl, r.del, r.vol, r.dim, r.id, r.rep, r.gdim, r.gid, ?_, ?_, ?_, r.gl, r.mrk⟩
    · simp only [Hdr.setPType]; exact field_fits _ _ _ (by omega) _ hf.1 (by simpa using hf.2)
    · simp only [Hdr.setPType]; rw [oth _ _ _ _ _ _ (by omega) (by omega)]; exact r.pb
    · simp only [Hdr.setPType]; rw [oth _ _ _ _ _ _ (by omega) (by omega)]; exact r.ma
  | setParBdry b =>
    refine ⟨_, rfl, r.del, r.vol, r.dim, r.id, r.rep, r.gdim, r.gid, ?_, ?_, ?_, r.gl, r.mrk⟩
    · simp only [Hdr.setParBdry]; rw [oth _ _ _ _ _ _ (by omega) (by omega)]; exact r.pt
    · simp only [Hdr.setParBdry, HdrSpec.step]; rw [getField_setField_same _ _ _ _ (by omega)]; cases b <;> rfl
    · simp only [Hdr.setParBdry]; rw [oth _ _ _ _ _ _ (by omega) (by omega)]; exact r.ma
  | setMaster i =>
    refine ⟨_, rfl, r.del, r.vol, r.dim, r.id, r.rep, r.gdim, r.gid, ?_, ?_, ?_, r.gl, r.mrk⟩
    · simp only [Hdr.setMaster]; rw [oth _ _ _ _ _ _ (by omega) (by omega)]; exact r.pt
    · simp only [Hdr.setMaster]; rw [oth _ _ _ _ _ _ (by omega) (by omega)]; exact r.pb
    · simp only [Hdr.setMaster]; exact field_fits _ _ _ (by omega) _ hf.1 (by simpa using hf.2)
  | setGlobal g =>
    refine ⟨_, rfl, r.del, r.vol, r.dim, r.id, r.rep, r.gdim, r.gid, r.pt, r.pb, r.ma, ?_, r.mrk⟩
    simp only [Hdr.setGlobal, Hdr.ofI, HdrSpec.step]
    rw [BitVec.toInt_ofInt]
    obtain ⟨h1, h2⟩ := hf
    apply Int.bmod_eq_of_le <;> omega
  | mark m =>
    obtain ⟨h1, h2⟩ := hf
    simp only [Hdr.step, Hdr.mark, Hdr.markBit, if_pos (And.intro h1 h2), Res.bind_ok, Res.pure_eq]
    refine ⟨_, rfl, r.del, r.vol, r.dim, r.id, r.rep, r.gdim, r.gid, r.pt, r.pb, r.ma, r.gl, ?_⟩
    intro x hx1 hx2
    simp only [HdrSpec.step]
    rw [getLsbD_or_bit _ _ _ (by omega), r.mrk x hx1 hx2]
    by_cases hxm : x = m
    · subst hxm; simp
    · rw [if_neg hxm, decide_eq_false (by omega), Bool.or_false]
  | unmark m =>
    obtain ⟨h1, h2⟩ := hf
    simp only [Hdr.step, Hdr.unmark, Hdr.markBit, if_pos (And.intro h1 h2), Res.bind_ok, Res.pure_eq]
    refine ⟨_, rfl, r.del, r.vol, r.dim, r.id, r.rep, r.gdim, r.gid, r.pt, r.pb, r.ma, r.gl, ?_⟩
    intro x hx1 hx2
    simp only [HdrSpec.step]
    rw [getLsbD_andn_bit _ _ _ (by omega), r.mrk x hx1 hx2]
    by_cases hxm : x = m
    · subst hxm; simp
    · rw [if_neg hxm, decide_eq_true (by omega), Bool.and_true]

theorem rel_init (g : Hdr) : HRel (Hdr.init g) {} := by
  have oth := getField_setField_other
  have same := getField_setField_same
  constructor
  · simp only [Hdr.init]
    rw [oth _ _ _ _ _ _ (by omega) (by omega), oth _ _ _ _ _ _ (by omega) (by omega),
      oth _ _ _ _ _ _ (by omega) (by omega), same _ _ _ _ (by omega)]; decide
  · simp only [Hdr.init]
    rw [oth _ _ _ _ _ _ (by omega) (by omega), oth _ _ _ _ _ _ (by omega) (by omega),
      same _ _ _ _ (by omega)]; decide
  · simp only [Hdr.init]
    rw [oth _ _ _ _ _ _ (by omega) (by omega), same _ _ _ _ (by omega)]; decide
  · simp only [Hdr.init]
    rw [same _ _ _ _ (by omega)]; decide
  · simp only [Hdr.init]
    rw [oth _ _ _ _ _ _ (by omega) (by omega), oth _ _ _ _ _ _ (by omega) (by omega),
      same _ _ _ _ (by omega)]; decide
  · simp only [Hdr.init]
    rw [oth _ _ _ _ _ _ (by omega) (by omega), same _ _ _ _ (by omega)]; decide
  · simp only [Hdr.init]
    rw [same _ _ _ _ (by omega)]; decide
  · simp only [Hdr.init]
    rw [oth _ _ _ _ _ _ (by omega) (by omega), oth _ _ _ _ _ _ (by omega) (by omega),
      same _ _ _ _ (by omega)]; decide
  · simp only [Hdr.init]
    rw [oth _ _ _ _ _ _ (by omega) (by omega), same _ _ _ _ (by omega)]; decide
  · simp only [Hdr.init]
    rw [same _ _ _ _ (by omega)]; decide
  · simp [Hdr.init]
  · intro m _ _; simp [Hdr.init]

theorem rel_run (ops : List HdrOp) (hf : ∀ o ∈ ops, o.fits) : ∀ (h : Hdr) (s : HdrSpec), HRel h s →
    ∃ h', h.run ops = .ok h' ∧ HRel h' (ops.foldl HdrSpec.step s) := by
  induction ops with
  | nil => intro h s r; exact ⟨h, rfl, r⟩
  | cons o os ih =>
    intro h s r
    obtain ⟨h1, a1, a2⟩ := rel_step r o (hf o (by simp))
    obtain ⟨h2, b1, b2⟩ := ih (fun x hx => hf x (by simp [hx])) h1 _ a2
    exact ⟨h2, by simp only [Hdr.run, a1, Res.bind_ok, b1], b2⟩

/-- **C15** After creation of an entity in arbitrary memory and any sequence of setter calls with values
that fit, every query answers as if each field were stored separately. -/
theorem C15_header_fields_independent (g : Hdr) (ops : List HdrOp) (hf : ∀ o ∈ ops, o.fits) :
    ∃ h, (Hdr.init g).run ops = .ok h ∧ Reports h (ops.foldl HdrSpec.step {}) := by
  obtain ⟨h, h1, h2⟩ := rel_run ops hf _ _ (rel_init g)
  exact ⟨h, h1, reports_of_rel h2⟩

example : (∀ o ∈ [HdrOp.setID 134217727, .setDim 3, .setGID 7, .setDel, .mark 32, .setPType 3],
    o.fits) := by
  intro o ho; simp at ho
  rcases ho with rfl | rfl | rfl | rfl | rfl | rfl <;> simp [HdrOp.fits]
example (g : Hdr) : (Hdr.init g).id = 0 := (reports_of_rel (rel_init g)).id

/-- **C15 (limits)** Values that do not fit are silently truncated: ID 2^27 reads back as 0 and
classification ID -1 reads back as 67108863. -/
theorem C15_out_of_range (h : Hdr) : (h.setID 134217728).id = 0 ∧ (h.setGID (-1)).gid = 67108863 := by
  constructor
  · unfold Hdr.setID Hdr.id
    simp only
    rw [getField_setField_same _ _ _ _ (by omega)]; decide
  · unfold Hdr.setGID Hdr.gid
    simp only
    rw [getField_setField_same _ _ _ _ (by omega)]; decide

/-! ### C14 -/

/-- Specification: the last mark (`true`) or unmark (`false`) with marker `m` in the history, if any. -/
def lastMark (m : Int) : List HdrOp → Option Bool
  | [] => none
  | o :: os => (lastMark m os).or (match o with
    | .mark x => if x = m then some true else none
    | .unmark x => if x = m then some false else none
    | _ => none)

theorem lastMark_marks (m : Int) (ops : List HdrOp) : ∀ s : HdrSpec,
    (ops.foldl HdrSpec.step s).marks m = (lastMark m ops).getD (s.marks m) := by
  induction ops with
  | nil => intro s; rfl
  | cons o os ih =>
    intro s
    rw [List.foldl_cons, ih]
    have hu : lastMark m (o :: os) = (lastMark m os).or (match o with
      | .mark x => if x = m then some true else none
      | .unmark x => if x = m then some false else none
      | _ => none) := rfl
    rw [hu]
    cases hl : lastMark m os with
    | some b => simp
    | none =>
      rw [Option.getD_none, Option.none_or]
      cases o with
      | setDim d => simp only [HdrSpec.step]; split <;> rfl
      | mark x =>
        by_cases h : m = x
        · subst h; simp [HdrSpec.step]
        · simp [HdrSpec.step, h, Ne.symm h]
      | unmark x =>
        by_cases h : m = x
        · subst h; simp [HdrSpec.step]
        · simp [HdrSpec.step, h, Ne.symm h]
      | _ => rfl

/-- **C14** For every history of header operations (marks with any markers, interleaved with any other
setters) an entity is marked with `m` exactly when the last mark/unmark with `m` was a mark; a new entity
carries no mark. -/
theorem C14_marks_independent (g : Hdr) (ops : List HdrOp) (hf : ∀ o ∈ ops, o.fits) (m : Int)
    (h1 : 1 ≤ m) (h2 : m ≤ 32) :
    ∃ h, (Hdr.init g).run ops = .ok h ∧ h.isMarked m = .ok ((lastMark m ops).getD false) := by
  obtain ⟨h, a1, a2⟩ := C15_header_fields_independent g ops hf
  refine ⟨h, a1, ?_⟩
  rw [a2.marks m h1 h2, lastMark_marks]

example : lastMark 2 [.mark 2, .mark 3, .unmark 3] = some true ∧ lastMark 3 [.mark 2, .mark 3, .unmark 3] = some false := by
  decide

/-! ### C13 -/
namespace MarkAlloc

/-- invariant: no marker above `lastbit` is in use -/
structure Inv (s : MarkAlloc) : Prop where
  lo : -1 ≤ s.lastbit
  hi : s.lastbit ≤ 31
  above : ∀ i : Nat, i < 32 → s.lastbit < i → s.bits.getLsbD i = false

theorem firstFree_some {w : BitVec 32} : ∀ (n i k : Nat), firstFree w n i = some k →
    w.getLsbD k = false ∧ i ≤ k ∧ k < i + n
  | 0, i, k, h => by simp [firstFree] at h
  | n+1, i, k, h => by
    unfold firstFree at h
    split at h
    · have := firstFree_some n (i+1) k h; exact ⟨this.1, by omega, by omega⟩
    · rename_i hb
      simp at h; subst h
      exact ⟨by simpa using hb, by omega, by omega⟩

theorem firstFree_none {w : BitVec 32} : ∀ (n i : Nat), firstFree w n i = none →
    ∀ k, i ≤ k → k < i + n → w.getLsbD k = true
  | 0, i, _, k, h1, h2 => by omega
  | n+1, i, h, k, h1, h2 => by
    unfold firstFree at h
    split at h
    · rename_i hb
      by_cases hk : k = i
      · subst hk; exact hb
      · exact firstFree_none n (i+1) h k (by omega) (by omega)
    · simp at h

theorem lastSet_spec (w : BitVec 32) : ∀ n : Nat, -1 ≤ lastSet w n ∧ lastSet w n < n ∧
    ∀ i : Nat, i < n → lastSet w n < i → w.getLsbD i = false
  | 0 => by simp [lastSet]
  | n+1 => by
    have ih := lastSet_spec w n
    unfold lastSet
    split
    · refine ⟨by omega, by omega, ?_⟩
      intro i h1 h2; omega
    · rename_i hb
      refine ⟨ih.1, by omega, ?_⟩
      intro i h1 h2
      by_cases hi : i = n
      · subst hi; simpa using hb
      · exact ih.2.2 i (by omega) h2

inductive Ev where
  | got (m : Int)
  | freed (m : Int)
  deriving DecidableEq

inductive Op where
  | get
  | free (m : Int)

/-- Specification: marker `m` is in use after the events (oldest first). -/
def inUse (m : Int) : List Ev → Bool → Bool
  | [], b => b
  | .got x :: es, b => inUse m es (if x = m then true else b)
  | .freed x :: es, b => inUse m es (if x = m then false else b)

def step (powm1 : Nat → BitVec 32) (s : MarkAlloc) : Op → Res (MarkAlloc × Ev)
  | .get => do
    let (s, m) ← s.get
    pure (s, .got m)
  | .free m => do
    let s ← s.free powm1 m
    pure (s, .freed m)

/-- any sequence of calls (by any threads: the mutex serialises them), with the record of what happened -/
def run (powm1 : Nat → BitVec 32) : MarkAlloc → List Op → Res (MarkAlloc × List Ev)
  | s, [] => .ok (s, [])
  | s, o :: os => do
    let (s, e) ← s.step powm1 o
    let (s, es) ← run powm1 s os
    pure (s, e :: es)

theorem get_spec (s : MarkAlloc) (hi : Inv s) :
    (s.get = .fatal ∧ ∀ i, i < 32 → s.bits.getLsbD i = true) ∨
    (∃ (s' : MarkAlloc) (k : Nat), k < 32 ∧ s.get = .ok (s', (k : Int) + 1) ∧ s.bits.getLsbD k = false ∧ Inv s' ∧
      ∀ i, i < 32 → s'.bits.getLsbD i = (s.bits.getLsbD i || decide (i = k))) := by
  obtain ⟨h1, h2, h3⟩ := hi
  unfold get
  by_cases hl : s.lastbit < 31
  · right
    rw [if_pos hl]
    simp only
    rw [if_neg (by omega)]
    refine ⟨⟨s.bits ||| (1#32 <<< (s.lastbit + 1).toNat), s.lastbit + 1⟩, (s.lastbit + 1).toNat, by omega, ?_, h3 _ (by omega) (by omega), ?_, ?_⟩
    · rw [show ((s.lastbit + 1).toNat : Int) = s.lastbit + 1 by omega]
    · refine ⟨by simp only; omega, by simp only; omega, ?_⟩
      intro i hi1 hi2
      simp only at hi2 ⊢
      rw [getLsbD_or_bit _ _ _ hi1, h3 i hi1 (by omega)]
      simp; omega
    · intro i hi1
      simp only
      rw [getLsbD_or_bit _ _ _ hi1]
  · rw [if_neg hl]
    cases hf : firstFree s.bits 32 0 with
    | none =>
      left
      exact ⟨rfl, fun i hi1 => firstFree_none 32 0 hf i (by omega) (by omega)⟩
    | some k =>
      right
      obtain ⟨f1, f2, f3⟩ := firstFree_some 32 0 k hf
      refine ⟨⟨s.bits ||| (1#32 <<< k), s.lastbit⟩, k, by omega, rfl, f1, ⟨h1, h2, ?_⟩, fun i hi1 => getLsbD_or_bit _ _ _ hi1⟩
      intro i hi1 hi2
      simp only at hi2
      omega

theorem free_spec (powm1 : Nat → BitVec 32) (s : MarkAlloc) (hi : Inv s) (m : Int) (h1 : 1 ≤ m) (h2 : m ≤ 32) :
    ∃ s', s.free powm1 m = .ok s' ∧ Inv s' ∧
      ∀ i, i < 32 → s'.bits.getLsbD i = (s.bits.getLsbD i && decide (i ≠ (m - 1).toNat)) := by
  unfold free
  rw [if_pos ⟨h1, h2⟩]
  obtain ⟨l1, l2, l3⟩ := hi
  refine ⟨_, rfl, ?_, fun i hi => getLsbD_andn_bit _ _ _ hi⟩
  have hs := lastSet_spec (s.bits &&& ~~~(1#32 <<< (m - 1).toNat)) 32
  by_cases hc : (s.bits &&& ~~~(1#32 <<< (m - 1).toNat)) ≠
      powm1 ((if m - 1 = s.lastbit then s.lastbit - 1 else s.lastbit) + 1).toNat
  · refine ⟨?_, ?_, ?_⟩
    · simp only [if_pos hc]; omega
    · simp only [if_pos hc]; omega
    · intro i hi1 hi2
      simp only [if_pos hc] at hi2 ⊢
      exact hs.2.2 i hi1 hi2
  · refine ⟨?_, ?_, ?_⟩
    · simp only [if_neg hc]; split <;> omega
    · simp only [if_neg hc]; split <;> omega
    · intro i hi1 hi2
      simp only [if_neg hc] at hi2 ⊢
      rw [getLsbD_andn_bit _ _ _ hi1]
      by_cases hm : m - 1 = s.lastbit
      · rw [if_pos hm] at hi2
        by_cases hi3 : i = (m-1).toNat
        · simp [hi3]
        · rw [l3 i hi1 (by omega)]; rfl
      · rw [if_neg hm] at hi2
        rw [l3 i hi1 (by omega)]; rfl

/-- the calls of a history are legal: only markers 1..32 are freed -/
def legal (ops : List Op) : Prop := ∀ m, Op.free m ∈ ops → 1 ≤ m ∧ m ≤ 32

theorem run_spec (powm1 : Nat → BitVec 32) (ops : List Op) (hl : legal ops) : ∀ (s : MarkAlloc), Inv s →
    run powm1 s ops = .fatal ∨ ∃ s' es, run powm1 s ops = .ok (s', es) ∧ Inv s' ∧
      ∀ i, i < 32 → s'.bits.getLsbD i = inUse (i + 1) es (s.bits.getLsbD i) := by
  induction ops with
  | nil => intro s hi; right; exact ⟨s, [], rfl, hi, fun i _ => rfl⟩
  | cons o os ih =>
    have ih := ih (fun m hm => hl m (by simp [hm]))
    intro s hi
    cases o with
    | get =>
      rcases get_spec s hi with ⟨h1, h2⟩ | ⟨s', k, k1, k2, k3, k4, k5⟩
      · left; simp only [run, step, h1, Res.bind_fatal]
      · simp only [run, step, k2, Res.bind_ok, Res.pure_eq]
        rcases ih s' k4 with h | ⟨s2, es, e1, e2, e3⟩
        · left; simp only [h, Res.bind_fatal]
        · right
          refine ⟨s2, .got (k+1) :: es, by simp only [e1, Res.bind_ok], e2, ?_⟩
          intro i hi1
          rw [e3 i hi1, k5 i hi1]
          rw [show inUse (i+1) (.got (k+1) :: es) (s.bits.getLsbD i) =
            inUse (i+1) es (if (k:Int)+1 = i+1 then true else s.bits.getLsbD i) from rfl]
          by_cases hik : i = k
          · subst hik; simp
          · simp [hik, show ¬ ((k : Int) + 1 = i + 1) by omega]
    | free m =>
      obtain ⟨m1, m2⟩ := hl m (by simp)
      obtain ⟨s', k1, k2, k3⟩ := free_spec powm1 s hi m m1 m2
      simp only [run, step, k1, Res.bind_ok, Res.pure_eq]
      rcases ih s' k2 with h | ⟨s2, es, e1, e2, e3⟩
      · left; simp only [h, Res.bind_fatal]
      · right
        refine ⟨s2, .freed m :: es, by simp only [e1, Res.bind_ok], e2, ?_⟩
        intro i hi1
        rw [e3 i hi1, k3 i hi1]
        rw [show inUse (i+1) (.freed m :: es) (s.bits.getLsbD i) =
            inUse (i+1) es (if m = i+1 then false else s.bits.getLsbD i) from rfl]
        by_cases him : i = (m-1).toNat
        · rw [if_pos (by omega)]; simp [him]
        · rw [if_neg (by omega), decide_eq_true him, Bool.and_true]

/-- **C13** After any history of allocations and releases, the next `MSTK_GetMarker` either returns a marker in
1..32 that is not in use, or the program stops with an error — and that only if all 32 are in use.
The result does not depend on what the out-of-range `(int) pow(2,k)` yields. -/
theorem C13_marker_never_shared (powm1 : Nat → BitVec 32) (ops : List Op) (hl : legal ops)
    (s : MarkAlloc) (es : List Ev) (hr : run powm1 init ops = .ok (s, es)) :
    (∃ s' m, s.get = .ok (s', m) ∧ 1 ≤ m ∧ m ≤ 32 ∧ inUse m es false = false) ∨
    (s.get = .fatal ∧ ∀ m, 1 ≤ m → m ≤ 32 → inUse m es false = true) := by
  have hinit : Inv init := ⟨by decide, by decide, by intro i _ _; simp [init]⟩
  rcases run_spec powm1 ops hl init hinit with h | ⟨s', es', e1, e2, e3⟩
  · rw [hr] at h; simp at h
  · rw [hr] at e1
    simp only [Res.ok.injEq, Prod.mk.injEq] at e1
    obtain ⟨rfl, rfl⟩ := e1
    have hb : ∀ i : Nat, (init.bits).getLsbD i = false := by intro i; simp [init]
    rcases get_spec s e2 with ⟨h1, h2⟩ | ⟨s', k, k1, k2, k3, k4, k5⟩
    · right
      refine ⟨h1, ?_⟩
      intro m m1 m2
      have h4 := e3 (m - 1).toNat (by omega)
      rw [h2 _ (by omega), hb, show (((m-1).toNat : Int) + 1) = m by omega] at h4
      exact h4.symm
    · left
      refine ⟨s', k + 1, k2, by omega, by omega, ?_⟩
      have := e3 k k1
      rw [k3, hb] at this; exact this.symm

/-- **C13 (progress)** A history can only stop early by exhausting the markers: releases of markers 1..32 never
fail, and `run` never ends in undefined behaviour or a hang. -/
theorem C13_marker_progress (powm1 : Nat → BitVec 32) (ops : List Op) (hl : legal ops) :
    (∃ s es, run powm1 init ops = .ok (s, es)) ∨ run powm1 init ops = .fatal := by
  have hinit : Inv init := ⟨by decide, by decide, by intro i _ _; simp [init]⟩
  rcases run_spec powm1 ops hl init hinit with h | ⟨s', es', e1, _, _⟩
  · exact Or.inr h
  · exact Or.inl ⟨s', es', e1⟩

/-- non-vacuity: a history with frees out of order in which marker 1 is handed out again -/
example : (match run (fun k => BitVec.ofNat 32 (2 ^ k - 1)) init
    ((List.replicate 32 .get) ++ [.free 1, .free 5]) with
    | .ok (s, _) => s.get.bind (fun r => .ok r.2)
    | _ => .ub) = .ok 1 := by decide
/-- and all 32 in use is a reachable FATAL -/
example : run (fun _ => 0#32) init (List.replicate 33 .get) = .fatal := by decide

end MarkAlloc
end MSTK
