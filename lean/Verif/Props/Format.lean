import Verif.FormatModel
/-!
C98: the format of a file is the one its name or the caller gives.
-/
namespace MSTK.Fmt

/-! ### Specification -/

/-- the name has the extension `e`: it ends with a dot and `e`, `e` has neither dots nor slashes, and
something precedes the dot -/
def HasExt (name e : List Char) : Prop :=
  ∃ stem, name = stem ++ '.' :: e ∧ '.' ∉ e ∧ '/' ∉ e ∧ stem ≠ []

/-- the extensions of the formats that can be written -/
def written : List (String × Format) :=
  [("mstk", .mstk), ("gmv", .gmv), ("exo", .exodus), ("off", .off)]

/-- the extensions of the formats that can be read -/
def readable : List (String × Format) :=
  [("mstk", .mstk), ("gmv", .gmv), ("exo", .exodus), ("par", .nemesis), ("x3d", .x3d)]

/-- the names of the formats for a caller who gives one, to write and to read -/
def writeNames : List (String × Format) :=
  [("mstk", .mstk), ("gmv", .gmv), ("x3d", .x3d), ("exodusii", .exodus), ("exo", .exodus), ("stl", .stl),
    ("off", .off), ("dx", .dx)]

def readNames : List (String × Format) :=
  [("mstk", .mstk), ("gmv", .gmv), ("exodusii", .exodus), ("nemesisi", .nemesis), ("x3d", .x3d)]

/-- the formats the library was built with -/
def Built (exo : Bool) (f : Format) : Prop := (f = .exodus ∨ f = .nemesis) → exo = true

/-- a name with at most one dot, not counting one at its beginning -/
def OneDot (name : List Char) : Prop := name.tail.count '.' ≤ 1

/-! ### Proofs -/

theorem afterDot_app : ∀ (s e : List Char), '.' ∉ s → afterDot (s ++ '.' :: e) = some e
  | [], e, _ => by simp [afterDot]
  | c :: s, e, h => by
    rw [List.cons_append, afterDot, if_neg (fun hc => h (by rw [hc]; exact List.mem_cons_self ..))]
    exact afterDot_app s e (fun hm => h (List.mem_cons_of_mem _ hm))

theorem afterDot_some : ∀ (s e : List Char), afterDot s = some e → ∃ a, s = a ++ '.' :: e ∧ '.' ∉ a
  | [], e, h => by simp [afterDot] at h
  | c :: s, e, h => by
    rw [afterDot] at h
    by_cases hc : c = '.'
    · rw [if_pos hc] at h
      exact ⟨[], by rw [hc, Option.some.inj h]; rfl, List.not_mem_nil⟩
    · rw [if_neg hc] at h
      obtain ⟨a, ha, hn⟩ := afterDot_some s e h
      refine ⟨c :: a, by rw [ha]; rfl, fun hm => ?_⟩
      rcases List.mem_cons.1 hm with he | hm
      · exact hc he.symm
      · exact hn hm

theorem extOf_iff (name e : List Char) :
    extOf name = some e ↔ ∃ stem, name = stem ++ '.' :: e ∧ stem ≠ [] ∧ '.' ∉ stem.tail := by
  have hcases : (∃ cs, name = '.' :: cs ∧ extOf name = afterDot cs) ∨
      ((∀ cs, name ≠ '.' :: cs) ∧ extOf name = afterDot name) := by
    cases name with
    | nil => exact Or.inr ⟨fun _ h => (List.cons_ne_nil _ _ h.symm).elim, rfl⟩
    | cons c cs =>
      by_cases hc : c = '.'
      · subst hc; exact Or.inl ⟨cs, rfl, rfl⟩
      · refine Or.inr ⟨fun cs' h => hc (List.cons.inj h).1, ?_⟩
        unfold extOf
        split
        · rename_i heq; exact absurd (List.cons.inj heq).1 hc
        · rfl
  rcases hcases with ⟨cs, hn, he⟩ | ⟨hn, he⟩
  · rw [he]
    constructor
    · intro h
      obtain ⟨a, ha, hd⟩ := afterDot_some _ _ h
      exact ⟨'.' :: a, by rw [hn, ha]; rfl, by simp, hd⟩
    · rintro ⟨stem, hs, hne, hd⟩
      cases stem with
      | nil => exact absurd rfl hne
      | cons c t =>
        rw [hn] at hs
        rw [(List.cons.inj hs).2]
        exact afterDot_app t e hd
  · rw [he]
    constructor
    · intro h
      obtain ⟨a, ha, hd⟩ := afterDot_some _ _ h
      refine ⟨a, ha, fun h0 => ?_, fun hm => hd (List.mem_of_mem_tail hm)⟩
      rw [h0] at ha
      exact hn e ha
    · rintro ⟨stem, hs, hne, hd⟩
      cases stem with
      | nil => exact absurd rfl hne
      | cons c t =>
        rw [hs]
        apply afterDot_app
        intro hm
        rcases List.mem_cons.1 hm with hc | hm
        · subst hc; exact hn _ hs
        · exact hd hm

theorem exportExt_table (e : List Char) (exo : Bool) :
    ((∃ f, (e, f) ∈ written.map (fun p => (p.1.toList, p.2)) ∧
        ∃ s, exportExt e = some s ∧ s.length < 16 ∧
          exportCall exo s = if f = .exodus ∧ exo = false then .refused else .calls f) ∨
      ((∀ f, (e, f) ∉ written.map (fun p => (p.1.toList, p.2))) ∧ exportExt e = none)) := by
  unfold exportExt
  split
  · rename_i h; exact Or.inl ⟨.mstk, by rw [h]; decide, _, rfl, by decide, by cases exo <;> decide⟩
  split
  · rename_i h; exact Or.inl ⟨.gmv, by rw [h]; decide, _, rfl, by decide, by cases exo <;> decide⟩
  split
  · rename_i h; exact Or.inl ⟨.exodus, by rw [h]; decide, _, rfl, by decide, by cases exo <;> decide⟩
  split
  · rename_i h; exact Or.inl ⟨.off, by rw [h]; decide, _, rfl, by decide, by cases exo <;> decide⟩
  · rename_i h1 h2 h3 h4
    refine Or.inr ⟨fun f hm => ?_, rfl⟩
    simp only [written, List.map_cons, List.map_nil, List.mem_cons, Prod.mk.injEq, List.not_mem_nil,
      or_false] at hm
    rcases hm with h | h | h | h
    · exact h1 h.1
    · exact h2 h.1
    · exact h3 h.1
    · exact h4 h.1

theorem importExt_table (e : List Char) (exo : Bool) (full : Nat) (rep : Option Nat) :
    ((∃ f, (e, f) ∈ readable.map (fun p => (p.1.toList, p.2)) ∧
        ∃ s, importExt e = some s ∧ s.length < 16 ∧
          importCall exo full rep s = (if f = .mstk then rep else some (rep.getD full),
            if (f = .exodus ∨ f = .nemesis) ∧ exo = false then .refused else .calls f)) ∨
      ((∀ f, (e, f) ∉ readable.map (fun p => (p.1.toList, p.2))) ∧ importExt e = none)) := by
  unfold importExt
  split
  · rename_i h
    exact Or.inl ⟨.mstk, by rw [h]; decide, _, rfl, by decide, by cases exo <;> cases rep <;> rfl⟩
  split
  · rename_i h
    exact Or.inl ⟨.gmv, by rw [h]; decide, _, rfl, by decide, by cases exo <;> cases rep <;> rfl⟩
  split
  · rename_i h
    exact Or.inl ⟨.exodus, by rw [h]; decide, _, rfl, by decide, by cases exo <;> cases rep <;> rfl⟩
  split
  · rename_i h
    exact Or.inl ⟨.nemesis, by rw [h]; decide, _, rfl, by decide, by cases exo <;> cases rep <;> rfl⟩
  split
  · rename_i h
    exact Or.inl ⟨.x3d, by rw [h]; decide, _, rfl, by decide, by cases exo <;> cases rep <;> rfl⟩
  · rename_i h1 h2 h3 h4 h5
    refine Or.inr ⟨fun f hm => ?_, rfl⟩
    simp only [readable, List.map_cons, List.map_nil, List.mem_cons, Prod.mk.injEq, List.not_mem_nil,
      or_false] at hm
    rcases hm with h | h | h | h | h
    · exact h1 h.1
    · exact h2 h.1
    · exact h3 h.1
    · exact h4 h.1
    · exact h5 h.1

theorem written_plain {e : List Char} {f : Format} (h : (e, f) ∈ written.map (fun p => (p.1.toList, p.2))) :
    '.' ∉ e ∧ '/' ∉ e ∧ ∃ s, (s, f) ∈ written ∧ e = s.toList := by
  simp only [written, List.map_cons, List.map_nil, List.mem_cons, Prod.mk.injEq, List.not_mem_nil,
    or_false] at h
  rcases h with ⟨rfl, rfl⟩ | ⟨rfl, rfl⟩ | ⟨rfl, rfl⟩ | ⟨rfl, rfl⟩
  · exact ⟨by decide, by decide, "mstk", by decide, rfl⟩
  · exact ⟨by decide, by decide, "gmv", by decide, rfl⟩
  · exact ⟨by decide, by decide, "exo", by decide, rfl⟩
  · exact ⟨by decide, by decide, "off", by decide, rfl⟩

theorem readable_plain {e : List Char} {f : Format} (h : (e, f) ∈ readable.map (fun p => (p.1.toList, p.2))) :
    '.' ∉ e ∧ '/' ∉ e ∧ ∃ s, (s, f) ∈ readable ∧ e = s.toList := by
  simp only [readable, List.map_cons, List.map_nil, List.mem_cons, Prod.mk.injEq, List.not_mem_nil,
    or_false] at h
  rcases h with ⟨rfl, rfl⟩ | ⟨rfl, rfl⟩ | ⟨rfl, rfl⟩ | ⟨rfl, rfl⟩ | ⟨rfl, rfl⟩
  · exact ⟨by decide, by decide, "mstk", by decide, rfl⟩
  · exact ⟨by decide, by decide, "gmv", by decide, rfl⟩
  · exact ⟨by decide, by decide, "exo", by decide, rfl⟩
  · exact ⟨by decide, by decide, "par", by decide, rfl⟩
  · exact ⟨by decide, by decide, "x3d", by decide, rfl⟩

theorem built {exo : Bool} {f : Format} (h1 : f ≠ .exodus) (h2 : f ≠ .nemesis) : Built exo f :=
  fun h => absurd h (fun h => h.elim h1 h2)

theorem pair_inj : ∀ {l : List (List Char × Format)}, l.Pairwise (fun p q => p.1 ≠ q.1) →
    ∀ {e : List Char} {f g : Format}, (e, f) ∈ l → (e, g) ∈ l → f = g
  | [], _, _, _, _, hf, _ => absurd hf List.not_mem_nil
  | p :: l, hl, e, f, g, hf, hg => by
    obtain ⟨h1, h2⟩ := List.pairwise_cons.1 hl
    rcases List.mem_cons.1 hf with hf | hf <;> rcases List.mem_cons.1 hg with hg | hg
    · rw [← hg] at hf; exact (Prod.mk.inj hf).2
    · exact absurd (by rw [← hf]) (h1 _ hg)
    · exact absurd (by rw [← hg]) (h1 _ hf)
    · exact pair_inj h2 hf hg

theorem one_format {l : List (String × Format)} (hl : (l.map (fun p => (p.1.toList, p.2))).Pairwise
    (fun p q => p.1 ≠ q.1)) {e : List Char} {f g : Format} (hf : (e, f) ∈ l.map (fun p => (p.1.toList, p.2)))
    (hg : (e, g) ∈ l.map (fun p => (p.1.toList, p.2))) : f = g :=
  pair_inj hl hf hg

theorem export_ext {exo : Bool} {name e : List Char} {f : Format} (he : extOf name = some e)
    (hf : (e, f) ∈ written.map (fun p => (p.1.toList, p.2))) :
    exportTo exo name none = .ok (if f = .exodus ∧ exo = false then .refused else .calls f) := by
  rcases exportExt_table e exo with ⟨g, hg, s, h1, h2, h3⟩ | ⟨h1, _⟩
  · have := one_format (by decide) hf hg
    subst this
    simp only [exportTo, he, h1, copied, if_pos h2, Res.bind_ok, Res.pure_eq, h3]
  · exact absurd hf (h1 f)

theorem export_none {exo : Bool} {name : List Char} (h : ∀ e f, extOf name = some e →
    (e, f) ∉ written.map (fun p => (p.1.toList, p.2))) : exportTo exo name none = .ok .unknown := by
  cases he : extOf name with
  | none => simp only [exportTo, he]
  | some e =>
    rcases exportExt_table e exo with ⟨g, hg, _⟩ | ⟨_, h1⟩
    · exact absurd hg (h e g he)
    · simp only [exportTo, he, h1]

theorem import_ext {exo : Bool} {full : Nat} {rep : Option Nat} {name e : List Char} {f : Format}
    (he : extOf name = some e) (hf : (e, f) ∈ readable.map (fun p => (p.1.toList, p.2))) :
    importFrom exo full rep name none = .ok (if f = .mstk then rep else some (rep.getD full),
      if (f = .exodus ∨ f = .nemesis) ∧ exo = false then .refused else .calls f) := by
  rcases importExt_table e exo full rep with ⟨g, hg, s, h1, h2, h3⟩ | ⟨h1, _⟩
  · have := one_format (by decide) hf hg
    subst this
    simp only [importFrom, he, h1, copied, if_pos h2, Res.bind_ok, Res.pure_eq, h3]
  · exact absurd hf (h1 f)

theorem import_none {exo : Bool} {full : Nat} {rep : Option Nat} {name : List Char}
    (h : ∀ e f, extOf name = some e → (e, f) ∉ readable.map (fun p => (p.1.toList, p.2))) :
    importFrom exo full rep name none = .ok (rep, .unknown) := by
  cases he : extOf name with
  | none => simp only [importFrom, he]
  | some e =>
    rcases importExt_table e exo full rep with ⟨g, hg, _⟩ | ⟨_, h1⟩
    · exact absurd hg (h e g he)
    · simp only [importFrom, he, h1]

theorem ext_of_oneDot {name e : List Char} (h : HasExt name e) (h1 : OneDot name) : extOf name = some e := by
  obtain ⟨stem, hn, _, _, hne⟩ := h
  refine (extOf_iff name e).2 ⟨stem, hn, hne, fun hm => ?_⟩
  cases stem with
  | nil => exact hne rfl
  | cons c t =>
    rw [List.tail_cons] at hm
    have h2 : 1 ≤ t.count '.' := List.one_le_count_iff.2 hm
    rw [hn] at h1
    unfold OneDot at h1
    rw [List.cons_append, List.tail_cons, List.count_append, List.count_cons_self] at h1
    omega

theorem dots_ext {name e : List Char} (h : 2 ≤ name.tail.count '.') (he : extOf name = some e) : '.' ∈ e := by
  obtain ⟨stem, hn, hne, hd⟩ := (extOf_iff name e).1 he
  cases stem with
  | nil => exact absurd rfl hne
  | cons c t =>
    rw [List.tail_cons] at hd
    rw [hn, List.cons_append, List.tail_cons, List.count_append, List.count_cons_self,
      List.count_eq_zero_of_not_mem hd] at h
    exact List.one_le_count_iff.1 (by omega)

/-! ### Properties -/

/-- Writing a mesh without naming a format, to a file whose name has one dot apart from one at its
beginning: the routine of the format the extension stands for is called when the library was built with it,
and a name with another extension is refused.  Missing: names with more dots, `C98_negation_dots`. -/
theorem C98_export_partial (exo : Bool) (name e : List Char) (he : HasExt name e) (h1 : OneDot name) :
    (∀ s f, (s, f) ∈ written → e = s.toList → Built exo f → exportTo exo name none = .ok (.calls f)) ∧
      ((∀ s f, (s, f) ∈ written → e ≠ s.toList) → exportTo exo name none = .ok .unknown) := by
  have hx := ext_of_oneDot he h1
  refine ⟨fun s f hm hs hb => ?_, fun hno => ?_⟩
  · rw [export_ext hx (List.mem_map.2 ⟨(s, f), hm, by rw [hs]⟩), if_neg]
    rintro ⟨h2, h3⟩
    rw [hb (Or.inl h2)] at h3
    cases h3
  · refine export_none (fun e' f he' hf => ?_)
    rw [hx] at he'
    obtain ⟨_, _, s, hs, h2⟩ := written_plain hf
    rw [← Option.some.inj he'] at h2
    exact hno s f hs h2

example : HasExt "./out/mesh.exo".toList "exo".toList ∧ OneDot "./out/mesh.exo".toList :=
  ⟨⟨"./out/mesh".toList, by decide, by decide, by decide, by decide⟩, by unfold OneDot; decide⟩

/-- The same for reading; the mesh is told the full representation unless it has one or the file says it. -/
theorem C98_import_partial (exo : Bool) (full : Nat) (rep : Option Nat) (name e : List Char)
    (he : HasExt name e) (h1 : OneDot name) :
    (∀ s f, (s, f) ∈ readable → e = s.toList → Built exo f →
        importFrom exo full rep name none = .ok (if f = .mstk then rep else some (rep.getD full), .calls f)) ∧
      ((∀ s f, (s, f) ∈ readable → e ≠ s.toList) → importFrom exo full rep name none = .ok (rep, .unknown)) := by
  have hx := ext_of_oneDot he h1
  refine ⟨fun s f hm hs hb => ?_, fun hno => ?_⟩
  · rw [import_ext hx (List.mem_map.2 ⟨(s, f), hm, by rw [hs]⟩),
      if_neg (show ¬ ((f = .exodus ∨ f = .nemesis) ∧ exo = false) from fun h => by
        rw [hb h.1] at h; cases h.2)]
  · refine import_none (fun e' f he' hf => ?_)
    rw [hx] at he'
    obtain ⟨_, _, s, hs, h2⟩ := readable_plain hf
    rw [← Option.some.inj he'] at h2
    exact hno s f hs h2

/-- A file is never written or read in a format other than the one its extension stands for: for every name,
when a routine is called it is that of the extension, and no name leads to anything undefined. -/
theorem C98_never_another (exo : Bool) (full : Nat) (rep : Option Nat) (name : List Char) :
    (∃ o, exportTo exo name none = .ok o ∧ ∀ f, o = .calls f →
        ∃ s, (s, f) ∈ written ∧ HasExt name s.toList ∧ Built exo f) ∧
      ∃ r o, importFrom exo full rep name none = .ok (r, o) ∧ ∀ f, o = .calls f →
        ∃ s, (s, f) ∈ readable ∧ HasExt name s.toList ∧ Built exo f := by
  constructor
  · by_cases h : ∃ e f, extOf name = some e ∧ (e, f) ∈ written.map (fun p => (p.1.toList, p.2))
    · obtain ⟨e, f, he, hf⟩ := h
      refine ⟨_, export_ext he hf, fun g hg => ?_⟩
      obtain ⟨hd, hs, s, hm, h2⟩ := written_plain hf
      obtain ⟨stem, hn, hne, _⟩ := (extOf_iff name e).1 he
      split at hg
      · cases hg
      · rename_i hb
        cases hg
        refine ⟨s, hm, ⟨stem, by rw [← h2]; exact hn, by rw [← h2]; exact hd, by rw [← h2]; exact hs, hne⟩, ?_⟩
        rintro (h3 | h3)
        · cases hx : exo with
          | true => rfl
          | false => exact absurd ⟨h3, hx⟩ hb
        · rw [h3] at hm
          revert hm
          simp [written]
    · exact ⟨.unknown, export_none (fun e f he hf => h ⟨e, f, he, hf⟩), fun f hf => by cases hf⟩
  · by_cases h : ∃ e f, extOf name = some e ∧ (e, f) ∈ readable.map (fun p => (p.1.toList, p.2))
    · obtain ⟨e, f, he, hf⟩ := h
      refine ⟨_, _, import_ext he hf, fun g hg => ?_⟩
      obtain ⟨hd, hs, s, hm, h2⟩ := readable_plain hf
      obtain ⟨stem, hn, hne, _⟩ := (extOf_iff name e).1 he
      split at hg
      · cases hg
      · rename_i hb
        cases hg
        refine ⟨s, hm, ⟨stem, by rw [← h2]; exact hn, by rw [← h2]; exact hd, by rw [← h2]; exact hs, hne⟩, ?_⟩
        intro h3
        cases hx : exo with
        | true => rfl
        | false => exact absurd ⟨h3, hx⟩ hb
    · exact ⟨rep, .unknown, import_none (fun e f he hf => h ⟨e, f, he, hf⟩), fun f hf => by cases hf⟩

/-- What was written under a name can be read under that name, in the same format, unless it is `off`, for
which there is no reading: for every name. -/
theorem C98_read_back (exo : Bool) (full : Nat) (rep : Option Nat) (name : List Char) (f : Format)
    (h : exportTo exo name none = .ok (.calls f)) (hoff : f ≠ .off) :
    importFrom exo full rep name none = .ok (if f = .mstk then rep else some (rep.getD full), .calls f) := by
  by_cases h' : ∃ e g, extOf name = some e ∧ (e, g) ∈ written.map (fun p => (p.1.toList, p.2))
  · obtain ⟨e, g, he, hg⟩ := h'
    rw [export_ext he hg] at h
    split at h
    · cases h
    · rename_i hb
      cases h
      have hr : (e, f) ∈ readable.map (fun p => (p.1.toList, p.2)) := by
        simp only [written, List.map_cons, List.map_nil, List.mem_cons, Prod.mk.injEq, List.not_mem_nil,
          or_false] at hg
        rcases hg with ⟨rfl, rfl⟩ | ⟨rfl, rfl⟩ | ⟨rfl, rfl⟩ | ⟨rfl, rfl⟩
        · decide
        · decide
        · decide
        · exact absurd rfl hoff
      have hn : f ≠ .nemesis := by
        rintro rfl
        revert hg
        simp [written]
      rw [import_ext he hr, if_neg (show ¬ ((f = .exodus ∨ f = .nemesis) ∧ exo = false) from
        fun h => h.1.elim (fun h1 => hb ⟨h1, h.2⟩) hn)]
  · rw [export_none (fun e g he hg => h' ⟨e, g, he, hg⟩)] at h
    cases h

example : exportTo true "./a_mesh.exo".toList none = .ok (.calls .exodus) := by decide

/-- A format the caller names is the one that is used, whatever the name of the file. -/
theorem C98_given (exo : Bool) (full : Nat) (rep : Option Nat) (name : List Char) :
    (∀ s f, (s, f) ∈ writeNames → Built exo f → exportTo exo name (some s.toList) = .ok (.calls f)) ∧
      ∀ s f, (s, f) ∈ readNames → Built exo f → importFrom exo full rep name (some s.toList) =
        .ok (if f = .mstk then rep else some (rep.getD full), .calls f) := by
  constructor
  · intro s f h hb
    simp only [writeNames, List.mem_cons, Prod.mk.injEq, List.not_mem_nil, or_false] at h
    rcases h with ⟨rfl, rfl⟩ | ⟨rfl, rfl⟩ | ⟨rfl, rfl⟩ | ⟨rfl, rfl⟩ | ⟨rfl, rfl⟩ | ⟨rfl, rfl⟩ | ⟨rfl, rfl⟩ |
      ⟨rfl, rfl⟩
    · cases exo <;> rfl
    · cases exo <;> rfl
    · cases exo <;> rfl
    · rw [hb (Or.inl rfl)]; rfl
    · rw [hb (Or.inl rfl)]; rfl
    · cases exo <;> rfl
    · cases exo <;> rfl
    · cases exo <;> rfl
  · intro s f h hb
    simp only [readNames, List.mem_cons, Prod.mk.injEq, List.not_mem_nil, or_false] at h
    rcases h with ⟨rfl, rfl⟩ | ⟨rfl, rfl⟩ | ⟨rfl, rfl⟩ | ⟨rfl, rfl⟩ | ⟨rfl, rfl⟩
    · cases exo <;> cases rep <;> rfl
    · cases exo <;> cases rep <;> rfl
    · rw [hb (Or.inl rfl)]; cases rep <;> rfl
    · rw [hb (Or.inr rfl)]; cases rep <;> rfl
    · cases exo <;> cases rep <;> rfl

/-- No other routine is called for a format the caller names: what is written begins with one of the names,
what is read is one of them. -/
theorem C98_given_only (exo : Bool) (full : Nat) (rep : Option Nat) (name s : List Char) (f : Format) :
    (exportTo exo name (some s) = .ok (.calls f) → Built exo f ∧ ∃ p, (p, f) ∈ writeNames ∧ p.toList <+: s) ∧
      ∀ r, importFrom exo full rep name (some s) = .ok (r, .calls f) →
        Built exo f ∧ ∃ p, (p, f) ∈ readNames ∧ s = p.toList := by
  have hpre : ∀ (p : List Char) (n : Nat), p.length ≤ n → sameN s p n = true → p <+: s := by
    intro p n hn h
    unfold sameN at h
    have h := of_decide_eq_true h
    rw [List.take_of_length_le hn] at h
    rw [← h]
    exact List.take_prefix _ _
  constructor
  · intro h
    unfold exportTo copied at h
    dsimp only at h
    by_cases hl : s.length < 16
    · rw [if_pos hl, Res.bind_ok, Res.pure_eq] at h
      have h := Res.ok.inj h
      unfold exportCall at h
      split at h
      · rename_i hs; cases h
        exact ⟨built (by decide) (by decide), "mstk", by decide, hpre _ 4 (by decide) hs⟩
      split at h
      · rename_i hs; cases h
        exact ⟨built (by decide) (by decide), "gmv", by decide, hpre _ 3 (by decide) hs⟩
      split at h
      · rename_i hs; cases h
        exact ⟨built (by decide) (by decide), "x3d", by decide, hpre _ 4 (by decide) hs⟩
      split at h
      · rename_i hs
        split at h
        · rename_i hx; cases h
          exact ⟨fun _ => hx, "exo", by decide, hpre _ 3 (by decide) hs⟩
        · cases h
      split at h
      · rename_i hs; cases h
        exact ⟨built (by decide) (by decide), "stl", by decide, hpre _ 3 (by decide) hs⟩
      split at h
      · rename_i hs; cases h
        exact ⟨built (by decide) (by decide), "off", by decide, hpre _ 3 (by decide) hs⟩
      split at h
      · rename_i hs; cases h
        exact ⟨built (by decide) (by decide), "dx", by decide, hpre _ 3 (by decide) hs⟩
      · cases h
    · rw [if_neg hl, Res.bind_ub] at h
      cases h
  · intro r h
    unfold importFrom copied at h
    dsimp only at h
    by_cases hl : s.length < 16
    · rw [if_pos hl, Res.bind_ok, Res.pure_eq] at h
      have h := Res.ok.inj h
      unfold importCall at h
      dsimp only at h
      split at h
      · rename_i hs; cases (Prod.mk.inj h).2
        exact ⟨built (by decide) (by decide), "mstk", by decide, hs⟩
      split at h
      · rename_i hs; cases (Prod.mk.inj h).2
        exact ⟨built (by decide) (by decide), "gmv", by decide, hs⟩
      split at h
      · rename_i hs
        have h := (Prod.mk.inj h).2
        split at h
        · rename_i hx; cases h
          exact ⟨fun _ => hx, "exodusii", by decide, hs⟩
        · cases h
      split at h
      · rename_i hs
        have h := (Prod.mk.inj h).2
        split at h
        · rename_i hx; cases h
          exact ⟨fun _ => hx, "nemesisi", by decide, hs⟩
        · cases h
      split at h
      · rename_i hs; cases (Prod.mk.inj h).2
        exact ⟨built (by decide) (by decide), "x3d", by decide, hs⟩
      · cases (Prod.mk.inj h).2
    · rw [if_neg hl, Res.bind_ub] at h
      cases h

/-- The full statement fails: a name with two dots or more after its first character is refused whatever its
extension, to write and to read, among them those in the directory above, in a directory with a dot in its
name and with a dot in the name of the file. -/
theorem C98_negation_dots :
    (∀ (exo : Bool) (full : Nat) (rep : Option Nat) (name : List Char), 2 ≤ name.tail.count '.' →
      exportTo exo name none = .ok .unknown ∧ importFrom exo full rep name none = .ok (rep, .unknown)) ∧
    ∀ name ∈ ["../mesh.mstk", "run.2/mesh.mstk", "mesh.1.mstk"],
      HasExt name.toList "mstk".toList ∧ 2 ≤ name.toList.tail.count '.' := by
  refine ⟨fun exo full rep name h => ⟨?_, ?_⟩, ?_⟩
  · exact export_none (fun e f he hf => (written_plain hf).1 (dots_ext h he))
  · exact import_none (fun e f he hf => (readable_plain hf).1 (dots_ext h he))
  · intro name hm
    simp only [List.mem_cons, List.not_mem_nil, or_false] at hm
    rcases hm with rfl | rfl | rfl
    · exact ⟨⟨"../mesh".toList, by decide, by decide, by decide, by decide⟩, by decide⟩
    · exact ⟨⟨"run.2/mesh".toList, by decide, by decide, by decide, by decide⟩, by decide⟩
    · exact ⟨⟨"mesh.1".toList, by decide, by decide, by decide, by decide⟩, by decide⟩

/-- The tables differ: a file `x3d` is read by its extension and not written by it, one `off` the other way
round; the format `exo` is accepted for writing and refused for reading. -/
theorem C98_negation_one_way (full : Nat) (rep : Option Nat) :
    exportTo true "mesh.x3d".toList none = .ok .unknown ∧
      (∃ r, importFrom true full rep "mesh.x3d".toList none = .ok (r, .calls .x3d)) ∧
      exportTo true "mesh.off".toList none = .ok (.calls .off) ∧
      importFrom true full rep "mesh.off".toList none = .ok (rep, .unknown) ∧
      exportTo true "mesh.exo".toList (some "exo".toList) = .ok (.calls .exodus) ∧
      ∃ r, importFrom true full rep "mesh.exo".toList (some "exo".toList) = .ok (r, .refused) := by
  refine ⟨by decide, ⟨_, rfl⟩, by decide, rfl, by decide, ⟨_, rfl⟩⟩

/-- A format named by sixteen characters or more is copied past the end of the array it is kept in, when
writing and when reading. -/
theorem C98_negation_long (exo : Bool) (full : Nat) (rep : Option Nat) (name s : List Char)
    (h : 16 ≤ s.length) :
    exportTo exo name (some s) = .ub ∧ importFrom exo full rep name (some s) = .ub := by
  have hn : ¬ s.length < 16 := by omega
  constructor
  · simp only [exportTo, copied, if_neg hn, Res.bind_ub]
  · simp only [importFrom, copied, if_neg hn, Res.bind_ub]

example : 16 ≤ "application/mstk".toList.length := by decide

/-- A call that is refused changes the mesh: one without a type of representation has the full one after it;
and a name that is none is taken for the format it begins with, when writing. -/
theorem C98_negation_refused (exo : Bool) (full : Nat) (name : List Char) :
    importFrom exo full none name (some "stl".toList) = .ok (some full, .refused) ∧
      exportTo exo name (some "offline".toList) = .ok (.calls .off) := by
  refine ⟨?_, ?_⟩
  · cases exo <;> rfl
  · cases exo <;> rfl

end MSTK.Fmt
