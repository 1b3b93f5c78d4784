import Verif.NumberLemmas

/-!
Lemmas about the last two steps of graph renumbering (helper lemmas for C64).
-/
namespace MSTK
namespace Num

/-! ### numbering -/

/-- The nodes `ord` have the numbers `0, 1, …` in this order, no other node has one; the nodes `tg` are
tagged. -/
structure Numbered (n : Nat) (ord tg : List Nat) (s : Numb) : Prop where
  maplen : s.map.length = n
  taglen : s.tag.length = n
  nodup : ord.Nodup
  range : ∀ x ∈ ord, x < n
  nnew : s.nnew = ord.length
  map : ∀ x, x < n → s.map.getD x (-1) = if x ∈ ord then (ord.idxOf x : Int) else -1
  tag : ∀ x, x < n → (s.tag.getD x false = true ↔ x ∈ tg)

theorem Numbered.has {n : Nat} {ord tg : List Nat} {s : Numb} (h : Numbered n ord tg s) {x : Nat} (hx : x < n) :
    s.map.getD x (-1) = -1 ↔ x ∉ ord := by
  rw [h.map x hx]
  by_cases hm : x ∈ ord
  · rw [if_pos hm]; exact ⟨fun h => by omega, fun h => absurd hm h⟩
  · rw [if_neg hm]; exact ⟨fun _ => hm, fun _ => rfl⟩

theorem Numbered.add {n : Nat} {ord tg : List Nat} {s : Numb} (h : Numbered n ord tg s) {a : Nat} (ha : a < n)
    (hao : a ∉ ord) (cur : List Nat) :
    Numbered n (ord ++ [a]) tg { s with map := s.map.set a s.nnew, nnew := s.nnew + 1, cur := cur } where
  maplen := by simp [h.maplen]
  taglen := h.taglen
  nodup := by
    rw [List.nodup_append]
    refine ⟨h.nodup, by simp, ?_⟩
    intro x hx y hy
    rw [List.mem_singleton] at hy
    subst hy
    rintro rfl
    exact hao hx
  range := by
    intro x hx
    rcases List.mem_append.1 hx with hx | hx
    · exact h.range x hx
    · rw [List.mem_singleton] at hx; subst hx; exact ha
  nnew := by simp [h.nnew]
  map := by
    intro x hx
    show (s.map.set a s.nnew).getD x (-1) = _
    rw [getD_set (by rw [h.maplen]; exact ha), h.map x hx, h.nnew]
    by_cases hax : a = x
    · subst hax
      rw [if_pos rfl, if_pos (by simp), List.idxOf_append_of_notMem hao]
      simp
    · rw [if_neg hax]
      by_cases hm : x ∈ ord
      · rw [if_pos hm, if_pos (by simp [hm]), List.idxOf_append_of_mem hm]
      · rw [if_neg hm, if_neg (by simp only [List.mem_append, List.mem_singleton, not_or]; exact ⟨hm, fun e => hax e.symm⟩)]
  tag := h.tag

theorem numberNext_ok {n : Nat} {tg : List Nat} : ∀ (o : List Nat) {ord : List Nat} {s : Numb}, Numbered n ord tg s →
    o.Nodup → (∀ a ∈ o, a < n ∧ a ∉ ord) →
    ∃ s', numberNext o s = .ok s' ∧ Numbered n (ord ++ o) tg s' ∧ s'.cur = s.cur := by
  intro o
  induction o with
  | nil => intro ord s h _ _; exact ⟨s, rfl, by rw [List.append_nil]; exact h, rfl⟩
  | cons a o ih =>
    intro ord s h ho ha
    obtain ⟨ha1, ha2⟩ := ha a (by simp)
    have hno := List.nodup_cons.1 ho
    obtain ⟨s', r, h1, h2⟩ := ih (h.add ha1 ha2 s.cur) hno.2 (by
      intro b hb
      obtain ⟨b1, b2⟩ := ha b (by simp [hb])
      refine ⟨b1, ?_⟩
      simp only [List.mem_append, List.mem_singleton, not_or]
      exact ⟨b2, by rintro rfl; exact hno.1 hb⟩)
    refine ⟨s', ?_, by rw [show ord ++ a :: o = ord ++ [a] ++ o by simp]; exact h1, h2⟩
    rw [show numberNext (a :: o) s = (wr s.map a s.nnew >>= fun map =>
      numberNext o { s with map := map, nnew := s.nnew + 1 }) from rfl, wr_ok _ (by rw [h.maplen]; exact ha1), Res.bind_ok]
    exact r

theorem numberSame_ok {n : Nat} {tg : List Nat} : ∀ (o : List Nat) {ord : List Nat} {s : Numb}, Numbered n ord tg s →
    o.Nodup → (∀ a ∈ o, a < n ∧ a ∉ ord) → s.cur.Nodup → (∀ x ∈ s.cur, x ∈ ord) →
    ∃ s', numberSame n o s = .ok s' ∧ Numbered n (ord ++ o) tg s' ∧ s'.cur = s.cur ++ o := by
  intro o
  induction o with
  | nil => intro ord s h _ _ _ _; exact ⟨s, rfl, by rw [List.append_nil]; exact h, by rw [List.append_nil]⟩
  | cons a o ih =>
    intro ord s h ho ha hcn hc
    obtain ⟨ha1, ha2⟩ := ha a (by simp)
    have hno := List.nodup_cons.1 ho
    have hac : a ∉ s.cur := fun hm => ha2 (hc a hm)
    have hlt := length_lt_of_nodup hcn (fun x hx => h.range x (hc x hx)) ha1 hac
    obtain ⟨s', r, h1, h2⟩ := ih (h.add ha1 ha2 (s.cur ++ [a])) hno.2 (by
      intro b hb
      obtain ⟨b1, b2⟩ := ha b (by simp [hb])
      refine ⟨b1, ?_⟩
      simp only [List.mem_append, List.mem_singleton, not_or]
      exact ⟨b2, by rintro rfl; exact hno.1 hb⟩) (by
        show (s.cur ++ [a]).Nodup
        rw [List.nodup_append]
        refine ⟨hcn, by simp, ?_⟩
        intro x hx y hy
        rw [List.mem_singleton] at hy
        subst hy
        rintro rfl
        exact hac hx) (by
        intro x hx
        rcases List.mem_append.1 hx with hx | hx
        · simp [hc x hx]
        · simp [List.mem_singleton.1 hx])
    refine ⟨s', ?_, by rw [show ord ++ a :: o = ord ++ [a] ++ o by simp]; exact h1, by rw [h2]; simp⟩
    rw [show numberSame n (a :: o) s = (wr s.map a s.nnew >>= fun map => if s.cur.length < n then
      numberSame n o { s with map := map, nnew := s.nnew + 1, cur := s.cur ++ [a] } else .ub) from rfl,
      wr_ok _ (by rw [h.maplen]; exact ha1), Res.bind_ok, if_pos hlt]
    exact r

theorem tag_set {tag : List Bool} {n a : Nat} {tg : List Nat} (hl : tag.length = n) (ha : a < n)
    (h : ∀ x, x < n → (tag.getD x false = true ↔ x ∈ tg)) (x : Nat) (hx : x < n) :
    (tag.set a true).getD x false = true ↔ x ∈ tg ++ [a] := by
  rw [getD_set (by rw [hl]; exact ha), List.mem_append, List.mem_singleton]
  by_cases hax : a = x
  · subst hax; rw [if_pos rfl]; exact ⟨fun _ => Or.inr rfl, fun _ => rfl⟩
  · rw [if_neg hax, h x hx]; exact ⟨Or.inl, fun h => h.resolve_right (fun e => hax e.symm)⟩

theorem sameNbrs_ok {n : Nat} {level map : List Int} {lev : Int} (hl : level.length = n) (hm : map.length = n) :
    ∀ (as out : List Nat) {tag : List Bool} {tg : List Nat}, (∀ a ∈ as, a < n) → tag.length = n →
    (∀ x, x < n → (tag.getD x false = true ↔ x ∈ tg)) →
    ∃ o tag', sameNbrs level map lev as out tag = .ok (out ++ o, tag') ∧
      o = as.filter (fun a => decide (level.getD a 0 = lev ∧ map.getD a (-1) = -1)) ∧ tag'.length = n ∧
      ∀ x, x < n → (tag'.getD x false = true ↔ x ∈ tg ++ o) := by
  intro as
  induction as with
  | nil => intro out tag tg _ ht h; exact ⟨[], tag, by rw [List.append_nil]; rfl, rfl, ht, by simpa using h⟩
  | cons a as ih =>
    intro out tag tg ha ht h
    have han := ha a (by simp)
    have e : sameNbrs level map lev (a :: as) out tag = if level.getD a 0 = lev ∧ map.getD a (-1) = -1 then
        sameNbrs level map lev as (out ++ [a]) (tag.set a true) else sameNbrs level map lev as out tag := by
      rw [show sameNbrs level map lev (a :: as) out tag = (rd level a >>= fun l => rd map a >>= fun m =>
        if l = lev ∧ m = -1 then wr tag a true >>= fun tag => sameNbrs level map lev as (out ++ [a]) tag
        else sameNbrs level map lev as out tag) from rfl, rd_getD 0 (by omega), Res.bind_ok, rd_getD (-1) (by omega), Res.bind_ok,
        wr_ok _ (by omega), Res.bind_ok]
    rw [e]
    by_cases hc : level.getD a 0 = lev ∧ map.getD a (-1) = -1
    · rw [if_pos hc]
      obtain ⟨o, tag', r, h1, h2, h3⟩ := ih (out ++ [a]) (fun b hb => ha b (by simp [hb])) (by simp [ht])
        (tag_set ht han h)
      refine ⟨a :: o, tag', by rw [r]; simp, ?_, h2, ?_⟩
      · rw [List.filter_cons, if_pos (decide_eq_true hc), h1]
      · intro x hx
        rw [h3 x hx]
        simp
    · rw [if_neg hc]
      obtain ⟨o, tag', r, h1, h2, h3⟩ := ih out (fun b hb => ha b (by simp [hb])) ht h
      refine ⟨o, tag', r, ?_, h2, h3⟩
      rw [List.filter_cons, if_neg (by simpa using hc), h1]

theorem nextNbrs_ok {n : Nat} {level : List Int} {lev : Int} (hl : level.length = n) :
    ∀ (as out : List Nat) {tag : List Bool} {tg : List Nat}, (∀ a ∈ as, a < n) → tag.length = n →
    (∀ x, x < n → (tag.getD x false = true ↔ x ∈ tg)) →
    ∃ o tag', nextNbrs level lev as out tag = .ok (out ++ o, tag') ∧ o.Nodup ∧
      (∀ a ∈ o, a ∈ as ∧ level.getD a 0 = lev + 1 ∧ a ∉ tg) ∧
      (∀ a ∈ as, level.getD a 0 = lev + 1 → a ∈ tg ++ o) ∧ tag'.length = n ∧
      ∀ x, x < n → (tag'.getD x false = true ↔ x ∈ tg ++ o) := by
  intro as
  induction as with
  | nil => intro out tag tg _ ht h; exact ⟨[], tag, by rw [List.append_nil]; rfl, by simp, by simp, by simp, ht, by simpa using h⟩
  | cons a as ih =>
    intro out tag tg ha ht h
    have han := ha a (by simp)
    have e : nextNbrs level lev (a :: as) out tag = if level.getD a 0 = lev + 1 ∧ tag.getD a false = false then
        nextNbrs level lev as (out ++ [a]) (tag.set a true) else nextNbrs level lev as out tag := by
      rw [show nextNbrs level lev (a :: as) out tag = (rd level a >>= fun l => rd tag a >>= fun t =>
        if l = lev + 1 ∧ t = false then wr tag a true >>= fun tag => nextNbrs level lev as (out ++ [a]) tag
        else nextNbrs level lev as out tag) from rfl, rd_getD 0 (by omega), Res.bind_ok, rd_getD false (by omega), Res.bind_ok,
        wr_ok _ (by omega), Res.bind_ok]
    rw [e]
    by_cases hc : level.getD a 0 = lev + 1 ∧ tag.getD a false = false
    · rw [if_pos hc]
      have hat : a ∉ tg := fun hm => by
        have := (h a han).2 hm
        rw [hc.2] at this; cases this
      obtain ⟨o, tag', r, h1, h2, h3, h4, h5⟩ := ih (out ++ [a]) (fun b hb => ha b (by simp [hb])) (by simp [ht])
        (tag_set ht han h)
      refine ⟨a :: o, tag', by rw [r]; simp, ?_, ?_, ?_, h4, ?_⟩
      · exact List.nodup_cons.2 ⟨fun hm => (h2 a hm).2.2 (by simp), h1⟩
      · intro b hb
        rcases List.mem_cons.1 hb with rfl | hb
        · exact ⟨by simp, hc.1, hat⟩
        · obtain ⟨b1, b2, b3⟩ := h2 b hb
          exact ⟨by simp [b1], b2, fun hm => b3 (by simp [hm])⟩
      · intro b hb hbl
        rcases List.mem_cons.1 hb with rfl | hb
        · simp
        · have := h3 b hb hbl
          simpa using this
      · intro x hx
        rw [h5 x hx]
        simp
    · rw [if_neg hc]
      obtain ⟨o, tag', r, h1, h2, h3, h4, h5⟩ := ih out (fun b hb => ha b (by simp [hb])) ht h
      refine ⟨o, tag', r, h1, ?_, ?_, h4, h5⟩
      · intro b hb
        obtain ⟨b1, b2⟩ := h2 b hb
        exact ⟨by simp [b1], b2⟩
      · intro b hb hbl
        rcases List.mem_cons.1 hb with rfl | hb
        · have : tag.getD b false = true := by
            cases htb : tag.getD b false
            · exact absurd ⟨hbl, htb⟩ hc
            · rfl
          simp [(h b han).1 this]
        · exact h3 b hb hbl

/-- no neighbour is listed twice -/
def Once (rows : List (List Nat)) : Prop := ∀ l ∈ rows, l.Nodup

/-- the state while a level is numbered -/
structure AtLevel (rows : List (List Nat)) (level : List Int) (lev : Int) (ord : List Nat) (s : Numb) : Prop where
  num : Numbered rows.length ord ord s
  nodup : s.cur.Nodup
  sub : ∀ x ∈ s.cur, x ∈ ord
  level : ∀ x ∈ s.cur, level.getD x 0 = lev

theorem AtLevel.tags {rows : List (List Nat)} {s : Numb} {ord o o' : List Nat} (hp : o'.Perm o)
    (h : Numbered rows.length ord ord s) {tag' : List Bool} (ht : tag'.length = rows.length)
    (htag : ∀ x, x < rows.length → (tag'.getD x false = true ↔ x ∈ ord ++ o)) :
    Numbered rows.length ord (ord ++ o') { s with tag := tag' } where
  maplen := h.maplen
  taglen := ht
  nodup := h.nodup
  range := h.range
  nnew := h.nnew
  map := h.map
  tag := by
    intro x hx
    rw [htag x hx, List.mem_append, List.mem_append, hp.mem_iff]

theorem sameLevel_ok {rows : List (List Nat)} (hr : InRange rows) (ho : Once rows) {level : List Int} {lev : Int}
    (hl : level.length = rows.length) : ∀ (fuel i : Nat) {ord : List Nat} {s : Numb}, AtLevel rows level lev ord s →
    rows.length < fuel + i → i ≤ s.cur.length →
    ∃ s' new, sameLevel (ofRows rows) level lev fuel i s = .ok s' ∧ AtLevel rows level lev (ord ++ new) s' ∧
      (∀ x ∈ s.cur, x ∈ s'.cur) ∧ (∀ x ∈ new, x ∈ s'.cur) := by
  intro fuel
  induction fuel with
  | zero =>
    intro i ord s h hf hi
    have := length_le_of_nodup h.nodup (fun x hx => h.num.range x (h.sub x hx))
    omega
  | succ fuel ih =>
    intro i ord s h hf hle
    unfold sameLevel
    cases hi : s.cur[i]? with
    | none => exact ⟨s, [], rfl, by rw [List.append_nil]; exact h, fun _ hx => hx, by simp⟩
    | some node =>
      have hnm := List.mem_of_getElem? hi
      have hno := h.sub node hnm
      have hnn := h.num.range node hno
      obtain ⟨l, hlr⟩ : ∃ l, rows[node]? = some l := ⟨_, List.getElem?_eq_getElem hnn⟩
      have hlm := List.mem_of_getElem? hlr
      obtain ⟨o, tag', r1, h1, h2, h3⟩ := sameNbrs_ok (lev := lev) hl h.num.maplen l [] (hr l hlm) h.num.taglen h.num.tag
      have hom : ∀ a ∈ o, a < rows.length ∧ a ∉ ord ∧ level.getD a 0 = lev := by
        intro a ha
        rw [h1, List.mem_filter] at ha
        have han := hr l hlm a ha.1
        have := of_decide_eq_true ha.2
        exact ⟨han, (h.num.has han).1 this.2, this.1⟩
      have hod : o.Nodup := by rw [h1]; exact (ho l hlm).filter _
      obtain ⟨o', r2, hp⟩ := sortNodes_ok (key := (ofRows rows).nadj.map fun (k : Nat) => (k : Int)) (A := o) (by
        intro a ha
        rw [List.length_map, show (ofRows rows).nadj.length = rows.length from List.length_map _]
        exact (hom a ha).1)
      obtain ⟨s', r3, h4, h5⟩ := numberSame_ok o' (AtLevel.tags hp h.num h2 h3) (hp.nodup_iff.2 hod)
        (fun a ha => ⟨(hom a (hp.mem_iff.1 ha)).1, (hom a (hp.mem_iff.1 ha)).2.1⟩) h.nodup h.sub
      have hcur : s'.cur = s.cur ++ o' := h5
      have hA : AtLevel rows level lev (ord ++ o') s' :=
        { num := h4
          nodup := by
            rw [hcur, List.nodup_append]
            refine ⟨h.nodup, hp.nodup_iff.2 hod, ?_⟩
            rintro x hx y hy rfl
            exact (hom x (hp.mem_iff.1 hy)).2.1 (h.sub x hx)
          sub := by
            intro x hx
            rw [hcur] at hx
            rcases List.mem_append.1 hx with hx | hx
            · simp [h.sub x hx]
            · simp [hx]
          level := by
            intro x hx
            rw [hcur] at hx
            rcases List.mem_append.1 hx with hx | hx
            · exact h.level x hx
            · exact (hom x (hp.mem_iff.1 hx)).2.2 }
      obtain ⟨s'', new, r4, h6, h7, h8⟩ := ih (i+1) hA (by omega) (by
        have := (List.getElem?_eq_some_iff.1 hi).1
        rw [hcur, List.length_append]; omega)
      refine ⟨s'', o' ++ new, ?_, by rw [← List.append_assoc]; exact h6, ?_, ?_⟩
      · dsimp only
        rw [rd_getD (-1) (by rw [h.num.maplen]; exact hnn), Res.bind_ok,
          if_neg (fun e => (h.num.has hnn).1 e hno), nbrs_ok hlr, Res.bind_ok, r1, Res.bind_ok, List.nil_append, r2, Res.bind_ok,
          show (ofRows rows).n = rows.length from rfl, r3, Res.bind_ok, r4]
      · intro x hx; exact h7 x (by rw [hcur]; simp [hx])
      · intro x hx
        rcases List.mem_append.1 hx with hx | hx
        · exact h7 x (by rw [hcur]; simp [hx])
        · exact h8 x hx

theorem nextLevel_ok {rows : List (List Nat)} (hr : InRange rows) {level : List Int} {lev : Int}
    (hl : level.length = rows.length) : ∀ (xs : List Nat) {ord : List Nat} {s : Numb}, Numbered rows.length ord ord s →
    (∀ x ∈ xs, x < rows.length) →
    ∃ s' new, nextLevel (ofRows rows) level lev xs s = .ok s' ∧ Numbered rows.length (ord ++ new) (ord ++ new) s' ∧
      ∀ x ∈ xs, ∀ y, Nbr rows x y → level.getD y 0 = lev + 1 → y ∈ ord ++ new := by
  intro xs
  induction xs with
  | nil => intro ord s h _; exact ⟨s, [], rfl, by rw [List.append_nil]; exact h, by simp⟩
  | cons node rest ih =>
    intro ord s h hx
    have hnn := hx node (by simp)
    obtain ⟨l, hlr⟩ : ∃ l, rows[node]? = some l := ⟨_, List.getElem?_eq_getElem hnn⟩
    have hlm := List.mem_of_getElem? hlr
    obtain ⟨o, tag', r1, h1, h2, h3, h4, h5⟩ := nextNbrs_ok (lev := lev) hl l [] (hr l hlm) h.taglen h.tag
    obtain ⟨o', r2, hp⟩ := sortNodes_ok (key := (ofRows rows).nadj.map fun (k : Nat) => (k : Int)) (A := o) (by
      intro a ha
      rw [List.length_map, show (ofRows rows).nadj.length = rows.length from List.length_map _]
      exact hr l hlm a (h2 a ha).1)
    obtain ⟨s', r3, h6, -⟩ := numberNext_ok o' (AtLevel.tags hp h h4 h5) (hp.nodup_iff.2 h1)
      (fun a ha => ⟨hr l hlm a (h2 a (hp.mem_iff.1 ha)).1, (h2 a (hp.mem_iff.1 ha)).2.2⟩)
    obtain ⟨s'', new, r4, h7, h8⟩ := ih h6 (fun x hxr => hx x (by simp [hxr]))
    refine ⟨s'', o' ++ new, ?_, by rw [← List.append_assoc]; exact h7, ?_⟩
    · rw [show nextLevel (ofRows rows) level lev (node :: rest) s = ((ofRows rows).nbrs node >>= fun l =>
        nextNbrs level lev l [] s.tag >>= fun p => sortNodes ((ofRows rows).nadj.map fun (k : Nat) => (k : Int)) p.1 >>= fun o =>
        numberNext o { s with tag := p.2 } >>= fun s => nextLevel (ofRows rows) level lev rest s) from rfl,
        nbrs_ok hlr, Res.bind_ok, r1, Res.bind_ok, List.nil_append, r2, Res.bind_ok, r3, Res.bind_ok, r4]
    · intro x hxm y hy hyl
      rw [← List.append_assoc]
      rcases List.mem_cons.1 hxm with rfl | hxm
      · obtain ⟨l', e, hyl'⟩ := hy
        rw [hlr] at e
        cases e
        have := h3 y hyl' hyl
        rw [List.mem_append, List.mem_append, hp.mem_iff, ← List.mem_append]
        exact Or.inl this
      · exact h8 x hxm y hy hyl

theorem numbered_ok {n : Nat} {level map : List Int} {lev : Int} (hl : level.length = n) (hm : map.length = n) :
    ∀ (k i : Nat), i + k = n → ∃ c, numbered level map lev k i = .ok c ∧ c.Nodup ∧
      ∀ x, x ∈ c ↔ i ≤ x ∧ x < n ∧ level.getD x 0 = lev ∧ map.getD x (-1) ≠ -1 := by
  intro k
  induction k with
  | zero => intro i hi; exact ⟨[], rfl, by simp, fun x => ⟨fun h => by simp at h, fun h => by omega⟩⟩
  | succ k ih =>
    intro i hi
    obtain ⟨c, r, h1, h2⟩ := ih (i+1) (by omega)
    refine ⟨if level.getD i 0 = lev ∧ map.getD i (-1) ≠ -1 then i :: c else c, ?_, ?_, ?_⟩
    · rw [show numbered level map lev (k+1) i = (rd level i >>= fun l => rd map i >>= fun m =>
        numbered level map lev k (i+1) >>= fun r => pure (if l = lev ∧ m ≠ -1 then i :: r else r)) from rfl,
        rd_getD 0 (by omega), Res.bind_ok, rd_getD (-1) (by omega), Res.bind_ok, r, Res.bind_ok]
      rfl
    · split
      · refine List.nodup_cons.2 ⟨fun h => ?_, h1⟩
        have := ((h2 i).1 h).1
        omega
      · exact h1
    · intro x
      by_cases hxi : x = i
      · subst hxi
        split
        · rename_i hc
          exact ⟨fun _ => ⟨Nat.le_refl _, by omega, hc⟩, fun _ => by simp⟩
        · rename_i hc
          rw [h2]
          exact ⟨fun h => by omega, fun h => absurd h.2.2 hc⟩
      · have e : (x ∈ if level.getD i 0 = lev ∧ map.getD i (-1) ≠ -1 then i :: c else c) ↔ x ∈ c := by
          split
          · rw [List.mem_cons]; exact ⟨fun h => h.resolve_left hxi, Or.inr⟩
          · exact Iff.rfl
        rw [e, h2]
        exact ⟨fun h => ⟨by omega, h.2⟩, fun h => ⟨by omega, h.2⟩⟩

/-- The levels are as after a traversal: a node above level 1 has a neighbour one level lower. -/
def Supported (rows : List (List Nat)) (level : List Int) : Prop :=
  ∀ x, x < rows.length → 1 < level.getD x 0 → ∃ y, y < rows.length ∧ Nbr rows y x ∧ level.getD y 0 + 1 = level.getD x 0

theorem marchLevels_ok {rows : List (List Nat)} (hr : InRange rows) (ho : Once rows) {level : List Int}
    (hl : level.length = rows.length) : ∀ (k : Nat) (lev : Int) {ord : List Nat} {s : Numb},
    Numbered rows.length ord ord s → ∃ s' new, marchLevels (ofRows rows) level k lev s = .ok s' ∧
      Numbered rows.length (ord ++ new) (ord ++ new) s' ∧
      (Supported rows level → 1 ≤ lev → (∀ x, x < rows.length → level.getD x 0 ≤ lev → x ∈ ord) →
        ∀ x, x < rows.length → level.getD x 0 ≤ lev + k → x ∈ ord ++ new) := by
  intro k
  induction k with
  | zero =>
    intro lev ord s h
    exact ⟨s, [], rfl, by rw [List.append_nil]; exact h, fun _ _ h0 x hx hxl => by
      rw [List.append_nil]; exact h0 x hx (by simpa using hxl)⟩
  | succ k ih =>
    intro lev ord s h
    obtain ⟨c, r1, c1, c2⟩ := numbered_ok (lev := lev) hl h.maplen rows.length 0 (by omega)
    obtain ⟨c', r2, hp⟩ := sortNodes_ok (key := s.map) (A := c) (fun a ha => by rw [h.maplen]; exact ((c2 a).1 ha).2.1)
    have hmem : ∀ x, x ∈ c' ↔ x < rows.length ∧ level.getD x 0 = lev ∧ x ∈ ord := by
      intro x
      rw [hp.mem_iff, c2]
      constructor
      · rintro ⟨-, h1, h2, h3⟩
        exact ⟨h1, h2, Classical.byContradiction fun hn => h3 ((h.has h1).2 hn)⟩
      · rintro ⟨h1, h2, h3⟩
        exact ⟨Nat.zero_le _, h1, h2, fun e => (h.has h1).1 e h3⟩
    obtain ⟨s1, n1, r3, h1, h2, -⟩ := sameLevel_ok hr ho hl (rows.length+1) 0 (ord := ord) (s := { s with cur := c' })
      (lev := lev)
      { num := ⟨h.maplen, h.taglen, h.nodup, h.range, h.nnew, h.map, h.tag⟩
        nodup := hp.nodup_iff.2 c1
        sub := fun x hx => ((hmem x).1 hx).2.2
        level := fun x hx => ((hmem x).1 hx).2.1 } (by omega) (Nat.zero_le _)
    obtain ⟨s2, n2, r4, h3, h4⟩ := nextLevel_ok hr (lev := lev) hl s1.cur h1.num (fun x hx => h1.num.range x (h1.sub x hx))
    obtain ⟨s3, n3, r5, h5, h6⟩ := ih (lev + 1) h3
    refine ⟨s3, n1 ++ n2 ++ n3, ?_, by simpa using h5, ?_⟩
    · rw [show marchLevels (ofRows rows) level (k+1) lev s = (numbered level s.map lev rows.length 0 >>= fun c =>
        sortNodes s.map c >>= fun c => sameLevel (ofRows rows) level lev (rows.length+1) 0 { s with cur := c } >>= fun s =>
        nextLevel (ofRows rows) level lev s.cur s >>= fun s => marchLevels (ofRows rows) level k (lev+1) s) from rfl,
        r1, Res.bind_ok, r2, Res.bind_ok, r3, Res.bind_ok, r4, Res.bind_ok, r5]
    · intro hs hlev h0 x hx hxl
      have := h6 hs (by omega) (by
        intro x hx hxl
        by_cases hxe : level.getD x 0 = lev + 1
        · obtain ⟨y, hy, hn, hyl⟩ := hs x hx (by omega)
          exact h4 y (h2 y ((hmem y).2 ⟨hy, by omega, h0 y hy (by omega)⟩)) x hn hxe
        · have := h0 x hx (by omega)
          simp [this]) x hx (by push_cast at hxl; omega)
      simpa using this

theorem maxOf_spec : ∀ (w : List Int) (a : Int), a ≤ w.foldl max a ∧ (∀ x ∈ w, x ≤ w.foldl max a) ∧
    (w.foldl max a = a ∨ w.foldl max a ∈ w) := by
  intro w
  induction w with
  | nil => intro a; exact ⟨Int.le_refl _, by simp, Or.inl rfl⟩
  | cons b w ih =>
    intro a
    obtain ⟨h1, h2, h3⟩ := ih (max a b)
    rw [List.foldl_cons]
    refine ⟨by omega, ?_, ?_⟩
    · intro x hx
      rcases List.mem_cons.1 hx with rfl | hx
      · omega
      · exact h2 x hx
    · rcases h3 with h3 | h3
      · rw [h3]
        by_cases hab : b ≤ a
        · left; omega
        · right; rw [show max a b = b by omega]; simp
      · right; simp [h3]

theorem numbered_start {n beg : Nat} (hb : beg < n) :
    Numbered n [beg] [beg] ⟨(List.replicate n (-1)).set beg 0, (List.replicate n false).set beg true, 1, []⟩ where
  maplen := by simp
  taglen := by simp
  nodup := by simp
  range := by simpa using hb
  nnew := rfl
  map := by
    intro x hx
    show ((List.replicate n (-1:Int)).set beg 0).getD x (-1) = _
    rw [getD_set (by simpa using hb)]
    by_cases h : beg = x
    · subst h; simp
    · rw [if_neg h, if_neg (by simp only [List.mem_singleton]; exact fun e => h e.symm)]
      simp [List.getD_eq_getElem?_getD, hx]
  tag := by
    intro x hx
    show ((List.replicate n false).set beg true).getD x false = true ↔ _
    rw [getD_set (by simpa using hb)]
    by_cases h : beg = x
    · subst h; simp
    · rw [if_neg h]
      simp only [List.mem_singleton]
      simp [List.getD_eq_getElem?_getD, hx]
      exact fun e => h e.symm

/-- `level` counted from the other end -/
def flipLevel (level : List Int) : List Int := level.map fun l => maxOf level - l + 1

theorem assignNumbers_ok {rows : List (List Nat)} (hr : InRange rows) (ho : Once rows) {level : List Int}
    (hl : level.length = rows.length) {beg e : Nat} (hb : beg < rows.length) (he : e < rows.length) :
    ∃ (map : List Int) (ord : List Nat), assignNumbers (ofRows rows) beg e level = .ok map ∧ map.length = rows.length ∧ ord.Nodup ∧
      (∀ x ∈ ord, x < rows.length) ∧
      (∀ x, x < rows.length → map.getD x (-1) = if x ∈ ord then (ord.idxOf x : Int) else -1) ∧
      ((∀ x, x < rows.length → 1 ≤ level.getD x 0) → Supported rows level → Supported rows (flipLevel level) →
        (∀ x, x < rows.length → level.getD x 0 = 1 → x = beg) →
        (∀ x, x < rows.length → level.getD x 0 = maxOf level → x = e) → ∀ x, x < rows.length → x ∈ ord) := by
  have hn : (ofRows rows).nadj.length = rows.length := List.length_map _
  have hmax : ∀ x, x < rows.length → level.getD x 0 ≤ maxOf level := by
    intro x hx
    rw [List.getD_eq_getElem?_getD, List.getElem?_eq_getElem (by omega), Option.getD_some]
    exact (maxOf_spec level 0).2.1 _ (List.getElem_mem _)
  have hflip : ∀ x, x < rows.length → (flipLevel level).getD x 0 = maxOf level - level.getD x 0 + 1 := by
    intro x hx
    rw [List.getD_eq_getElem?_getD, List.getD_eq_getElem?_getD, flipLevel, List.getElem?_map, List.getElem?_eq_getElem (by omega)]
    rfl
  have main : ∀ (b : Nat) (lv : List Int), b < rows.length → lv.length = rows.length → ∃ s' new,
      marchLevels (ofRows rows) lv (maxOf level).toNat 1 ⟨(List.replicate rows.length (-1)).set b 0,
        (List.replicate rows.length false).set b true, 1, []⟩ = .ok s' ∧
      Numbered rows.length ([b] ++ new) ([b] ++ new) s' ∧
      (Supported rows lv → (∀ x, x < rows.length → lv.getD x 0 ≤ maxOf level) →
        (∀ x, x < rows.length → lv.getD x 0 ≤ 1 → x = b) → ∀ x, x < rows.length → x ∈ [b] ++ new) := by
    intro b lv hb hlv
    obtain ⟨s', new, r, h1, h2⟩ := marchLevels_ok hr ho hlv (maxOf level).toNat 1 (numbered_start hb)
    refine ⟨s', new, r, h1, fun hs hm h0 x hx => h2 hs (Int.le_refl _) (fun x hx hxl => by simp [h0 x hx hxl]) x hx ?_⟩
    have := hm x hx
    omega
  have e0 : ∀ b lv, (if (ofRows rows).nadj.getD e 0 < (ofRows rows).nadj.getD beg 0 then
        (e, level.map fun l => maxOf level - l + 1) else (beg, level)) = (b, lv) → b < rows.length →
      assignNumbers (ofRows rows) beg e level = (marchLevels (ofRows rows) lv (maxOf level).toNat 1
        ⟨(List.replicate rows.length (-1)).set b 0, (List.replicate rows.length false).set b true, 1, []⟩ >>= fun s =>
        pure s.map) := by
    intro b lv h hb'
    rw [show assignNumbers (ofRows rows) beg e level = (rd (ofRows rows).nadj e >>= fun de => rd (ofRows rows).nadj beg >>= fun db =>
      wr (List.replicate rows.length (-1)) (if de < db then (e, level.map fun l => maxOf level - l + 1) else (beg, level)).1 0 >>= fun map =>
      wr (List.replicate rows.length false) (if de < db then (e, level.map fun l => maxOf level - l + 1) else (beg, level)).1 true >>= fun tag =>
      marchLevels (ofRows rows) (if de < db then (e, level.map fun l => maxOf level - l + 1) else (beg, level)).2 (maxOf level).toNat 1
        ⟨map, tag, 1, []⟩ >>= fun s => pure s.map) from rfl, rd_getD 0 (by omega), Res.bind_ok, rd_getD 0 (by omega), Res.bind_ok, h,
      wr_ok _ (by simpa using hb'), Res.bind_ok, wr_ok _ (by simpa using hb'), Res.bind_ok]
  by_cases hc : (ofRows rows).nadj.getD e 0 < (ofRows rows).nadj.getD beg 0
  · obtain ⟨s', new, r, h1, h2⟩ := main e (flipLevel level) he (by simp [flipLevel, hl])
    refine ⟨s'.map, [e] ++ new, ?_, h1.maplen, h1.nodup, h1.range, h1.map, ?_⟩
    · rw [e0 e (flipLevel level) (by rw [if_pos hc]; rfl) he, r, Res.bind_ok]; rfl
    · intro hp _ hs _ hend
      refine h2 hs (fun x hx => ?_) (fun x hx hxl => ?_)
      · rw [hflip x hx]; have := hp x hx; omega
      · rw [hflip x hx] at hxl
        have := hmax x hx
        exact hend x hx (by omega)
  · obtain ⟨s', new, r, h1, h2⟩ := main beg level hb hl
    refine ⟨s'.map, [beg] ++ new, ?_, h1.maplen, h1.nodup, h1.range, h1.map, ?_⟩
    · rw [e0 beg level (by rw [if_neg hc]) hb, r, Res.bind_ok]; rfl
    · intro hp hs _ hbeg _
      refine h2 hs hmax (fun x hx hxl => hbeg x hx (by have := hp x hx; omega))

end Num
end MSTK
