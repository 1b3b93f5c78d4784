import Verif.Props.R4Edges
import Verif.Props.R1Merge
import Verif.R4MergeModel
/-!
C100: merging two faces of a mesh with the representation `R4`.
-/
namespace MSTK.R4M

open R1M (deref deref_live SetsMerged sets_ok)

/-! ### Specification -/

/-- the faces of a region with `f1` in place of `f2`, used in the same direction -/
def inPlace (f1 f2 : Nat) (fds : List (Nat × Bool)) : List (Nat × Bool) :=
  fds.map fun p => if p.1 = f2 then (f1, p.2) else p

/-- What the caller knows after two faces were merged: the regions that are there have the first in place of
the second, which is deleted. -/
def Known.merged (k : Known) (f1 f2 : Nat) : Known :=
  { k with
    faces := fun r => if k.alive r = true then (k.faces r).map (inPlace f1 f2) else k.faces r
    falive := upd k.falive f2 false
    back := upd k.back f2 false }

/-- No region has both faces, and no two regions use them in the same direction. -/
def Known.Apart (k : Known) (f1 f2 : Nat) : Prop :=
  (∀ r d d', k.alive r = true → k.Uses r f2 d → ¬ k.Uses r f1 d') ∧
  ∀ r r' d, k.alive r = true → k.alive r' = true → k.Uses r f2 d → ¬ k.Uses r' f1 d

/-! ### Proofs -/

theorem mem_inPlace {f1 f2 f : Nat} {b : Bool} {fds : List (Nat × Bool)} :
    (f, b) ∈ inPlace f1 f2 fds ↔ (f ≠ f2 ∧ (f, b) ∈ fds) ∨ (f = f1 ∧ (f2, b) ∈ fds) := by
  unfold inPlace
  rw [List.mem_map]
  constructor
  · rintro ⟨⟨g, c⟩, hm, hg⟩
    by_cases hc : g = f2
    · subst hc
      simp only [if_true, Prod.mk.injEq] at hg
      obtain ⟨rfl, rfl⟩ := hg
      exact Or.inr ⟨rfl, hm⟩
    · simp only [if_neg hc, Prod.mk.injEq] at hg
      obtain ⟨rfl, rfl⟩ := hg
      exact Or.inl ⟨hc, hm⟩
  · rintro (⟨hne, hm⟩ | ⟨rfl, hm⟩)
    · exact ⟨(f, b), hm, by simp [hne]⟩
    · exact ⟨(f2, b), hm, by simp⟩

theorem inPlace_absent {f1 f2 : Nat} {fds : List (Nat × Bool)} (h : ∀ d, (f2, d) ∉ fds) :
    inPlace f1 f2 fds = fds := by
  unfold inPlace
  conv => rhs; rw [← List.map_id fds]
  apply List.map_congr_left
  rintro ⟨g, c⟩ hm
  by_cases hc : g = f2
  · subst hc; exact absurd hm (h c)
  · simp [hc]

theorem setAt_ok {f1 f2 : Nat} {d : Bool} : ∀ {fds : List (Nat × Bool)}, (fds.map (·.1)).Nodup →
    (f2, d) ∈ fds → setAt f1 f2 d fds = inPlace f1 f2 fds
  | [], _, h => absurd h List.not_mem_nil
  | (g, c) :: fds, hn, h => by
    rw [List.map_cons, List.nodup_cons] at hn
    unfold setAt
    by_cases hc : f2 = g
    · subst hc
      have hcd : c = d := by
        rcases List.mem_cons.1 h with h | h
        · exact ((Prod.ext_iff.1 h).2).symm
        · exact absurd (List.mem_map.2 ⟨_, h, rfl⟩) hn.1
      have hr : inPlace f1 f2 fds = fds :=
        inPlace_absent fun b hb => hn.1 (List.mem_map.2 ⟨_, hb, rfl⟩)
      rw [if_pos rfl]
      show _ = (if f2 = f2 then (f1, c) else (f2, c)) :: inPlace f1 f2 fds
      rw [if_pos rfl, hr, hcd]
    · have h' : (f2, d) ∈ fds := by
        rcases List.mem_cons.1 h with h | h
        · exact absurd (Prod.ext_iff.1 h).1 hc
        · exact h
      rw [if_neg hc, setAt_ok hn.2 h']
      show _ = (if g = f2 then (f1, c) else (g, c)) :: inPlace f1 f2 fds
      rw [if_neg (fun hx => hc hx.symm)]

theorem inPlace_nodup {f1 f2 : Nat} {fds : List (Nat × Bool)} (hn : (fds.map (·.1)).Nodup)
    (h1 : ∀ d, (f1, d) ∉ fds) : ((inPlace f1 f2 fds).map (·.1)).Nodup := by
  have : (inPlace f1 f2 fds).map (·.1) = (fds.map (·.1)).map fun g => if g = f2 then f1 else g := by
    unfold inPlace
    rw [List.map_map, List.map_map]
    apply List.map_congr_left
    rintro ⟨g, c⟩ _
    show (if g = f2 then (f1, c) else (g, c)).1 = if g = f2 then f1 else g
    split <;> rfl
  rw [this]
  have hf1 : f1 ∉ fds.map (·.1) := by
    intro hm
    obtain ⟨⟨g, c⟩, hp, rfl⟩ := List.mem_map.1 hm
    exact h1 c hp
  refine List.Nodup.map_on ?_ hn
  intro x hx y hy hxy
  have hx1 : x ≠ f1 := by rintro rfl; exact hf1 hx
  have hy1 : y ≠ f1 := by rintro rfl; exact hf1 hy
  split at hxy <;> split at hxy
  · rename_i a b; rw [a, b]
  · exact absurd hxy.symm hy1
  · exact absurd hxy hx1
  · exact hxy

theorem tell_eq {r : Nat} {d : Bool} {s : Bool → Option Nat} (h : ∀ b, s b ≠ some r) (b : Bool) :
    tell r d s b = if b = !d then some r else s b := by
  unfold tell
  rw [if_neg (show ¬ (s false = some r ∨ s true = some r) from fun hc => hc.elim (h false) (h true))]

variable {M : Mesh4} {k : Known} {f1 f2 : Nat}

/-- one region with `f1` in place of `f2` -/
def Known.replaced (k : Known) (f1 f2 r : Nat) : Known :=
  { k with faces := upd k.faces r ((k.faces r).map (inPlace f1 f2)) }

theorem replaceOne_inv (h : Inv M k) (hne : f1 ≠ f2) (hv1 : k.fverts f1 ≠ none) (hv2 : k.fverts f2 ≠ none)
    {r : Nat} {d : Bool} (ha : k.alive r = true) (hu : k.Uses r f2 d) (hno : ∀ d', ¬ k.Uses r f1 d')
    (hfree : ∀ x, k.alive x = true → ¬ k.Uses x f1 d) :
    ∃ M', replaceOne M r f1 f2 d = .ok M' ∧ Inv M' (k.replaced f1 f2 r) := by
  have hr := h.inRegs ha
  obtain ⟨fds, hfds⟩ : ∃ fds, k.faces r = some fds := by
    cases hf : k.faces r with
    | none => unfold Known.Uses at hu; rw [hf] at hu; cases hu
    | some fds => exact ⟨fds, rfl⟩
  obtain ⟨hnd, hfv⟩ := h.shape r fds hfds
  have hu' : (f2, d) ∈ fds := by unfold Known.Uses at hu; rw [hfds] at hu; exact hu
  have hno' : ∀ d', (f1, d') ∉ fds := by
    intro d' hm
    exact hno d' (by unfold Known.Uses; rw [hfds]; exact hm)
  obtain ⟨hs1, hs2⟩ := h.sides ha (p := (f2, d)) (by rw [hfds]; exact hu')
  simp only at hs1 hs2
  have hset := setAt_ok (f1 := f1) hnd hu'
  have hsh : ∀ p ∈ inPlace f1 f2 fds, k.fverts p.1 ≠ none := by
    rintro ⟨g, c⟩ hp
    rcases mem_inPlace.1 hp with ⟨_, hp⟩ | ⟨hg, _⟩
    · exact hfv _ hp
    · rw [hg]; exact hv1
  have hty : typeFrom M ((inPlace f1 f2 fds).map (·.1)) =
      .ok (kind ((inPlace f1 f2 fds).map fun p => ((k.fverts p.1).getD []).length)) := by
    rw [typeFrom_ok h (by
      intro f hfm
      obtain ⟨p, hp, rfl⟩ := List.mem_map.1 hfm
      exact hsh p hp), List.map_map]
    rfl
  have hr1 : ∀ b, M.fr f1 b ≠ some r := by
    intro b hb
    exact hno _ ((h.fr f1 b r).1 hb).2
  have hone : ∀ b, (f2, b) ∈ fds → b = d := by
    intro b hb
    exact (Prod.ext_iff.1 (List.inj_on_of_nodup_map hnd hb hu' rfl)).2
  refine ⟨{ M with fr := upd (upd M.fr f1 (tell r d (M.fr f1))) f2 (without r (M.fr f2)), rf := upd M.rf r (some (inPlace f1 f2 fds)), rt := upd M.rt r (kind ((inPlace f1 f2 fds).map fun p => ((k.fverts p.1).getD []).length)) },
    ?_, h.sv, h.sf, h.sr, h.noface, h.fdead, h.backed, ?_, h.goner, h.fv, ?_, ?_, h.fhas, h.vf, h.nodup, ?_, ?_⟩
  · unfold replaceOne
    rw [h.there hr (h.notGone ha), Res.bind_ok, h.rf, hfds, Res.ofOption_some, Res.bind_ok,
      h.fthere (h.hasFace hv1), Res.bind_ok]
    simp only
    rw [h.fthere (h.hasFace hv2), Res.bind_ok, hset, hty, Res.bind_ok, upd_ne _ _ hne.symm]
    rfl
  · intro x hx
    have hxr : x ≠ r := by rintro rfl; exact hx hr
    obtain ⟨a, b, c⟩ := h.noreg x hx
    refine ⟨a, ?_, c⟩
    show upd k.faces r _ x = none
    rw [upd_ne _ _ hxr]; exact b
  · intro x
    show upd M.rf r _ x = upd k.faces r _ x
    rw [R1M.upd_apply', R1M.upd_apply', h.rf, hfds]; rfl
  · intro x gs hx
    have hx : upd k.faces r ((k.faces r).map (inPlace f1 f2)) x = some gs := hx
    by_cases hxr : x = r
    · subst hxr; rw [upd_same, hfds] at hx; cases hx
      exact ⟨inPlace_nodup hnd hno', hsh⟩
    · rw [upd_ne _ _ hxr] at hx; exact h.shape x gs hx
  · intro f s x
    show upd (upd M.fr f1 _) f2 _ f s = some x ↔
      k.alive x = true ∧ (f, !s) ∈ (upd k.faces r ((k.faces r).map (inPlace f1 f2)) x).getD []
    have hnew : x ≠ r → ((k.alive x = true ∧
        (f, !s) ∈ (upd k.faces r ((k.faces r).map (inPlace f1 f2)) x).getD []) ↔ M.fr f s = some x) := by
      intro hxr
      rw [upd_ne _ _ hxr, h.fr]; rfl
    have hsame : (upd k.faces r ((k.faces r).map (inPlace f1 f2)) r).getD [] = inPlace f1 f2 fds := by
      rw [upd_same, hfds]; rfl
    by_cases hf2 : f = f2
    · subst hf2
      rw [upd_same, without_eq hs1 hs2]
      by_cases hxr : x = r
      · subst hxr
        rw [hsame, mem_inPlace]
        constructor
        · intro hc
          split at hc
          · cases hc
          · rename_i hsd
            have : s = d := by cases s <;> cases d <;> simp_all
            rw [this] at hc; exact absurd hc hs2
        · rintro ⟨_, ⟨hc, _⟩ | ⟨hc, _⟩⟩
          · exact absurd rfl hc
          · exact absurd hc.symm hne
      · rw [hnew hxr]
        split
        · rename_i hsd
          rw [hsd, hs1]
          constructor
          · intro hc; cases hc
          · intro hc; exact absurd (Option.some.inj hc).symm hxr
        · rfl
    · rw [upd_ne _ _ hf2]
      by_cases hf1 : f = f1
      · subst hf1
        rw [upd_same, tell_eq hr1]
        by_cases hxr : x = r
        · subst hxr
          rw [hsame, mem_inPlace]
          constructor
          · intro hc
            split at hc
            · rename_i hsd
              refine ⟨ha, Or.inr ⟨rfl, ?_⟩⟩
              rw [hsd, Bool.not_not]; exact hu'
            · exact absurd hc (hr1 s)
          · rintro ⟨_, ⟨_, hc⟩ | ⟨_, hc⟩⟩
            · exact absurd hc (hno' _)
            · have := hone _ hc
              rw [if_pos (by rw [← this, Bool.not_not])]
        · rw [hnew hxr]
          split
          · rename_i hsd
            constructor
            · intro hc; exact absurd (Option.some.inj hc).symm hxr
            · intro hc
              obtain ⟨hxa, hxu⟩ := (h.fr _ _ _).1 hc
              rw [hsd, Bool.not_not] at hxu
              exact absurd hxu (hfree x hxa)
          · rfl
      · rw [upd_ne _ _ hf1]
        by_cases hxr : x = r
        · subst hxr
          rw [hsame, mem_inPlace, h.fr]
          unfold Known.Uses
          rw [hfds]
          constructor
          · rintro ⟨hxa, hm⟩; exact ⟨hxa, Or.inl ⟨hf2, hm⟩⟩
          · rintro ⟨hxa, ⟨_, hm⟩ | ⟨hc, _⟩⟩
            · exact ⟨hxa, hm⟩
            · exact absurd hc hf1
        · rw [hnew hxr]
  · intro x gs hx
    have hx : upd k.faces r ((k.faces r).map (inPlace f1 f2)) x = some gs := hx
    by_cases hxr : x = r
    · subst hxr; rw [upd_same, hfds] at hx; cases hx
      exact upd_same ..
    · rw [upd_ne _ _ hxr] at hx
      show upd M.rt r _ x = _
      rw [upd_ne _ _ hxr]; exact h.rt x gs hx

/-- some regions with `f1` in place of `f2` -/
def Known.replacedIn (k : Known) (f1 f2 : Nat) (rs : List Nat) : Known :=
  { k with faces := fun x => if x ∈ rs then (k.faces x).map (inPlace f1 f2) else k.faces x }

theorem uses_replaced {r x f : Nat} {b : Bool} : (k.replaced f1 f2 r).Uses x f b ↔
    if x = r then (f ≠ f2 ∧ k.Uses r f b) ∨ (f = f1 ∧ k.Uses r f2 b) else k.Uses x f b := by
  unfold Known.Uses Known.replaced
  simp only
  by_cases hx : x = r
  · subst hx
    rw [if_pos rfl, upd_same]
    cases k.faces x with
    | none => simp
    | some fds => exact mem_inPlace
  · rw [if_neg hx, upd_ne _ _ hx]

theorem replaceAll_inv (hne : f1 ≠ f2) : ∀ (rs : List Nat) (M : Mesh4) (k : Known), Inv M k →
    k.fverts f1 ≠ none → k.fverts f2 ≠ none → k.Apart f1 f2 → rs.Nodup →
    (∀ r ∈ rs, k.alive r = true ∧ ∃ d, k.Uses r f2 d) →
    ∃ M', replaceAll f1 f2 rs M = .ok M' ∧ Inv M' (k.replacedIn f1 f2 rs) := by
  intro rs
  induction rs with
  | nil =>
    intro M k h _ _ _ _ _
    refine ⟨M, rfl, ?_⟩
    have : k.replacedIn f1 f2 [] = k := by
      unfold Known.replacedIn
      simp
    rw [this]; exact h
  | cons r rs ih =>
    intro M k h hv1 hv2 hap hn hall
    obtain ⟨hnr, hn'⟩ := List.nodup_cons.1 hn
    obtain ⟨ha, d, hu⟩ := hall r (List.mem_cons_self ..)
    obtain ⟨M1, h1, hI1⟩ := replaceOne_inv h hne hv1 hv2 ha hu (fun d' => hap.1 r d d' ha hu)
      (fun x hx => hap.2 r x d ha hx hu)
    have hap1 : (k.replaced f1 f2 r).Apart f1 f2 := by
      constructor
      · intro x b c hx hxu hxc
        rw [uses_replaced] at hxu hxc
        by_cases hxr : x = r
        · rw [if_pos hxr] at hxu
          rcases hxu with ⟨hc, _⟩ | ⟨hc, _⟩
          · exact hc rfl
          · exact hne hc.symm
        · rw [if_neg hxr] at hxu hxc
          exact hap.1 x b c hx hxu hxc
      · intro x y b hx hy hxu hyu
        rw [uses_replaced] at hxu hyu
        by_cases hxr : x = r
        · rw [if_pos hxr] at hxu
          rcases hxu with ⟨hc, _⟩ | ⟨hc, _⟩
          · exact hc rfl
          · exact hne hc.symm
        · rw [if_neg hxr] at hxu
          by_cases hyr : y = r
          · rw [if_pos hyr] at hyu
            rcases hyu with ⟨_, hc⟩ | ⟨_, hc⟩
            · exact hap.2 x r b hx ha hxu hc
            · have e1 := (h.fr f2 (!b) x).2 ⟨hx, by rw [Bool.not_not]; exact hxu⟩
              have e2 := (h.fr f2 (!b) r).2 ⟨ha, by rw [Bool.not_not]; exact hc⟩
              rw [e1] at e2
              exact hxr (Option.some.inj e2)
          · rw [if_neg hyr] at hyu
            exact hap.2 x y b hx hy hxu hyu
    obtain ⟨M', h2, hI2⟩ := ih M1 (k.replaced f1 f2 r) hI1 hv1 hv2 hap1 hn' (by
      intro x hx
      obtain ⟨hxa, b, hxu⟩ := hall x (List.mem_cons_of_mem _ hx)
      refine ⟨hxa, b, ?_⟩
      rw [uses_replaced, if_neg (by rintro rfl; exact hnr hx)]
      exact hxu)
    refine ⟨M', ?_, ?_⟩
    · obtain ⟨fds, hfds⟩ : ∃ fds, k.faces r = some fds := by
        cases hf : k.faces r with
        | none => unfold Known.Uses at hu; rw [hf] at hu; cases hu
        | some fds => exact ⟨fds, rfl⟩
      have hu' : (f2, d) ∈ fds := by unfold Known.Uses at hu; rw [hfds] at hu; exact hu
      have hd := (dirIn_ok (h.shape r fds hfds).1).1 d hu'
      unfold replaceAll mrFaceDir
      rw [h.there (h.inRegs ha) (h.notGone ha), Res.bind_ok, h.rf, hfds, Res.ofOption_some, Res.bind_ok,
        Res.pure_eq, Res.bind_ok, hd]
      cases d
      · rw [if_neg (by decide)]
        exact (congrArg (· >>= replaceAll f1 f2 rs) h1).trans h2
      · rw [if_neg (by decide)]
        exact (congrArg (· >>= replaceAll f1 f2 rs) h1).trans h2
    · have : (k.replaced f1 f2 r).replacedIn f1 f2 rs = k.replacedIn f1 f2 (r :: rs) := by
        unfold Known.replacedIn Known.replaced
        simp only
        congr 1
        funext x
        by_cases hxr : x = r
        · subst hxr
          rw [if_neg hnr, upd_same, if_pos (List.mem_cons_self ..)]
        · rw [upd_ne _ _ hxr]
          have : x ∈ r :: rs ↔ x ∈ rs := by
            rw [List.mem_cons]; exact ⟨fun hc => hc.resolve_left hxr, Or.inr⟩
          simp only [this]
      rw [← this]; exact hI2

theorem mfRegions_nodup (h : Inv M k) (f : Nat) :
    ((M.fr f false).toList ++ (M.fr f true).toList).Nodup := by
  cases h1 : M.fr f false with
  | none => cases M.fr f true <;> simp
  | some a =>
    cases h2 : M.fr f true with
    | none => simp
    | some b =>
      have hab : a ≠ b := by
        rintro rfl
        obtain ⟨ha, hu⟩ := (h.fr f false a).1 h1
        have := (h.sides ha (p := (f, true)) hu).2
        exact this h2
      simp [hab]

theorem merge_inv (h : Inv M k) (hne : f1 ≠ f2) (hv1 : k.fverts f1 ≠ none) (hv2 : k.fverts f2 ≠ none)
    (ha2 : k.falive f2 = true) (hap : k.Apart f1 f2) (cls : Nat → Nat × Int) (S : List (List Nat))
    (topoflag : Bool) (hc : topoflag = true → cls f1 = cls f2) :
    ∃ M', mfsMerge M cls S f1 f2 topoflag = .ok (M', S.map (Topo.mergeInSet f1 f2), some f1) ∧
      Inv M' (k.merged f1 f2) := by
  have hrs : ∀ r, r ∈ (M.fr f2 false).toList ++ (M.fr f2 true).toList ↔
      k.alive r = true ∧ ∃ d, k.Uses r f2 d := by
    intro r
    rw [List.mem_append, Option.mem_toList, Option.mem_toList]
    show M.fr f2 false = some r ∨ M.fr f2 true = some r ↔ _
    rw [h.fr, h.fr]
    constructor
    · rintro (⟨hx, hu⟩ | ⟨hx, hu⟩)
      · exact ⟨hx, _, hu⟩
      · exact ⟨hx, _, hu⟩
    · rintro ⟨hx, d, hu⟩
      cases d
      · exact Or.inr ⟨hx, hu⟩
      · exact Or.inl ⟨hx, hu⟩
  obtain ⟨M1, h1, hI1⟩ := replaceAll_inv hne _ M k h hv1 hv2 hap (mfRegions_nodup h f2) (fun r hr => (hrs r).1 hr)
  obtain ⟨M2, h2, hI2⟩ := delF_inv hI1 (f := f2) ha2 hv2
  refine ⟨M2, ?_, ?_⟩
  · unfold mfsMerge mfRegions
    rw [h.fthere (h.hasFace hv1), Res.bind_ok, h.fthere (h.hasFace hv2), Res.bind_ok,
      if_neg (show ¬ (topoflag = true ∧ ((cls f1).2 ≠ (cls f2).2 ∨ (cls f1).1 ≠ (cls f2).1)) from
        fun hx => by rw [hc hx.1] at hx; exact hx.2.elim (fun e => e rfl) (fun e => e rfl)),
      Res.bind_ok, Res.pure_eq, Res.bind_ok, h1, Res.bind_ok]
    have h2 : delFace M1 f2 true = .ok M2 := h2
    rw [h2]; rfl
  · have : k.merged f1 f2 = note (k.replacedIn f1 f2 ((M.fr f2 false).toList ++ (M.fr f2 true).toList)) (.delF f2) := by
      unfold Known.merged Known.replacedIn note
      simp only
      congr 1
      funext x
      by_cases hx : x ∈ (M.fr f2 false).toList ++ (M.fr f2 true).toList
      · rw [if_pos hx, if_pos ((hrs x).1 hx).1]
      · rw [if_neg hx]
        by_cases hxa : k.alive x = true
        · rw [if_pos hxa]
          cases hf : k.faces x with
          | none => rfl
          | some fds =>
            show some (inPlace f1 f2 fds) = some fds
            rw [inPlace_absent]
            intro d hd
            exact hx ((hrs x).2 ⟨hxa, d, by unfold Known.Uses; rw [hf]; exact hd⟩)
        · rw [if_neg hxa]
    rw [this]; exact hI2

/-- **C100, in part.** In every mesh made through the interface two faces that were given their vertices and
that no two regions use in the same direction and no region has both are merged: the sets have the first in
place of the second, which is deleted, and all queries answer what they answer (C95) when the regions have the
first in place of the second, used in the same direction.  That direction is wrong when the faces go around
the other way, `C100_negation_reversed`; a region in the way is overwritten, `C100_negation_lost`. -/
theorem C100_merge_partial (ops : List Op) (hl : Legal nothing ops) (f1 f2 : Nat) (hne : f1 ≠ f2)
    (hv1 : (ops.foldl note nothing).fverts f1 ≠ none) (hv2 : (ops.foldl note nothing).fverts f2 ≠ none)
    (ha2 : (ops.foldl note nothing).falive f2 = true) (hap : (ops.foldl note nothing).Apart f1 f2)
    (cls : Nat → Nat × Int) (S : List (List Nat)) (topoflag : Bool)
    (hc : topoflag = true → cls f1 = cls f2) :
    ∃ M M' S', run empty ops = .ok M ∧ mfsMerge M cls S f1 f2 topoflag = .ok (M', S', some f1) ∧
      SetsMerged f1 f2 S S' ∧ M'.sf f2 = .kept ∧ (∀ f, f ≠ f2 → M'.sf f = M.sf f) ∧
      Answers M' ((ops.foldl note nothing).merged f1 f2) := by
  obtain ⟨M, hM, h⟩ := run_inv ops inv_empty hl
  obtain ⟨M', h1, h2⟩ := merge_inv h hne hv1 hv2 ha2 hap cls S topoflag hc
  refine ⟨M, M', _, hM, h1, sets_ok hne S, ?_, ?_, answers_ok h2⟩
  · rw [h2.sf]
    show (if (ops.foldl note nothing).face f2 = true then
      (if upd (ops.foldl note nothing).falive f2 false f2 = true then Stat.live else .kept) else .unused) = _
    rw [h.hasFace hv2, upd_same]; rfl
  · intro f hf
    rw [h2.sf, h.sf]
    show (if (ops.foldl note nothing).face f = true then
      (if upd (ops.foldl note nothing).falive f2 false f = true then Stat.live else .kept) else .unused) = _
    rw [upd_ne _ _ hf]

/-- **C100.** Faces of different model entities are not merged when this is asked for, and merged otherwise:
without the flag, and when both numbers agree, the answer is never a null pointer. -/
theorem C100_refused (ops : List Op) (hl : Legal nothing ops) (f1 f2 : Nat)
    (h1 : (ops.foldl note nothing).face f1 = true) (h2 : (ops.foldl note nothing).face f2 = true)
    (cls : Nat → Nat × Int) (S : List (List Nat)) (topoflag : Bool) :
    ∃ M, run empty ops = .ok M ∧
      (topoflag = true → cls f1 ≠ cls f2 → mfsMerge M cls S f1 f2 topoflag = .ok (M, S, none)) ∧
      ((topoflag = true → cls f1 = cls f2) → ∀ M' S', mfsMerge M cls S f1 f2 topoflag ≠ .ok (M', S', none)) := by
  obtain ⟨M, hM, h⟩ := run_inv ops inv_empty hl
  refine ⟨M, hM, fun ht hx => ?_, fun hc M' S' he => ?_⟩
  · unfold mfsMerge
    rw [h.fthere h1, Res.bind_ok, h.fthere h2, Res.bind_ok, if_pos]
    · rfl
    · refine ⟨ht, ?_⟩
      by_cases h3 : (cls f1).2 = (cls f2).2
      · exact Or.inr fun h4 => hx (Prod.ext_iff.2 ⟨h4, h3⟩)
      · exact Or.inl h3
  · unfold mfsMerge at he
    rw [h.fthere h1, Res.bind_ok, h.fthere h2, Res.bind_ok,
      if_neg (show ¬ (topoflag = true ∧ ((cls f1).2 ≠ (cls f2).2 ∨ (cls f1).1 ≠ (cls f2).1)) from
        fun hx => by rw [hc hx.1] at hx; exact hx.2.elim (fun e => e rfl) (fun e => e rfl))] at he
    obtain ⟨_, _, he⟩ := Res.bind_eq_ok.1 he
    obtain ⟨_, _, he⟩ := Res.bind_eq_ok.1 he
    obtain ⟨_, _, he⟩ := Res.bind_eq_ok.1 he
    injection he with he
    exact absurd (Prod.ext_iff.1 (Prod.ext_iff.1 he).2).2 (Option.some_ne_none _)

/-- **C100, negation.** The direction is taken over whichever way the faces go around.  When the vertices of the
first face are those of the second in the opposite order, every region that used the second face uses the
first inside out: looked at from the region, the vertices of the face come in the opposite order. -/
theorem C100_negation_reversed (ops : List Op) (hl : Legal nothing ops) (f1 f2 r : Nat) (d : Bool) (vs : List Nat)
    (hne : f1 ≠ f2) (hv1 : (ops.foldl note nothing).fverts f1 = some vs.reverse)
    (hv2 : (ops.foldl note nothing).fverts f2 = some vs)
    (ha2 : (ops.foldl note nothing).falive f2 = true) (hap : (ops.foldl note nothing).Apart f1 f2)
    (ha : (ops.foldl note nothing).alive r = true) (hu : (ops.foldl note nothing).Uses r f2 d)
    (cls : Nat → Nat × Int) (S : List (List Nat)) :
    ∃ M M' S', run empty ops = .ok M ∧ mfsMerge M cls S f1 f2 false = .ok (M', S', some f1) ∧
      mrFaceDir M r f2 = .ok (if d then 1 else 0) ∧ mfVertices M f2 d none = .ok (some (if d then vs else vs.reverse)) ∧
      mrFaceDir M' r f1 = .ok (if d then 1 else 0) ∧
      mfVertices M' f1 d none = .ok (some (if d then vs.reverse else vs)) := by
  obtain ⟨M, hM, h⟩ := run_inv ops inv_empty hl
  obtain ⟨M', h1, h2⟩ := merge_inv h hne (by rw [hv1]; exact Option.some_ne_none _)
    (by rw [hv2]; exact Option.some_ne_none _) ha2 hap cls S false (fun e => by cases e)
  have hA := answers_ok h
  have hA' := answers_ok h2
  obtain ⟨fds, hfds⟩ : ∃ fds, (ops.foldl note nothing).faces r = some fds := by
    cases hf : (ops.foldl note nothing).faces r with
    | none => unfold Known.Uses at hu; rw [hf] at hu; cases hu
    | some fds => exact ⟨fds, rfl⟩
  have hmf : ((ops.foldl note nothing).merged f1 f2).faces r = some (inPlace f1 f2 fds) := by
    show (if (ops.foldl note nothing).alive r = true then _ else _) = _
    rw [if_pos ha, hfds]; rfl
  have hu1 : ((ops.foldl note nothing).merged f1 f2).Uses r f1 d := by
    unfold Known.Uses
    rw [hmf]
    refine mem_inPlace.2 (Or.inr ⟨rfl, ?_⟩)
    unfold Known.Uses at hu; rw [hfds] at hu; exact hu
  have hr := hA.regFaces r fds (h.inRegs ha) (h.notGone ha) hfds
  have hr' := hA'.regFaces r _ (h.inRegs ha) (h.notGone ha) hmf
  have hf2 := hA.faceVertices f2 vs (h.hasFace (by rw [hv2]; exact Option.some_ne_none _)) hv2
  have hf1 := hA'.faceVertices f1 vs.reverse (h.hasFace (by rw [hv1]; exact Option.some_ne_none _)) hv1
  refine ⟨M, M', _, hM, h1, ?_, ?_, ?_, ?_⟩
  · cases d
    · exact ((hr.2.2 f2).2.1 hu).1
    · exact ((hr.2.2 f2).1 hu).1
  · cases d
    · exact hf2.2.2.2.1
    · exact hf2.2.2.1
  · cases d
    · exact ((hr'.2.2 f1).2.1 hu1).1
    · exact ((hr'.2.2 f1).1 hu1).1
  · cases d
    · have := hf1.2.2.2.1
      rw [List.reverse_reverse] at this; exact this
    · exact hf1.2.2.1

/-- two tets on the two sides of the triangle 0 1 2, each with a face of its own there; `fs` and `d`: the
vertices of the second one and the direction in which it is used; face 8 is used by nobody -/
def pair (fs : List Nat) (d : Bool) : List Op :=
  (List.range 5).map .newV ++
  [.newF 0, .setF 0 [0, 1, 2], .newF 1, .setF 1 [0, 1, 3], .newF 2, .setF 2 [1, 2, 3], .newF 3, .setF 3 [0, 3, 2],
   .newF 8, .setF 8 [2, 1, 0], .newF 4, .setF 4 fs, .newF 5, .setF 5 [0, 1, 4], .newF 6, .setF 6 [1, 2, 4], .newF 7, .setF 7 [0, 4, 2],
   .newR 0, .setR 0 [(0, false), (1, true), (2, true), (3, true)],
   .newR 1, .setR 1 [(4, d), (5, false), (6, false), (7, false)]]

instance (k : Known) (r f : Nat) (d : Bool) : Decidable (k.Uses r f d) := by unfold Known.Uses; infer_instance

theorem apart_of {k : Known} {f1 f2 : Nat} (h : ∀ r, r ∉ k.regs → k.alive r = false)
    (h1 : ∀ r ∈ k.regs, ∀ d d', k.alive r = true → k.Uses r f2 d → ¬ k.Uses r f1 d')
    (h2 : ∀ r ∈ k.regs, ∀ r' ∈ k.regs, ∀ d, k.alive r = true → k.alive r' = true → k.Uses r f2 d →
      ¬ k.Uses r' f1 d) : k.Apart f1 f2 := by
  have hm : ∀ r, k.alive r = true → r ∈ k.regs := by
    intro r hr
    by_contra hc
    rw [h r hc] at hr; cases hr
  exact ⟨fun r d d' hr => h1 r (hm r hr) d d' hr, fun r r' d hr hr' => h2 r (hm r hr) r' (hm r' hr') d hr hr'⟩

theorem pair_apart {fs : List Nat} {f1 f2 : Nat}
    (h1 : ∀ r ∈ [0, 1], ∀ d d', ((pair fs true).foldl note nothing).Uses r f2 d →
      ¬ ((pair fs true).foldl note nothing).Uses r f1 d')
    (h2 : ∀ r ∈ [0, 1], ∀ r' ∈ [0, 1], ∀ d, ((pair fs true).foldl note nothing).Uses r f2 d →
      ¬ ((pair fs true).foldl note nothing).Uses r' f1 d) :
    ((pair fs true).foldl note nothing).Apart f1 f2 := by
  have hr : ((pair fs true).foldl note nothing).regs = [1, 0] := rfl
  have ha : ∀ x, ((pair fs true).foldl note nothing).alive x = upd (upd (fun _ => false) 0 true) 1 true x :=
    fun _ => rfl
  refine apart_of ?_ ?_ ?_
  · intro r hx
    rw [hr] at hx
    rw [ha]
    have h1 : r ≠ 1 := by rintro rfl; exact hx (by decide)
    have h0 : r ≠ 0 := by rintro rfl; exact hx (by decide)
    rw [upd_ne _ _ h1, upd_ne _ _ h0]
  · intro r hx d d' _
    rw [hr] at hx
    exact h1 r (by revert hx; simp only [List.mem_cons, List.not_mem_nil, or_false]; exact Or.symm) d d'
  · intro r hx r' hx' d _ _
    rw [hr] at hx hx'
    exact h2 r (by revert hx; simp only [List.mem_cons, List.not_mem_nil, or_false]; exact Or.symm) r'
      (by revert hx'; simp only [List.mem_cons, List.not_mem_nil, or_false]; exact Or.symm) d

/-- merging makes the two tets neighbours -/
example : ∃ M M' S', run empty (pair [0, 1, 2] true) = .ok M ∧
    mfsMerge M (fun _ => (2, 1)) [[4], [0, 4]] 0 4 true = .ok (M', S', some 0) ∧
    mrAdjRegions M 0 = .ok [] ∧ mrAdjRegions M' 0 = .ok [1] ∧ mrFaces M' 1 = .ok [0, 5, 6, 7] ∧ S' = [[0], [0]] := by
  obtain ⟨M, M', S', h1, h2, _⟩ := C100_merge_partial (pair [0, 1, 2] true) (by decide +kernel) 0 4 (by decide)
    (by decide +kernel) (by decide +kernel) (by decide +kernel)
    (pair_apart (by decide +kernel) (by decide +kernel)) (fun _ => (2, 1)) [[4], [0, 4]] true (fun _ => rfl)
  refine ⟨M, M', S', h1, h2, ?_⟩
  have : ∀ o, run empty (pair [0, 1, 2] true) = o → (match o with
    | .ok M => (match mfsMerge M (fun _ => (2, 1)) [[4], [0, 4]] 0 4 true with
      | .ok (M', S', _) => decide (mrAdjRegions M 0 = .ok [] ∧ mrAdjRegions M' 0 = .ok [1] ∧
          mrFaces M' 1 = .ok [0, 5, 6, 7] ∧ S' = [[0], [0]])
      | _ => false)
    | _ => false) = true := by rintro o rfl; decide +kernel
  have := this _ h1
  simp only at this
  rw [h2] at this
  exact of_decide_eq_true this

/-- **C100, negation.** When two different regions use the faces in the same direction, as the outer faces of
two regions that meet are used, the merged face has the second region only: the first one has the face still,
but the face does not know it and the two do not become neighbours. -/
theorem C100_negation_lost (ops : List Op) (hl : Legal nothing ops) (f1 f2 r1 r2 : Nat) (d : Bool) (hne : f1 ≠ f2)
    (hv1 : (ops.foldl note nothing).fverts f1 ≠ none) (hv2 : (ops.foldl note nothing).fverts f2 ≠ none)
    (ha2 : (ops.foldl note nothing).falive f2 = true)
    (hr1 : (ops.foldl note nothing).alive r1 = true) (hr2 : (ops.foldl note nothing).alive r2 = true)
    (hr : r1 ≠ r2) (hu1 : (ops.foldl note nothing).Uses r1 f1 d) (hu2 : (ops.foldl note nothing).Uses r2 f2 d)
    (hn1 : ∀ r, (ops.foldl note nothing).alive r = true → ¬ (ops.foldl note nothing).Uses r f1 (!d))
    (hn2 : ∀ r, (ops.foldl note nothing).alive r = true → ¬ (ops.foldl note nothing).Uses r f2 (!d))
    (cls : Nat → Nat × Int) (S : List (List Nat)) :
    ∃ M M' S', run empty ops = .ok M ∧ mfsMerge M cls S f1 f2 false = .ok (M', S', some f1) ∧
      mrUsesFace M' r1 f1 = .ok true ∧ mrUsesFace M' r2 f1 = .ok true ∧ mfRegions M' f1 = .ok [r2] := by
  obtain ⟨M, hM, h⟩ := run_inv ops inv_empty hl
  obtain ⟨fds, hfds⟩ : ∃ fds, (ops.foldl note nothing).faces r2 = some fds := by
    cases hf : (ops.foldl note nothing).faces r2 with
    | none => unfold Known.Uses at hu2; rw [hf] at hu2; cases hu2
    | some fds => exact ⟨fds, rfl⟩
  obtain ⟨gds, hgds⟩ : ∃ gds, (ops.foldl note nothing).faces r1 = some gds := by
    cases hf : (ops.foldl note nothing).faces r1 with
    | none => unfold Known.Uses at hu1; rw [hf] at hu1; cases hu1
    | some gds => exact ⟨gds, rfl⟩
  obtain ⟨hnd, hfv⟩ := h.shape r2 fds hfds
  have hu2' : (f2, d) ∈ fds := by unfold Known.Uses at hu2; rw [hfds] at hu2; exact hu2
  have hu1' : (f1, d) ∈ gds := by unfold Known.Uses at hu1; rw [hgds] at hu1; exact hu1
  have e1 : M.fr f1 (!d) = some r1 := (h.fr _ _ _).2 ⟨hr1, by rw [Bool.not_not]; exact hu1⟩
  have e2 : M.fr f2 (!d) = some r2 := (h.fr _ _ _).2 ⟨hr2, by rw [Bool.not_not]; exact hu2⟩
  have n1 : M.fr f1 d = none := by
    cases hx : M.fr f1 d with
    | none => rfl
    | some x => obtain ⟨hxa, hxu⟩ := (h.fr _ _ _).1 hx; exact absurd hxu (hn1 x hxa)
  have n2 : M.fr f2 d = none := by
    cases hx : M.fr f2 d with
    | none => rfl
    | some x => obtain ⟨hxa, hxu⟩ := (h.fr _ _ _).1 hx; exact absurd hxu (hn2 x hxa)
  have hf1 : ∀ b, M.fr f1 b ≠ some r2 := by
    intro b hb
    by_cases hbd : b = !d
    · rw [hbd, e1] at hb; exact hr (Option.some.inj hb)
    · have : b = d := by cases b <;> cases d <;> simp_all
      rw [this, n1] at hb; cases hb
  have hrs : mfRegions M f2 = .ok [r2] := by
    unfold mfRegions
    rw [h.fthere (h.hasFace hv2), Res.bind_ok, Res.pure_eq]
    cases d
    · have e2 : M.fr f2 true = some r2 := e2
      rw [n2, e2]; rfl
    · have e2 : M.fr f2 false = some r2 := e2
      rw [n2, e2]; rfl
  have hsh : ∀ p ∈ inPlace f1 f2 fds, (ops.foldl note nothing).fverts p.1 ≠ none := by
    rintro ⟨g, c⟩ hp
    rcases mem_inPlace.1 hp with ⟨_, hp⟩ | ⟨hg, _⟩
    · exact hfv _ hp
    · rw [hg]; exact hv1
  obtain ⟨t0, hty⟩ : ∃ t0, typeFrom M ((inPlace f1 f2 fds).map (·.1)) = .ok t0 := ⟨_, typeFrom_ok h (by
      intro f hfm
      obtain ⟨p, hp, rfl⟩ := List.mem_map.1 hfm
      exact hsh p hp)⟩
  have hone : ∃ fr' t, replaceOne M r2 f1 f2 d =
      .ok { M with fr := fr', rf := upd M.rf r2 (some (inPlace f1 f2 fds)), rt := t } ∧
      ∀ b, fr' f1 b = if b = !d then some r2 else none := by
    refine ⟨upd (upd M.fr f1 (tell r2 d (M.fr f1))) f2 (without r2 (M.fr f2)), upd M.rt r2 t0, ?_, fun b => ?_⟩
    · unfold replaceOne
      rw [h.there (h.inRegs hr2) (h.notGone hr2), Res.bind_ok, h.rf, hfds, Res.ofOption_some, Res.bind_ok,
        h.fthere (h.hasFace hv1), Res.bind_ok]
      simp only
      rw [h.fthere (h.hasFace hv2), Res.bind_ok, setAt_ok hnd hu2', hty, Res.bind_ok, upd_ne _ _ hne.symm]
      rfl
    · rw [upd_ne _ _ hne, upd_same, tell_eq hf1]
      by_cases hbd : b = !d
      · rw [if_pos hbd, if_pos hbd]
      · have : b = d := by cases b <;> cases d <;> simp_all
        rw [if_neg hbd, if_neg hbd, this, n1]
  obtain ⟨fr', t, hone, hfr⟩ := hone
  obtain ⟨M2, hdel, hI2⟩ := delF_inv h (f := f2) ha2 hv2
  have hdel : delFace M f2 true = .ok M2 := hdel
  obtain ⟨vf', hw, hM2⟩ : ∃ vf', withdrawFace M f2 = .ok vf' ∧
      M2 = { M with sf := upd M.sf f2 .kept, vf := vf' } := by
    unfold delFace at hdel
    obtain ⟨_, _, hdel⟩ := Res.bind_eq_ok.1 hdel
    obtain ⟨vf', hw, hdel⟩ := Res.bind_eq_ok.1 hdel
    injection hdel with hdel
    exact ⟨vf', hw, hdel.symm⟩
  have hdir := (dirIn_ok hnd).1 d hu2'
  have hall : replaceAll f1 f2 [r2] M =
      .ok { M with fr := fr', rf := upd M.rf r2 (some (inPlace f1 f2 fds)), rt := t } := by
    unfold replaceAll mrFaceDir
    rw [h.there (h.inRegs hr2) (h.notGone hr2), Res.bind_ok, h.rf, hfds, Res.ofOption_some, Res.bind_ok,
      Res.pure_eq, Res.bind_ok, hdir]
    cases d
    · rw [if_neg (by decide)]
      exact congrArg (· >>= replaceAll f1 f2 []) hone
    · rw [if_neg (by decide)]
      exact congrArg (· >>= replaceAll f1 f2 []) hone
  refine ⟨M, { M with fr := fr', rf := upd M.rf r2 (some (inPlace f1 f2 fds)), rt := t, sf := upd M.sf f2 .kept, vf := vf' },
    S.map (Topo.mergeInSet f1 f2), hM, ?_, ?_, ?_, ?_⟩
  · unfold mfsMerge
    rw [h.fthere (h.hasFace hv1), Res.bind_ok, h.fthere (h.hasFace hv2), Res.bind_ok,
      if_neg (show ¬ (false = true ∧ ((cls f1).2 ≠ (cls f2).2 ∨ (cls f1).1 ≠ (cls f2).1)) from
        fun hx => by cases hx.1), hrs, Res.bind_ok, hall, Res.bind_ok]
    unfold delFace
    have hw' : withdrawFace { M with fr := fr', rf := upd M.rf r2 (some (inPlace f1 f2 fds)), rt := t } f2 = .ok vf' := hw
    rw [hw', show deref (({ M with fr := fr', rf := upd M.rf r2 (some (inPlace f1 f2 fds)), rt := t } : Mesh4).sf f2) = .ok () from
      h.fthere (h.hasFace hv2)]
    rfl
  · unfold mrUsesFace mrFaces
    simp only
    rw [h.there (h.inRegs hr1) (h.notGone hr1), Res.bind_ok, upd_ne _ _ hr, h.rf, hgds, Res.ofOption_some,
      Res.bind_ok, Res.pure_eq, Res.bind_ok, Res.pure_eq, decide_eq_true (List.mem_map.2 ⟨_, hu1', rfl⟩)]
  · unfold mrUsesFace mrFaces
    simp only
    rw [h.there (h.inRegs hr2) (h.notGone hr2), Res.bind_ok, upd_same, Res.ofOption_some,
      Res.bind_ok, Res.pure_eq, Res.bind_ok, Res.pure_eq,
      decide_eq_true (List.mem_map.2 ⟨_, mem_inPlace.2 (Or.inr ⟨rfl, hu2'⟩), rfl⟩)]
  · unfold mfRegions
    simp only
    rw [upd_ne _ _ hne, h.fthere (h.hasFace hv1), Res.bind_ok, Res.pure_eq, hfr, hfr]
    cases d <;> rfl

theorem pair_alive {fs : List Nat} {d : Bool} {r : Nat} (h : ((pair fs d).foldl note nothing).alive r = true) :
    r = 0 ∨ r = 1 := by
  have ha : ((pair fs d).foldl note nothing).alive r = upd (upd (fun _ => false) 0 true) 1 true r := rfl
  rw [ha] at h
  by_cases h1 : r = 1
  · exact Or.inr h1
  · by_cases h0 : r = 0
    · exact Or.inl h0
    · rw [upd_ne _ _ h1, upd_ne _ _ h0] at h; cases h

/-- two tets that meet with faces that go around in opposite ways: the first is forgotten -/
example : ∃ M M' S', run empty (pair [0, 2, 1] false) = .ok M ∧
    mfsMerge M (fun _ => (2, 1)) [] 0 4 false = .ok (M', S', some 0) ∧
    mrUsesFace M' 0 0 = .ok true ∧ mrUsesFace M' 1 0 = .ok true ∧ mfRegions M' 0 = .ok [1] :=
  C100_negation_lost (pair [0, 2, 1] false) (by decide +kernel) 0 4 0 1 false (by decide) (by decide +kernel)
    (by decide +kernel) (by decide +kernel) (by decide +kernel) (by decide +kernel) (by decide)
    (by decide +kernel) (by decide +kernel)
    (fun r hr => by rcases pair_alive hr with rfl | rfl <;> decide +kernel)
    (fun r hr => by rcases pair_alive hr with rfl | rfl <;> decide +kernel) _ _

/-- a face that nobody else uses, the other way around than the second one: the tet gets it inside out -/
example : ∃ M M' S', run empty (pair [0, 1, 2] true) = .ok M ∧
    mfsMerge M (fun _ => (2, 1)) [] 8 4 false = .ok (M', S', some 8) ∧
    mrFaceDir M 1 4 = .ok 1 ∧ mfVertices M 4 true none = .ok (some [0, 1, 2]) ∧
    mrFaceDir M' 1 8 = .ok 1 ∧ mfVertices M' 8 true none = .ok (some [2, 1, 0]) :=
  C100_negation_reversed (pair [0, 1, 2] true) (by decide +kernel) 8 4 1 true
    [0, 1, 2] (by decide) (by decide +kernel) (by decide +kernel) (by decide +kernel)
    (pair_apart (by decide +kernel) (by decide +kernel)) (by decide +kernel) (by decide +kernel) _ _

/-- faces of different model faces stay apart when asked to -/
example : ∃ M, run empty (pair [0, 1, 2] true) = .ok M ∧
    (true = true → ((fun f => (2, (f : Int))) 0 : Nat × Int) ≠ (fun f : Nat => (2, (f : Int))) 4 →
      mfsMerge M (fun f => (2, (f : Int))) [] 0 4 true = .ok (M, [], none)) :=
  let ⟨M, h1, h2, _⟩ := C100_refused (pair [0, 1, 2] true) (by decide +kernel) 0 4 (by decide +kernel)
    (by decide +kernel) (fun f => (2, (f : Int))) [] true
  ⟨M, h1, h2⟩

end MSTK.R4M
