import Verif.CopyModel
import Verif.Props.FileRoundTrip
import Verif.PartSpec

/-!
Meshes for examples: all entities that were ever made, in the order of their handles, all at the same
place and classified in the same way.
-/
namespace MSTK
namespace Prt
open File Copy

/-- the mesh -/
def rangeC (T : Topo) : CMesh Int where
  F := { T := T, vl := List.range T.nv, el := List.range T.ne, fl := List.range T.nf, rl := List.range T.nr
         xyz := fun v => (v, 0, 0), vc := fun _ => (3, 1), ec := fun _ => (3, 1), fc := fun _ => (3, 1), rc := fun _ => (3, 1)
         vid := fun v => v + 1, eid := fun v => v + 1, fid := fun v => v + 1, rid := fun v => v + 1, atts := [] }
  par := fun _ _ => ⟨0, 0, 0, false⟩
  sets := []
  top := fun k => match k with | 0 => T.nv | 1 => T.ne | 2 => T.nf | _ => T.nr

/-- a check that it is all right -/
def rangeB (T : Topo) : Bool :=
  listB (List.range T.nv) T.sv T.nv && listB (List.range T.ne) T.se T.ne && listB (List.range T.nf) T.sf T.nf &&
  listB (List.range T.nr) T.sr T.nr && (List.range T.ne).all (fun e => (T.ev e).1.isSome && (T.ev e).2.isSome) &&
  (List.range T.nf).all (fun f => (T.fe f).isSome && decide ((T.edgesOf f).length ≤ 30)) &&
  (List.range T.nr).all (fun r => (T.rf r).isSome && decide ((T.view.faces r).length ≤ 512)) &&
  decide (T.nv + T.ne + T.nf + T.nr < 2147483648)

theorem rangeC_ok {T : Topo} (hT : T.Consistent) (h : rangeB T = true) :
    (rangeC T).F.Sound ∧ (∀ f ∈ (rangeC T).F.fl, (T.view.edges f).length ≤ 30) ∧
    ∀ r ∈ (rangeC T).F.rl, (T.view.faces r).length ≤ 512 := by
  unfold rangeB at h
  simp only [Bool.and_eq_true, List.all_eq_true, decide_eq_true_iff] at h
  obtain ⟨⟨⟨⟨⟨⟨⟨a, b⟩, c⟩, d⟩, e⟩, f⟩, g⟩, n⟩ := h
  refine ⟨?_, fun x hx => (f x hx).2, fun x hx => (g x hx).2⟩
  exact
    { cons := hT
      vl := listB_sound a hT.newV
      el := listB_sound b hT.newE
      fl := listB_sound c hT.newF
      rl := listB_sound d hT.newR
      ends := fun x hx => by
        obtain ⟨p, hp⟩ := Option.isSome_iff_exists.1 (e x hx).1
        obtain ⟨q, hq⟩ := Option.isSome_iff_exists.1 (e x hx).2
        exact ⟨p, q, Prod.ext hp hq⟩
      edges := fun x hx => ⟨Option.isSome_iff_exists.1 (f x hx).1, le_trans (f x hx).2 (by omega)⟩
      faces := fun x hx => Option.isSome_iff_exists.1 (g x hx).1
      vc := fun _ _ => show ClassOk (3, 1) from ⟨by decide, by decide, by decide, by decide⟩
      ec := fun _ _ => show ClassOk (3, 1) from ⟨by decide, by decide, by decide, by decide⟩
      fc := fun _ _ => show ClassOk (3, 1) from ⟨by decide, by decide, by decide, by decide⟩
      rc := fun _ _ => show ClassOk (3, 1) from ⟨by decide, by decide, by decide, by decide⟩
      size := show (List.range T.nv).length + (List.range T.ne).length + (List.range T.nf).length +
          (List.range T.nr).length < 2147483648 by simpa only [List.length_range] using n }

instance {D : Type} (G : FMesh D) (e k g : Nat) : Decidable (OfEdge G e k g) :=
  inferInstanceAs (Decidable ((k = 1 ∧ g = e) ∨ (k = 0 ∧ ((G.T.view.ends e).1 = some g ∨ (G.T.view.ends e).2 = some g))))
instance {D : Type} (G : FMesh D) (f k g : Nat) : Decidable (OfFace G f k g) :=
  inferInstanceAs (Decidable ((k = 2 ∧ g = f) ∨ ∃ p ∈ G.T.view.edges f, OfEdge G p.1 k g))
instance {D : Type} (G : FMesh D) (r k g : Nat) : Decidable (OfRegion G r k g) :=
  inferInstanceAs (Decidable ((k = 3 ∧ g = r) ∨ ∃ p ∈ G.T.view.faces r, OfFace G p.1 k g))
instance {D : Type} (G : FMesh D) (K x k g : Nat) : Decidable (OfElem G K x k g) :=
  inferInstanceAs (Decidable (if K = 3 then OfRegion G x k g else OfFace G x k g))

end Prt
end MSTK
