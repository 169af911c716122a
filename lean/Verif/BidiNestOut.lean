import Verif.BidiNest

/-
The directions of the text outside of isolates, in a paragraph from left to right.
-/
namespace Uax.Bidi

open Spec

/-- A text with isolates is resolved as its outline is. -/
theorem resolve_outline_bytes {σ : Type} {E : Env σ} {G : σ → Prop} (hB : Brackets E G) {o : Options} {env env' : σ} {ss os : List Scrap} {len : Nat} {e : Class}
    (he : e = cL ∨ e = cR) {B : List Class} (hf : Feeds E env ss env') (hR : Far 0 ss) (ho : Outline ss os) (h : Out1 0 len e (n12 e e B) B [] os) (hG : G env') :
    ∃ N p ys, resolveIn E o env N = .returns (levelsOf o p.stack, p) ∧ p.stack = initialOuterScrap o true :: ys ∧ Tiles 0 len ys ∧
      (∀ s ∈ ys, (s.clz = cL ∨ s.clz = cR) ∧ s.l < s.r) ∧ byteClasses ys = n12 e e B := by
  have hic : (initialOuterScrap o true).clz = cLRI ∨ (initialOuterScrap o true).clz = cRLI := by
    unfold initialOuterScrap
    dsimp only
    cases o.outerR2L <;> simp
  obtain ⟨N, p, e1, e2, -⟩ := wholeI (o := o) hf (out1_inv 0 len e (n12 e e B) B).text hR (shape_inv hB 0 0 len he (n12 e e B) hic) ⟨os, ho, h⟩
    (by
      rintro ys ⟨os', ho', hy⟩
      cases ho'
      exact ⟨good2_start o hy.good, Or.inl ⟨rfl, ys, rfl, out1_ex2 hy (List.drop_zero ..)⟩⟩)
    (fun h => by simpa using h.1.2.2) hG
  rcases e2.2 with ⟨-, ys, h, -⟩ | ⟨ys, h, hx, -⟩
  · cases h
  · obtain ⟨k1, k2, k3⟩ := ex2_done hx (List.drop_zero ..)
    exact ⟨N, p, ys, e1, h, k1, k2, k3⟩

end Uax.Bidi
