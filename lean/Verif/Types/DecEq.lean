import Verif.Types.Model

/-! Equality of experiences can be decided (for examples). -/

namespace Haptics

mutual
/-- Comparison of effects, with their timelines. -/
def Effect.beq : Effect → Effect → Bool
  | ⟨a1, a2, a3, a4, a5, a6, a7, l, a9⟩, ⟨b1, b2, b3, b4, b5, b6, b7, m, b9⟩ =>
    decide (a1 = b1 ∧ a2 = b2 ∧ a3 = b3 ∧ a4 = b4 ∧ a5 = b5 ∧ a6 = b6 ∧ a7 = b7 ∧ a9 = b9) && beqAll l m
/-- Comparison of timelines. -/
def beqAll : List Effect → List Effect → Bool
  | [], [] => true
  | e :: l, f :: m => e.beq f && beqAll l m
  | _, _ => false
end

mutual
theorem Effect.beq_iff : ∀ e f : Effect, e.beq f = true ↔ e = f
  | ⟨a1, a2, a3, a4, a5, a6, a7, l, a9⟩, ⟨b1, b2, b3, b4, b5, b6, b7, m, b9⟩ => by
    rw [Effect.beq, Bool.and_eq_true, decide_eq_true_iff, beqAll_iff l m, Effect.mk.injEq]
    constructor
    · rintro ⟨⟨h1, h2, h3, h4, h5, h6, h7, h9⟩, h8⟩; exact ⟨h1, h2, h3, h4, h5, h6, h7, h8, h9⟩
    · rintro ⟨h1, h2, h3, h4, h5, h6, h7, h8, h9⟩; exact ⟨⟨h1, h2, h3, h4, h5, h6, h7, h9⟩, h8⟩
theorem beqAll_iff : ∀ l m : List Effect, beqAll l m = true ↔ l = m
  | [], [] => by simp [beqAll]
  | e :: l, f :: m => by
    rw [beqAll, Bool.and_eq_true, Effect.beq_iff e f, beqAll_iff l m, List.cons.injEq]
  | [], _ :: _ => by simp [beqAll]
  | _ :: _, [] => by simp [beqAll]
end

instance : DecidableEq Effect := fun e f => decidable_of_iff _ (Effect.beq_iff e f)

deriving instance DecidableEq for Band
deriving instance DecidableEq for Channel
deriving instance DecidableEq for Perception
deriving instance DecidableEq for Experience

end Haptics
