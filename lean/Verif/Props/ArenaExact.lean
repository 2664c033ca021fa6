import Verif.Props.Arena
/-!
# C11: the gas of the root frame, whatever the refund counter is
-/
namespace Verif.Props
open Spec Rec

/-- **C11, exact**: the gas used of the root frame for every value of the 64-bit refund counter: the
paid gas if the counter is not negative; if it is negative the gas after the greatest possible refund, as
long as the spent gas is less than 2^63. -/
theorem C11_exact (cfg : Config) (t : Tx) (hwf : t.WF) (hsafe : Safe cfg t.body)
    (hr0 : -2 ^ 63 ≤ t.out.result.gas.refunded) (hr1 : t.out.result.gas.refunded < 2 ^ 63)
    (hs : t.out.result.gas.limit - t.out.result.gas.remaining < 2 ^ 63) :
    let spent := t.out.result.gas.limit - t.out.result.gas.remaining
    ∃ s x, TI.run cfg TI.new t.events = .ok s ∧ s.arena[0]? = some x ∧
      x.trace.gasUsed =
        if 0 ≤ t.out.result.gas.refunded then
          paidGas t.out.ctx.specId spent t.out.result.gas.refunded.toNat
        else paidGas t.out.ctx.specId spent spent := by
  intro spent
  obtain ⟨s, hr, _, har, _⟩ := run_frames cfg t hwf hsafe
  have hf : ∃ f, (frames t)[0]? = some f ∧ f.index = 0 ∧ f.out = t.out ∧ f.depth = 0 := by
    refine ⟨_, by simp only [frames, List.getElem?_cons_zero]; rfl, rfl, rfl, rfl⟩
  obtain ⟨f, hf, hi, ho, hd⟩ := hf
  refine ⟨s, nodeOf cfg f, hr, by rw [har, List.getElem?_map, hf]; rfl, ?_⟩
  have hgu : (nodeOf cfg f).trace.gasUsed =
      Verif.gasUsed t.out.ctx.specId t.out.result.gas.spent
        (i64AsU64 t.out.result.gas.refunded) := by
    simp only [nodeOf, leaveNode, TI.fillTrace, own_trace, hi, ho]
    split <;> rfl
  rw [hgu]
  have hgas : t.out.result.gas.spent = spent := rfl
  rw [hgas]
  generalize hR : t.out.result.gas.refunded = r at *
  split
  · rename_i hp
    have : i64AsU64 r = r.toNat := by
      unfold i64AsU64; rw [Int.emod_eq_of_lt hp (by omega)]
    rw [this, Verif.gasUsed, paidGas]
    by_cases hl : LONDON ≤ t.out.ctx.specId <;> simp [SpecId.enabled, hl]
  · rename_i hp
    have : 2 ^ 63 ≤ i64AsU64 r := by unfold i64AsU64; omega
    have hq : ∀ q : Nat, spent / q ≤ spent := fun q => Nat.div_le_self _ _
    have hmin : ∀ q : Nat, min (i64AsU64 r) (spent / q) = min spent (spent / q) := by
      intro q
      have := hq q
      have hlt : spent < 2 ^ 63 := hs
      omega
    rw [Verif.gasUsed, paidGas]
    simp only [hmin]
    by_cases hl : LONDON ≤ t.out.ctx.specId <;> simp [SpecId.enabled, hl]

example : -2 ^ 63 ≤ Example.tx.out.result.gas.refunded ∧ paidGas 17 600 600 = 480 ∧
    Example.tx.out.result.gas.limit - Example.tx.out.result.gas.remaining < 2 ^ 63 := by decide

end Verif.Props
