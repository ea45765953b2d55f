import Verif.Proof.Vars
import Verif.Model.Machine
set_option autoImplicit false
/-!
# Looking up a variable that is in the table
-/
namespace Sbc.Machine
open Sbc

variable {σ : Type}

theorem search_found {t : Vars.Table} (h : Vars.Inv t) {n : List Nat} (hn : Names.GoodName n) {ty : Vars.Ty} {id : Nat} (hi : id < t.max)
    (hk : Vars.HasKey t id (n, ty)) : Vars.search t n ty = some id := by
  cases hs : Vars.search t n ty with
  | none => exact absurd hk (Vars.search_none h hn hs id hi).2
  | some i =>
    obtain ⟨j, hj, rfl, hor, hb⟩ := Vars.search_some h hn hs
    obtain ⟨j', hj', hid, hb'⟩ := h.chain id hi _ hk
    rcases Nat.lt_trichotomy j j' with hlt | heq | hgt
    · have := hb' j hlt
      rcases hor with h0 | h0
      · exact absurd h0 this.1
      · exact absurd h0 this.2
    · subst heq; rw [hid]
    · have := (hb j' hgt).2
      rw [← hid] at this
      exact absurd hk this

theorem lookup_found {c : Core σ} (h : Vars.Inv c.vars) {n : List Nat} (hn : Names.GoodName n) {ty : Vars.Ty} {id : Nat} (hi : id < c.vars.max)
    (hk : Vars.HasKey c.vars id (n, ty)) : c.lookup n ty = .ok (c, some id) := by
  have hlen : ¬ n.length > 16 := by have := hn.2.1; omega
  have he : ¬ (c.vars.slots id).ty = none := by rw [hk.1]; simp
  have hget : Vars.getVar c.vars n ty = (c.vars, .ok id) := by
    unfold Vars.getVar; rw [if_neg hlen, search_found h hn hi hk]; dsimp only; rw [if_neg he]
  unfold Core.lookup
  rw [hget]; dsimp only; rw [if_neg he]

end Sbc.Machine
