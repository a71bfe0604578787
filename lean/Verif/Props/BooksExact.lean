import Verif.Props.Books
import Verif.Props.Lost
/-
C80: the accumulated fees, without conditions on the payments.
-/
namespace Verif
open VMap

/-- **C80**, the accumulated fee, for every history: what `/memory/feesinfo` shows as accumulated is everything the
pool received, less what it owes to the validators, less the payments that were credited to nobody (those that equal
the payment of the builder of their block, but for one). -/
theorem C80_fees_exact {E : Env} (hE : ValidEnv E) (hX : ExactEnv E) (hC : NoSelfConsol E)
    {cfg : Config} {bs : List FullBlock} {o : Oracle} (h : Hist E (newOracle cfg) bs o)
    (L : Lib) (t : Nat) (W : Outside) (pool : Str) (relays : List Str) : ∃ p a x xs,
    serve L E t W pool relays o .fees = .ok (.fees p a x, o) ∧
    List.Forall₂ (fun b x => Uncredited b cfg.poolAddr x) bs xs ∧
    x = received o.st - pendingTotal o.st - accTotal o.st - xs.sum := by
  obtain ⟨xs, h1, h2⟩ := C02_exact hE hX hC h
  refine ⟨_, _, _, xs, rfl, h1, ?_⟩
  unfold owed at h2
  omega

/-- **C80 is false as stated.** The builder pays 5000 and somebody else donates 5000 in the same block: the donation is
not listed, and the accumulated fee (all of it besides the collateral and the reward) is 5000 short. -/
theorem C80_false_twin_payment : ∃ o p a x,
    Hist Sample.env (newOracle Sample.cfg) [twinBlock] o ∧
    (twinBlock.events.ether.map (·.amount)) = [5000, 5000] ∧
    serve (Toy.lib Sample.hash) Sample.env 0 Sample.outside Sample.pool [] o .donations = .ok (.donations [], o) ∧
    serve (Toy.lib Sample.hash) Sample.env 0 Sample.outside Sample.pool [] o .fees = .ok (.fees p a x, o) ∧
    x = received o.st - pendingTotal o.st - accTotal o.st - 5000 := by
  obtain ⟨o, h1, h2⟩ := Sample.ex_hist (E := Sample.env) (o := newOracle Sample.cfg)
    (bs := [twinBlock]) (P := fun o => decide (o.st.donations = []) &&
      decide (o.st.poolFees = received o.st - pendingTotal o.st - accTotal o.st - 5000)) (by decide +kernel)
  simp only [Bool.and_eq_true, decide_eq_true_eq] at h2
  exact ⟨o, _, _, _, h1, rfl, by rw [serve, h2.1], rfl, h2.2⟩

/-- the general statement at that history: 5000 are credited to nobody -/
example : ∃ o xs, Hist Sample.env (newOracle Sample.cfg) [twinBlock] o ∧
    List.Forall₂ (fun b x => Uncredited b Sample.cfg.poolAddr x) [twinBlock] xs ∧ xs.sum = 5000 := by
  obtain ⟨o, p, a, x, h, _, _, h2, h3⟩ := C80_false_twin_payment
  obtain ⟨p', a', x', xs, k1, k2, k3⟩ := C80_fees_exact Sample.env_valid Sample.env_exact Sample.env_noSelf h
    (Toy.lib Sample.hash) 0 Sample.outside Sample.pool []
  rw [h2] at k1
  simp only [Except.ok.injEq, Prod.mk.injEq, Reply.fees.injEq, and_true] at k1
  exact ⟨o, xs, h, k2, by omega⟩

end Verif
