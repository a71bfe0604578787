import Verif.Props.Logs
import Verif.Props.ViewEndpoint
/-
C111 for the API: the logs of the chain, read until its head, are what C47 asks of the execution client.
-/
namespace Verif

theorem filter_flatMap_block {α : Type} (n : Nat) (f : Nat × PoolEvent → List α) (num : α → Nat)
    (hf : ∀ p, ∀ x ∈ f p, num x = p.1) (l : List (Nat × PoolEvent)) :
    (l.filter fun p => n ≤ p.1).flatMap f = (l.flatMap f).filter fun x => n ≤ num x := by
  induction l with
  | nil => rfl
  | cons p l ih =>
    rw [List.flatMap_cons, List.filter_append, ← ih, List.filter_cons]
    by_cases h : n ≤ p.1
    · rw [if_pos (by simpa using h), List.flatMap_cons]
      congr 1
      rw [List.filter_eq_self.mpr]
      intro x hx
      rw [hf p x hx]; simpa using h
    · have hn : (f p).filter (fun x => decide (n ≤ num x)) = [] := by
        rw [List.filter_eq_nil_iff]
        intro x hx
        rw [hf p x hx]; simpa using h
      rw [if_neg (by simpa using h), hn, List.nil_append]

/-- **C111**, for the API. The blocks `old ++ new` have the events `ps`, block number and what the contract emitted, and
the logs of the contract on the chain are these events in this order. Then what the API reads from the logs, from any
block until the head, is what `LogsOf` asks for: the subscriptions and unsubscriptions of these blocks. So C47 holds for
an execution client that answers with the logs of the chain. -/
theorem C111_view {pool : List Nat} {old new : List FullBlock} {ps : List (Nat × List PoolEvent)} {logs : List Log}
    {last : Nat} (hev : List.Forall₂ (fun b p => b.events = toldEvents pool p.1 p.2) (old ++ new) ps)
    (hw : ∀ p ∈ ps, ∀ e ∈ p.2, e.WF)
    (hlogs : logs.filter (fun l => l.address = pool) = ps.flatMap fun p => p.2.map fun e => e.log pool p.1)
    (hold : ∀ b ∈ old, ∀ x ∈ eventNumbers b, x ≤ last) (hnew : ∀ b ∈ new, ∀ x ∈ eventNumbers b, last < x) :
    LogsOf old new last fun n => some (tillHead pool logs n) := by
  refine ⟨fun n => ?_, hold, hnew⟩
  have key := C111_till_head (pool := pool) (start := n) (logs := logs)
    (es := (ps.flatMap fun p => p.2.map fun e => (p.1, e)).filter fun p => n ≤ p.1) ?_ ?_
  · rw [key, Option.some.injEq, Prod.mk.injEq]
    have one : ∀ (β : Type) (g : Events → List β) (hg : ∀ b (es : List PoolEvent), g (toldEvents pool b es) =
          es.flatMap fun e => g (toldEvents pool b [e])),
        (ps.flatMap fun p => p.2.map fun e => (p.1, e)).flatMap (fun p => g (toldEvents pool p.1 [p.2])) =
          (old ++ new).flatMap fun b => g b.events := by
      intro β g hg
      generalize old ++ new = bs at hev
      clear hw hlogs hold hnew key
      induction hev with
      | nil => rfl
      | @cons b p bs ps hb _ ih =>
        rw [List.flatMap_cons, List.flatMap_append, ih, List.flatMap_cons, hb, hg, List.flatMap_map]
    constructor
    · rw [filter_flatMap_block n (fun p => (toldEvents pool p.1 [p.2]).subs) (fun e => e.block),
        one SubEvent (·.subs)]
      · intro b es
        induction es with
        | nil => rfl
        | cons e es ih => rw [List.flatMap_cons, ← ih]; cases e <;> rfl
      · rintro ⟨b, e⟩ x hx
        cases e <;> simp [toldEvents] at hx
        rw [hx]
    · rw [filter_flatMap_block n (fun p => (toldEvents pool p.1 [p.2]).unsubs) (fun e => e.block),
        one UnsubEvent (·.unsubs)]
      · intro b es
        induction es with
        | nil => rfl
        | cons e es ih => rw [List.flatMap_cons, ← ih]; cases e <;> rfl
      · rintro ⟨b, e⟩ x hx
        cases e <;> simp [toldEvents] at hx
        rw [hx]
  · have e : logs.filter (fun l => decide (l.address = pool ∧ n ≤ l.block)) =
        (logs.filter fun l => l.address = pool).filter fun l => n ≤ l.block := by
      rw [List.filter_filter]
      refine List.filter_congr fun l _ => ?_
      rw [Bool.eq_iff_iff]
      simp only [decide_eq_true_eq, Bool.and_eq_true]
      tauto
    rw [e, hlogs]
    clear hev hw hlogs hold hnew e
    induction ps with
    | nil => rfl
    | cons p ps ih =>
      rw [List.flatMap_cons, List.flatMap_cons, List.filter_append, List.filter_append, List.map_append, ih]
      congr 1
      rw [List.filter_map, List.filter_map, List.map_map]
      rfl
  · intro p hp
    have hp := (List.mem_filter.mp hp).1
    obtain ⟨q, hq, hp⟩ := List.mem_flatMap.mp hp
    obtain ⟨e, he, rfl⟩ := List.mem_map.mp hp
    exact hw q hq e he

open Sample in
/-- The example of `C111_hears` meets the hypotheses: block 99 is old, blocks 100 and 101 are not final yet. -/
example : LogsOf [{ miss 5 2 with events := toldEvents loggedPool 99 [.ban 9] }]
    [{ miss 6 2 with events := toldEvents loggedPool 100 loggedEvents },
      { miss 7 2 with events := toldEvents loggedPool 101 [.unban 3] }] 99
    fun n => some (tillHead loggedPool chainLogs n) := by
  refine C111_view (ps := [(99, [.ban 9]), (100, loggedEvents), (101, [.unban 3])])
    (.cons rfl (.cons rfl (.cons rfl .nil))) ?_ ?_ ?_ ?_
  · intro p hp
    simp only [List.mem_cons, List.not_mem_nil, or_false] at hp
    rcases hp with rfl | rfl | rfl
    · intro e he; rw [List.mem_singleton.mp he]; simp [PoolEvent.WF]
    · exact loggedEvents_WF
    · intro e he; rw [List.mem_singleton.mp he]; simp [PoolEvent.WF]
  · simp [chainLogs, loggedEvents, PoolEvent.log, loggedPool, loggedUser]
  · intro b hb x hx
    rw [List.mem_singleton.mp hb] at hx
    cases hx
  · intro b hb x hx
    simp only [List.mem_cons, List.not_mem_nil, or_false] at hb
    rcases hb with rfl | rfl
    · simp only [eventNumbers, toldEvents, loggedEvents] at hx
      simp at hx
      omega
    · cases hx

end Verif
