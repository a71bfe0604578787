import Verif.Props.Tip
/-
C40, exactly: which blocks have a computed tip, and which inconsistency is not reported.
-/
namespace Verif

/-- The receipt belongs to the transaction, and the transaction is of a known kind. -/
def Fits (t : Option Tx) (r : Receipt) : Prop := ∃ tx, t = some tx ∧ tx.hash = r.txHash ∧ tx.type ≤ 4

theorem tipLoop_step {base : Int} {tx : Tx} {txs : List (Option Tx)} {r : Receipt} {rs : List Receipt} {acc : Int}
    (h : Fits (some tx) r) :
    ∃ acc', tipLoop base (some tx :: txs) (r :: rs) acc = tipLoop base txs rs acc' := by
  obtain ⟨t, e, h1, h2⟩ := h
  cases e
  simp only [tipLoop]
  rw [if_neg (not_not.mpr h1)]
  split
  · exact ⟨_, rfl⟩
  · rw [if_pos (by omega)]; exact ⟨_, rfl⟩

theorem tipLoop_fits {base : Int} {txs : List (Option Tx)} {rs : List Receipt} {acc : Int}
    (h : List.Forall₂ Fits txs rs) : ∃ x, tipLoop base txs rs acc = .val x := by
  induction h generalizing acc with
  | nil => exact ⟨_, rfl⟩
  | @cons t r txs rs h _ ih =>
    obtain ⟨tx, rfl, _⟩ := id h
    obtain ⟨a, e⟩ := tipLoop_step (base := base) (txs := txs) (rs := rs) (acc := acc) h
    rw [e]; exact ih

/-- The first receipt that does not fit belongs to another transaction. -/
def FirstMismatch (txs : List (Option Tx)) (rs : List Receipt) : Prop :=
  ∃ txs1 tx txs2 rs1 r rs2, txs = txs1 ++ some tx :: txs2 ∧ rs = rs1 ++ r :: rs2 ∧
    List.Forall₂ Fits txs1 rs1 ∧ tx.hash ≠ r.txHash

theorem tipLoop_nil_iff {base : Int} {txs : List (Option Tx)} {rs : List Receipt} {acc : Int} :
    tipLoop base txs rs acc = .nil ↔ FirstMismatch txs rs := by
  constructor
  · intro h
    induction txs generalizing rs acc with
    | nil => simp [tipLoop] at h
    | cons t txs ih =>
      cases t with
      | none => simp [tipLoop] at h
      | some tx =>
        cases rs with
        | nil => simp [tipLoop] at h
        | cons r rs =>
          simp only [tipLoop] at h
          split at h
          · rename_i hh
            exact ⟨[], tx, txs, [], r, rs, rfl, rfl, .nil, hh⟩
          · rename_i hh
            have key : ∀ a, tipLoop base txs rs a = .nil → tx.type ≤ 4 → FirstMismatch (some tx :: txs) (r :: rs) := by
              intro a ha ht
              obtain ⟨t1, x, t2, r1, y, r2, e1, e2, e3, e4⟩ := ih ha
              exact ⟨some tx :: t1, x, t2, r :: r1, y, r2, by rw [e1]; rfl, by rw [e2]; rfl,
                .cons ⟨tx, rfl, not_not.mp hh, ht⟩ e3, e4⟩
            split at h
            · exact key _ h (by omega)
            · split at h
              · exact key _ h (by omega)
              · simp at h
  · rintro ⟨t1, x, t2, r1, y, r2, rfl, rfl, e3, e4⟩
    induction e3 generalizing acc with
    | nil => simp [tipLoop, e4]
    | @cons t r txs rs h _ ih =>
      obtain ⟨tx, rfl, _⟩ := id h
      obtain ⟨a, e⟩ := tipLoop_step (base := base) (txs := txs ++ some x :: t2) (rs := rs ++ y :: r2) (acc := acc) h
      simp only [List.cons_append]
      rw [e]; exact ih

/-- **C40**, exactly. For a block since the merge, the computation of the tip ends without crash, and
* gives a number if and only if header and receipts are there and every receipt belongs to its transaction, all of
  known kinds;
* gives neither number nor error if and only if they are there in the right number and the first receipt that does
  not fit belongs to another transaction;
* reports an error in all other cases. -/
theorem C40_exact {b : FullBlock} {c : ConsBlock} (hc : b.cons = some c) (hf : c.fork ≠ .phase0 ∧ c.fork ≠ .altair) :
    ((∃ x, proposerTip b = .ok (.val x)) ↔
      ∃ hd rs, b.header = some hd ∧ b.receipts = some rs ∧ List.Forall₂ Fits c.txs rs) ∧
    (proposerTip b = .ok .nil ↔
      ∃ hd rs, b.header = some hd ∧ b.receipts = some rs ∧ c.txs.length = rs.length ∧ FirstMismatch c.txs rs) ∧
    (proposerTip b = .ok .err ↔ ∀ hd rs, b.header = some hd → b.receipts = some rs →
      ¬ List.Forall₂ Fits c.txs rs ∧ ¬ (c.txs.length = rs.length ∧ FirstMismatch c.txs rs)) := by
  have hex : ∀ {α : Type} (f : ConsBlock → α), c.exec f = .ok (f c) := by
    intro α f
    unfold ConsBlock.exec
    split <;> simp_all
  cases hr : b.receipts with
  | none =>
    have : proposerTip b = .ok .err := by unfold proposerTip; rw [hr]
    rw [this]; simp
  | some rs =>
    cases hh : b.header with
    | none =>
      have : proposerTip b = .ok .err := by unfold proposerTip; rw [hr, hh]
      rw [this]; simp
    | some hd =>
      by_cases hl : c.txs.length = rs.length
      · have e : proposerTip b = match tipLoop hd.baseFee c.txs rs 0 with
            | .err => .ok .err
            | .nil => .ok .nil
            | .val tips => .ok (.val (tips - i64 c.gasUsed * setBytes (baseFeeBytes c).reverse)) := by
          unfold proposerTip
          rw [hr, hh, hc]
          simp only [hex, bind, Except.bind]
          rw [if_neg (not_not.mpr hl)]
          rfl
        have e1 : (∃ x, tipLoop hd.baseFee c.txs rs 0 = .val x) ↔ List.Forall₂ Fits c.txs rs :=
          ⟨fun ⟨x, hx⟩ => tipLoop_consistent hx hl, tipLoop_fits⟩
        have e2 := tipLoop_nil_iff (base := hd.baseFee) (txs := c.txs) (rs := rs) (acc := 0)
        cases ht : tipLoop hd.baseFee c.txs rs 0 with
        | err => rw [ht] at e e1 e2; rw [e]; simp at e1 e2; simp [e1, e2]
        | nil => rw [ht] at e e1 e2; rw [e]; simp at e1 e2; simp [e1, e2, hl]
        | val x => rw [ht] at e e1 e2; rw [e]; simp at e1 e2; simp [e1, e2]
      · have e : proposerTip b = .ok .err := by
          unfold proposerTip
          rw [hr, hh, hc]
          simp only [hex, bind, Except.bind]
          rw [if_pos hl]
        have : ¬ List.Forall₂ Fits c.txs rs := fun h => hl h.length_eq
        rw [e]; simp [this, hl]

/-- the block of `C40_false_mismatch_not_reported` is of the second kind, an ordinary one of the first -/
example : FirstMismatch (((mismatched.cons).map (·.txs)).getD []) ((mismatched.receipts).getD []) ∧
    List.Forall₂ Fits (((Sample.b1.cons).map (·.txs)).getD []) ((Sample.b1.receipts).getD []) :=
  ⟨⟨[], _, [], [], _, [], rfl, rfl, .nil, by decide⟩, .cons ⟨_, rfl, rfl, by decide⟩ .nil⟩

end Verif
