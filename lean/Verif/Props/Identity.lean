import Verif.Lemmas.Money
import Verif.Spec.Sample
/-
C18, C19: identity of tracked validators.
-/
namespace Verif
open VMap

theorem wellFormed_hex {addr : List Nat} (hl : addr.length = 20) (hb : ∀ x ∈ addr, x < 256) :
    WellFormed (b!"0x" ++ hexEncode addr) := by
  refine ⟨hexEncode addr, rfl, by rw [hexEncode_length, hl], ?_⟩
  have hdig : ∀ d, d < 16 → (48 ≤ hexDigit d ∧ hexDigit d ≤ 57) ∨ (97 ≤ hexDigit d ∧ hexDigit d ≤ 102) := by
    intro d hd; unfold hexDigit; split <;> omega
  clear hl
  induction addr with
  | nil => intro c hc; cases hc
  | cons a addr ih =>
    intro c hc
    simp only [hexEncode, List.mem_cons] at hc
    have ha := hb a (by simp)
    rcases hc with rfl | rfl | hc
    · exact hdig _ (by omega)
    · exact hdig _ (by omega)
    · exact ih (fun x hx => hb x (by simp [hx])) c hc

theorem wellFormed_hasAddress {creds w} (h : HasAddress creds w) (hb : ∀ x ∈ creds, x < 256) :
    WellFormed w := by
  obtain ⟨p, addr, _, hl, rfl, rfl⟩ := h
  exact wellFormed_hex hl (fun x hx => hb x (by simp [hx]))

/-- the withdrawal address of a summarized pool block -/
theorem summarize_waddr {s b pool sb} (h : summarize s b pool = .ok sb) (ht : sb.type = .okPool) :
    HasAddress b.validator.creds sb.waddr := by
  unfold summarize at h
  rw [bind_ok] at h
  obtain ⟨⟨w, wt⟩, hw, h⟩ := h
  simp only at h
  split at h
  · simp only [Except.ok.injEq] at h; rw [← h] at ht; simp at ht
  · simp only [bind_ok] at h
    obtain ⟨p, hp, ⟨r, tp, rt⟩, hsr, nb, hnb, h⟩ := h
    simp only [Except.ok.injEq] at h
    rw [← h] at ht ⊢
    simp only at ht ⊢
    rw [← compatAddressByte_iff]
    have hwt : wt ≠ .bls := by
      intro e; rw [e] at ht; cases tp <;> simp at ht
    unfold withdrawalAndType at hw
    simp only at hw
    unfold compatAddressByte compatAddress
    split at hw
    · simp at hw
    · rename_i hl
      rw [if_neg hl]
      split at hw
      · simp only [Except.ok.injEq, Prod.mk.injEq] at hw; exact absurd hw.2.symm hwt
      · split at hw
        · rename_i h1
          simp only [Except.ok.injEq, Prod.mk.injEq] at hw
          have : hasPrefix eth1Prefix (hexEncode b.validator.creds) = true := by
            unfold isEth1Type at h1; simp only [Bool.and_eq_true] at h1; exact h1.2
          rw [this, ← hw.1]; rfl
        · split at hw
          · rename_i h1
            simp only [Except.ok.injEq, Prod.mk.injEq] at hw
            have : hasPrefix electraPrefix (hexEncode b.validator.creds) = true := by
              unfold isElectraType at h1; simp only [Bool.and_eq_true] at h1; exact h1.2
            rw [this, Bool.or_true, ← hw.1]; rfl
          · simp only [Except.ok.injEq, Prod.mk.injEq] at hw; exact absurd hw.2.symm hwt

/-- **C18.** Over any history a tracked validator stays tracked, and the index, withdrawal address,
public key and collateral recorded for it never change. -/
theorem C18_identity_stable {E : Env} (hE : ValidEnv E) (hX : ExactEnv E) (hC : NoSelfConsol E)
    {o o' : Oracle} {bs : List FullBlock} (hs : MapOK o.st) (h : Hist E o bs o') :
    ∀ i v, VMap.get o.st.vals i = some v → ∃ v', VMap.get o'.st.vals i = some v' ∧
      v'.index = v.index ∧ v'.waddr = v.waddr ∧ v'.key = v.key ∧ v'.coll = v.coll := by
  induction h with
  | nil => exact fun i v hv => ⟨v, hv, rfl, rfl, rfl, rfl⟩
  | @cons o b o1 n bs o2 hstep _ ih =>
    obtain ⟨sb, dons, r, ops, _, _, _, _, hp, _⟩ := slot_runs (x := False) hE hX hC hs
      (fun hf => hf.elim) hstep
    intro i v hv
    obtain ⟨v1, h1, e1, e2, e3, e4⟩ := hp.lift
      (fun a b => b.index = a.index ∧ b.waddr = a.waddr ∧ b.key = a.key ∧ b.coll = a.coll)
      (fun _ => ⟨rfl, rfl, rfl, rfl⟩)
      (fun a b c h1 h2 => ⟨h2.1.trans h1.1, h2.2.1.trans h1.2.1, h2.2.2.1.trans h1.2.2.1,
        h2.2.2.2.trans h1.2.2.2⟩)
      (fun _ => True) (fun _ _ => trivial)
      (fun op f a b _ hv => by cases hv <;> exact ⟨rfl, rfl, rfl, rfl⟩) hv
    obtain ⟨v2, h2, f1, f2, f3, f4⟩ := ih (hp.sorted hs) i v1 h1
    exact ⟨v2, h2, f1.trans e1, f2.trans e2, f3.trans e3, f4.trans e4⟩

/-- Three slots later, validator 2, subscribed in the first block, is still tracked. -/
example : ∃ o, Hist Sample.env (newOracle Sample.cfg) [Sample.b0] o ∧
    (VMap.get o.st.vals 2).isSome ∧
    Hist Sample.env o [Sample.b1, Sample.b2, Sample.b3] Sample.final := by
  have h := Sample.hist
  unfold Sample.blocks at h
  cases h with
  | @cons _ _ o1 n _ _ h1 h2 =>
    refine ⟨o1, .cons h1 (.nil _), ?_, h2⟩
    obtain ⟨o', n', h3, h4⟩ := Sample.ex_slot (E := Sample.env) (o := newOracle Sample.cfg)
      (b := Sample.b0) (P := fun o => (VMap.get o.st.vals 2).isSome) (by decide +kernel)
    rw [h1] at h3
    simp only [Except.ok.injEq, Prod.mk.injEq] at h3
    rw [h3.1]; exact h4

/-- **C19.** Every withdrawal address the oracle records is a lower-case, 0x-prefixed string of 40
hexadecimal digits, and every record is stored under its own index. -/
theorem C19_addresses_well_formed {E : Env} (hE : ValidEnv E) (hX : ExactEnv E)
    (hC : NoSelfConsol E) (hG : GoBytes E) {cfg : Config} {bs : List FullBlock} {o' : Oracle}
    (hb : ∀ b ∈ bs, BytesOK b) (h : Hist E (newOracle cfg) bs o') :
    ∀ i v, VMap.get o'.st.vals i = some v → WellFormed v.waddr ∧ v.index = i := by
  have key : ∀ {o bs o'}, Hist E o bs o' → MapOK o.st → (∀ b ∈ bs, BytesOK b) →
      (∀ i v, VMap.get o.st.vals i = some v → WellFormed v.waddr ∧ v.index = i) →
      ∀ i v, VMap.get o'.st.vals i = some v → WellFormed v.waddr ∧ v.index = i := by
    intro o bs o' h
    induction h with
    | nil => exact fun _ _ h => h
    | @cons o b o1 n bs o2 hstep _ ih =>
      intro hs hb h0
      obtain ⟨sb, dons, r, ops, k1, _, _, _, hp, _, hcause, _⟩ := slot_runs (x := False) hE hX hC hs
        (fun hf => hf.elim) hstep
      refine ih (hp.sorted hs) (fun c hc => hb c (by simp [hc])) ?_
      refine hp.inv (fun i v => WellFormed v.waddr ∧ v.index = i) _ hcause ?_ ?_ h0
      · intro i op f v v' _ hv hw
        cases hv <;> exact hw
      · intro i u hcr _ _ _ hidx
        refine ⟨?_, hidx⟩
        have hbb := hb b (by simp)
        rcases hcr with ⟨ev, w, v, ⟨hmem, _, _, _, hadr, _⟩, _, hw, _⟩ | ⟨ht, _, hw, _⟩ |
          ⟨_, t, req, r, v, w, hn, hv, _, hadr, hw, _⟩
        · rw [hw]
          exact wellFormed_hasAddress hadr (hbb.2 v (List.of_mem_zip hmem).2)
        · rw [hw]
          exact wellFormed_hasAddress (summarize_waddr k1 ht) hbb.1
        · rw [hw]
          exact wellFormed_hasAddress hadr (hG _ _ _ _ hn v hv)
  exact key h List.Pairwise.nil hb (by intro i v hv; simp [newOracle, VMap.get] at hv)

theorem Sample.creds_lt (i : Nat) : ∀ x ∈ Sample.creds i, x < 256 := by
  intro x hx
  simp only [Sample.creds, List.mem_cons, List.mem_append, List.mem_replicate] at hx
  rcases hx with rfl | ⟨_, rfl⟩ | ⟨_, rfl⟩ <;> omega

theorem Sample.env_bytes : GoBytes Sample.env := by
  intro t slot req r h v hv
  rw [Sample.env_node h] at hv
  obtain ⟨i, _, rfl⟩ := List.mem_map.mp hv
  split <;> exact Sample.creds_lt _

theorem Sample.blocks_bytes : ∀ b ∈ Sample.blocks, BytesOK b := by
  intro b hb
  simp only [Sample.blocks, List.mem_cons, List.not_mem_nil, or_false] at hb
  rcases hb with rfl | rfl | rfl | rfl
  · refine ⟨Sample.creds_lt 1, ?_⟩
    intro v hv
    simp only [Sample.b0, List.mem_singleton, Option.some.injEq] at hv
    subst hv; exact Sample.creds_lt 2
  · exact ⟨Sample.creds_lt 2, fun v hv => by cases hv⟩
  · exact ⟨Sample.creds_lt 2, fun v hv => by cases hv⟩
  · exact ⟨Sample.creds_lt 1, fun v hv => by cases hv⟩

example : (∀ b ∈ Sample.blocks, BytesOK b) ∧ GoBytes Sample.env ∧
    Hist Sample.env (newOracle Sample.cfg) Sample.blocks Sample.final ∧
    (VMap.get Sample.final.st.vals 2).map (·.waddr) =
      some b!"0x0202020202020202020202020202020202020202" :=
  ⟨Sample.blocks_bytes, Sample.env_bytes, Sample.hist, by decide +kernel⟩

end Verif
