import Verif.Spec.Elsewhere
import Verif.Props.Refinement
import Verif.Props.Idle
import Verif.Props.View
import Verif.Props.Agreement
/-
C105: what has nothing to do with the pool changes nothing.
-/
namespace Verif
open VMap

theorem unbanned_nil (m : VMap) : unbanned m [] = m := by
  unfold unbanned
  simp

/-- cleaning up when everybody with a balance is still there -/
theorem clean_nobody {E : Env} {V : Nat → Nat → BVal} {slot : Nat} {cs : List (Nat × Nat)} {s s' : State} {l : List BVal} {t : Int}
    (h : CleanEffects E slot cs s l s' t) (hl : ∀ u ∈ l, u = V slot u.index) (hV : NobodyLeft V s.vals slot) :
    s' = s ∧ t = 0 := by
  induction h with
  | nil s => exact ⟨rfl, rfl⟩
  | keep _ _ ih => exact ih (fun u hu => hl u (by simp [hu])) hV
  | leaves h1 h2 h3 =>
    have := hV _ _ h2 h3
    rw [← hl _ (by simp), h1] at this; cases this
  | moves h1 h2 h3 =>
    have := hV _ _ h2 h3
    rw [← hl _ (by simp), h1] at this; cases this
  | creates h1 h2 h3 =>
    have := hV _ _ h2 h3
    rw [← hl _ (by simp), h1] at this; cases this

section
variable {E : Env} {V : Nat → Nat → BVal} {K : Nat → List (Nat × Nat)}
  (hE : ValidEnv E) (hX : ExactEnv E) (hC : NoSelfConsol E) (hR : ReadsChain V K E)
include hE hX hC hR

/-- **C105**, one slot: see `C105_elsewhere`. -/
theorem C105_slot {cfg : Config} {bs0 : List FullBlock} {o o' : Oracle} {b : FullBlock} {n : Nat}
    (h0 : Hist E (newOracle cfg) bs0 o) (hg : GasOK b) (hb : NoConcern o.cfg.poolAddr o.st.vals b)
    (hV : b.dutySlot % 1200 = 0 → NobodyLeft V o.st.vals b.dutySlot) (h : advanceState E o b = .ok (o', some n)) :
    o'.cfg = o.cfg ∧ ∃ t, o'.st = { o.st with
      tick := t
      latestSlot := n
      nextSlot := u64 (n + 1)
      latestBlock := match b.cons with | some c => c.number | none => o.st.latestBlock } := by
  obtain ⟨⟨e1, e2, e3, e4, e5, e6⟩, hu, ho⟩ := hb
  obtain ⟨s7, s8, hs, hc1, hc2, hn, hn', hend⟩ := C60_slot_refines hE hX hC h0 h hg
  obtain ⟨_, _, _, _, _, _, _, _, _, _, _, _, hfee⟩ := slot_frame h
  have hfee : o'.st.fee = o.st.fee ∧ o'.cfg.fee = o.cfg.fee := by
    rcases hfee with ⟨f1, f2, _⟩ | ⟨f, f1, _⟩
    · exact ⟨f1, f2⟩
    · rw [e6] at f1; cases f1
  rw [hfee.1, e1, e2, e3, List.append_nil, List.append_nil, List.append_nil] at hs
  have hs7 : s7 = o.st := by
    obtain ⟨s1, s2, s3, dons, s4, s5, tot, s6, k1, k2, k3, k4, k5, k6, k7, k8⟩ := hs
    rw [e2] at k1
    rw [e3] at k3
    rw [e4] at k6
    rw [e5, unbanned_nil] at k8
    simp only [List.zip_nil_left] at k1 k3
    cases k1
    cases k3
    cases k6
    have hd : dons = [] := by
      by_cases hc : b.cons = none
      · exact k4.missed hc
      by_cases hx : ∃ x, BuilderPaid b o.cfg.poolAddr x
      · obtain ⟨x, hx⟩ := hx
        rw [k4.builder x hx, e1]; rfl
      · rw [k4.other hc (fun x h => hx ⟨x, h⟩), e1]
    subst hd
    cases k5
    have h2 : s2 = o.st := by
      cases k2 with
      | missed _ h2 h3 => exact absurd h3 (ho _ h2)
      | outsider => rfl
      | elsewhere _ _ h2 h3 => exact absurd h3 (ho _ h2)
      | pays h1 => exact absurd h1 hu
      | noAddress h1 => exact absurd h1 hu
    rcases k7 with ⟨hpos, _⟩ | ⟨_, rfl⟩
    · exact absurd hpos (by decide)
    · rw [k8, h2]
  have hs8 : ∃ t, s8 = { o.st with tick := t } := by
    by_cases hm : n % 1200 = 0
    · have hcl := hc1 hm
      rw [hs7] at hcl
      have hNL : NobodyLeft V o.st.vals n := by rw [hn']; exact hV (by rw [← hn']; exact hm)
      cases hcl with
      | early _ => exact ⟨o.st.tick, rfl⟩
      | empty _ => exact ⟨o.st.tick, rfl⟩
      | done h1 h2 h3 h4 h5 h6 h7 h8 =>
        obtain ⟨g1, g2⟩ := clean_nobody (V := V) h7
          (fun u hu => hR.node _ _ _ _ h4 u (h6.mem_iff.mp hu)) hNL
        rcases h8 with ⟨hne, _⟩ | ⟨_, rfl⟩
        · exact absurd g2 hne
        · exact ⟨o.st.tick + 2, g1⟩
    · exact ⟨o.st.tick, by rw [hc2 hm, hs7]⟩
  obtain ⟨t, hs8⟩ := hs8
  constructor
  · rw [hend, hfee.2]
  · refine ⟨t, ?_⟩
    have := congrArg Oracle.st hend
    rw [hs8] at this
    exact this

/-- **C105.** What has nothing to do with the pool changes nothing. The oracle processes any number of blocks without an
event of the contract, by proposers who are not subscribed and whose reward did not go to the pool, while everybody
with a pending balance stays active on the chain: no record of a validator, no balance, no setting and none of the
lists changes; only the position on the chain does. -/
theorem C105_elsewhere {cfg : Config} {bs0 bs : List FullBlock} {o o' : Oracle}
    (h0 : Hist E (newOracle cfg) bs0 o) (hg : ∀ b ∈ bs, GasOK b)
    (hb : ∀ b ∈ bs, NoConcern o.cfg.poolAddr o.st.vals b)
    (hV : ∀ b ∈ bs, b.dutySlot % 1200 = 0 → NobodyLeft V o.st.vals b.dutySlot) (h : Hist E o bs o') :
    SameButSlot o' o := by
  induction h generalizing bs0 with
  | nil => exact ⟨rfl, rfl⟩
  | cons ha hr ih =>
    rename_i q b q1 n l q2
    obtain ⟨k1, t, k2⟩ := C105_slot hE hX hC hR h0 (hg b (by simp)) (hb b (by simp)) (hV b (by simp)) ha
    have hv : q1.st.vals = q.st.vals := by rw [k2]
    obtain ⟨g1, g2⟩ := ih (h0.snoc ha) (fun b hb => hg b (by simp [hb]))
      (by rw [k1, hv]; exact fun c hc => hb c (by simp [hc])) (by rw [hv]; exact fun c hc => hV c (by simp [hc]))
    refine ⟨g1.trans k1, g2.trans ?_⟩
    rw [k2]

end

/-- C105 applies to a cleanup slot missed by an outsider, followed by a block of another outsider: the validators are
the same as before, the proposer of the first block among them with a balance -/
example : ∃ o o', Hist Sample.env (newOracle { Sample.cfg with depSlot := 12001199 })
      [Sample.prop 12001199 1 Sample.builder (Sample.tx Sample.builder Sample.pool 5000)
        { ether := [⟨5000, Sample.pool, 100⟩, ⟨300, Sample.pool, 100⟩] }] o ∧
    Hist Sample.env o [Sample.miss 12001200 8,
      Sample.prop 12001201 77 Sample.builder (Sample.tx Sample.builder (Sample.addr 77) 900) {}] o' ∧
    SameButSlot o' o ∧ (VMap.get o'.st.vals 1).map (·.pend) = some 279 ∧ o'.st.nextSlot = 12001202 := by
  obtain ⟨o, h, hp⟩ := Sample.ex_hist (E := Sample.env) (o := newOracle { Sample.cfg with depSlot := 12001199 })
    (bs := [Sample.prop 12001199 1 Sample.builder (Sample.tx Sample.builder Sample.pool 5000)
        { ether := [⟨5000, Sample.pool, 100⟩, ⟨300, Sample.pool, 100⟩] }])
    (P := fun o => decide (o.st.vals.map (·.1) = [1] ∧ o.cfg.poolAddr = Sample.pool) &&
      (Sample.run Sample.env o [Sample.miss 12001200 8,
        Sample.prop 12001201 77 Sample.builder (Sample.tx Sample.builder (Sample.addr 77) 900) {}]).any fun (o' : Oracle) =>
        decide ((VMap.get o'.st.vals 1).map (·.pend) = some 279 ∧ o'.st.nextSlot = 12001202)) (by decide +kernel)
  rw [Bool.and_eq_true, decide_eq_true_eq] at hp
  obtain ⟨⟨hk, hpool⟩, hp⟩ := hp
  obtain ⟨o', h', hq⟩ := Sample.ex_hist hp
  rw [decide_eq_true_eq] at hq
  have hout : ∀ {i v}, VMap.get o.st.vals i = some v → i = 1 := by
    intro i v hv
    have : i ∈ o.st.vals.map (·.1) := (get_isSome_iff _ _).mp (by rw [hv]; rfl)
    rw [hk] at this
    simpa using this
  refine ⟨o, o', h, h', C105_elsewhere Sample.env_valid Sample.env_exact Sample.env_noSelf
    (Sample.reads_of (F := Sample.env) rfl rfl) h ?_ ?_ ?_ h', hq⟩
  · intro b hb
    simp only [List.mem_cons, List.not_mem_nil, or_false] at hb
    rcases hb with rfl | rfl
    · intro c h rs hc; cases hc
    · exact Sample.prop_gas
  · intro b hb
    simp only [List.mem_cons, List.not_mem_nil, or_false] at hb
    rw [hpool]
    rcases hb with rfl | rfl
    · exact ⟨⟨rfl, rfl, rfl, rfl, rfl, rfl⟩, (by rintro ⟨c, hc, _⟩; cases hc), fun v hv => absurd (hout hv) (by decide)⟩
    · exact ⟨⟨rfl, rfl, rfl, rfl, rfl, rfl⟩, Sample.later_unpaid (vs := []) (vu := []) (by decide) rfl,
        fun v hv => absurd (hout hv) (by decide)⟩
  · intro b _ _ i v hv _
    rw [hout hv]
    rfl

end Verif
