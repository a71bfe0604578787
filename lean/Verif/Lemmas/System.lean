import Verif.Props.Pool
import Verif.Spec.System
/-
Lemmas for the system of several oracles and the contract: what a step of a member does, and the invariants of
the contract and of the members.
-/
namespace Verif

/-- how far this place of the loop is from being back at the top -/
def Pc.rank : Pc → Nat
  | .top => 0
  | .save _ => 1
  | .confirm _ => 2
  | .submit _ => 3
  | .decide _ => 4
  | .pause _ => 5
  | .vote _ => 6
  | .processed => 7

/-- how far the oracle is from having dealt with slot `t` -/
def toDo (t : Nat) (l : Loop) : Nat := (t - l.o.st.latestSlot) * 8 + l.pc.rank

/-- the loop asks again -/
def Asks (A : Answers) (l : Loop) : Prop :=
  match l.pc with
  | .top => ∀ fin, A.sync = some true → A.finalized = some fin → fin < l.o.st.nextSlot
  | .vote f => A.report = some f.slot
  | .confirm f => A.chain ≠ some (f.root, f.slot)
  | _ => False

section
variable {cfg : Config} {L : Lib} {H : List Nat → List Nat} {E : Env}

theorem step_of (hH : HashOK H) (hc : GoodCfg cfg) (hE : GoodEnv cfg E) {A : Answers} {l l' : Loop}
    {evs : List LoopEv} (h : LiveInv H cfg l) (hA : Reliable cfg A l.o.st)
    (hs : stepLoop L H E A l = .ok (l', evs)) : LiveInv H cfg l' ∧ Moves A l l' evs := by
  obtain ⟨l2, evs2, h1, h2, h3⟩ := step_live (L := L) hH hc hE h hA
  rw [hs] at h1
  cases h1
  exact ⟨h2, h3⟩

/-- every step brings the oracle closer, or it asks again -/
theorem step_toDo {A : Answers} {l l' : Loop} {evs : List LoopEv} {t : Nat} (h : LiveInv H cfg l)
    (h' : LiveInv H cfg l') (hm : Moves A l l' evs) (ht : l.pc = .top → l.o.st.latestSlot < t) :
    toDo t l' < toDo t l ∨ (l'.pc = l.pc ∧ l'.o.st.latestSlot = l.o.st.latestSlot ∧ Asks A l) := by
  have e := h.kept.commit.next
  have e' := h'.kept.commit.next
  unfold Moves at hm
  unfold toDo Asks
  cases hp : l.pc with
  | top =>
    rw [hp] at hm
    have := ht hp
    rcases hm with ⟨h1, h2, _⟩ | ⟨h1, h2, h3⟩
    · left
      rw [h1]
      simp only [Pc.rank]
      omega
    · right
      exact ⟨h1, by omega, h3⟩
  | processed =>
    rw [hp] at hm
    obtain ⟨h1, h2 | ⟨f, h2⟩⟩ := hm
    · left
      have e : l'.o.st.latestSlot = l.o.st.latestSlot := by omega
      rw [e, h2]
      simp only [Pc.rank]
      omega
    · left
      have e : l'.o.st.latestSlot = l.o.st.latestSlot := by omega
      rw [e, h2]
      simp only [Pc.rank]
      omega
  | vote f =>
    rw [hp] at hm
    obtain ⟨h1, h2⟩ := hm
    have e : l'.o.st.latestSlot = l.o.st.latestSlot := by omega
    rcases h2 with ⟨h2, h3⟩ | ⟨h2, h3 | h3⟩
    · exact Or.inr ⟨h3, e, h2⟩
    · left; rw [e, h3]; simp only [Pc.rank]; omega
    · left; rw [e, h3]; simp only [Pc.rank]; omega
  | pause f =>
    rw [hp] at hm
    have e : l'.o.st.latestSlot = l.o.st.latestSlot := by omega
    left; rw [e, hm.2]; simp only [Pc.rank]; omega
  | decide f =>
    rw [hp] at hm
    have e : l'.o.st.latestSlot = l.o.st.latestSlot := by omega
    rcases hm.2 with h2 | h2
    · left; rw [e, h2]; simp only [Pc.rank]; omega
    · left; rw [e, h2]; simp only [Pc.rank]; omega
  | submit f =>
    rw [hp] at hm
    have e : l'.o.st.latestSlot = l.o.st.latestSlot := by omega
    left; rw [e, hm.2]; simp only [Pc.rank]; omega
  | confirm f =>
    rw [hp] at hm
    have e : l'.o.st.latestSlot = l.o.st.latestSlot := by omega
    rcases hm.2 with ⟨h2, h3⟩ | ⟨h2, h3⟩
    · left; rw [e, h3]; simp only [Pc.rank]; omega
    · exact Or.inr ⟨h3, e, h2⟩
  | save f =>
    rw [hp] at hm
    have e : l'.o.st.latestSlot = l.o.st.latestSlot := by omega
    left; rw [e, hm.2]; simp only [Pc.rank]; omega

/-- at a checkpoint with data the oracle does not go back to the top -/
theorem processed_top {A : Answers} {l l' : Loop} {evs : List LoopEv} (hE : ValidEnv E) (h : LiveInv H cfg l)
    (hc : GoodCfg cfg) (hp : l.pc = .processed) (hs : stepLoop L H E A l = .ok (l', evs)) (ht : l'.pc = .top) :
    (l.o.st.latestSlot - cfg.depSlot) % cfg.cpSize ≠ 0 ∨ l.o.st.vals = [] := by
  obtain ⟨hw, hst, hpl⟩ := h
  have hci := hw.config
  have hfees : l.o.st.poolFeesAddr = cfg.poolFeesAddr := by
    rw [hci.same.poolFeesAddr, hci.cfg_eq]
  have hpool : l.o.st.poolAddr = cfg.poolAddr := by
    rw [hci.same.poolAddr, hci.cfg_eq]
  have ecp : l.o.cfg.cpSize = cfg.cpSize := by rw [hci.cfg_eq]
  have edep : l.o.cfg.depSlot = cfg.depSlot := by rw [hci.cfg_eq]
  by_contra hn
  rw [not_or, not_not] at hn
  obtain ⟨h1, h2⟩ := hn
  unfold stepLoop at hs
  rw [hp] at hs
  dsimp only at hs
  simp only [bind_ok] at hs
  obtain ⟨_, _, hs⟩ := hs
  unfold stepProcessed at hs
  simp only [bind_ok] at hs
  obtain ⟨r, hr, hs⟩ := hs
  unfold isCheckpoint at hr
  rw [ecp, edep, h1] at hr
  obtain ⟨s, e, hf, hen⟩ := C24_checkpoint_possible (H := H) hE (s := { l.o.st with tick := l.o.st.tick + 1 })
    ⟨fun p hp => wellFormed_isAddress (hst.owners p hp).1, by dsimp only; rw [hfees]; exact hc.feesAddr,
      fun p hp => by dsimp only; rw [hpool]; exact (hst.owners p hp).2.1⟩
  have he := hen.mpr h2
  subst he
  split at hr
  · cases hr; cases hs
  · split at hr
    · cases hr; cases hs
    · split at hr
      · cases hr
      · cases hr
        simp only [decide_true] at hs
        simp only [bind_ok] at hs
        obtain ⟨ok, _, hs⟩ := hs
        split at hs
        · cases hs
        · rw [hf] at hs
          simp only [bind_val, Bool.not_true, Bool.false_eq_true, if_false] at hs
          split at hs
          · cases hs
          · cases hs
            cases ht

theorem decide_step {A : Answers} {l l' : Loop} {evs : List LoopEv} {f : Frozen} {r : Str} {c : Nat}
    (h : LiveInv H cfg l) (hp : l.pc = .decide f) (hch : A.chain = some (r, c)) (hsm : c + cfg.cpSize < 2 ^ 64)
    (hd : cfg.dryRun = false) (hs : stepLoop L H E A l = .ok (l', evs)) :
    (l'.pc = .submit f ∧ f.slot = c + cfg.cpSize) ∨ (l'.pc = .save f ∧ f.slot ≠ c + cfg.cpSize) := by
  have hci := h.kept.config
  have ecp : l.o.cfg.cpSize = cfg.cpSize := by rw [hci.cfg_eq]
  have edr : l.o.cfg.dryRun = false := by rw [hci.cfg_eq]; exact hd
  unfold stepLoop at hs
  rw [hp] at hs
  dsimp only at hs
  rw [hch] at hs
  dsimp only at hs
  rw [ecp, edr] at hs
  have hu : u64 (c + cfg.cpSize) = c + cfg.cpSize := Nat.mod_eq_of_lt hsm
  rw [hu] at hs
  split at hs
  · rename_i hx
    cases hs
    exact Or.inl ⟨rfl, hx.2⟩
  · rename_i hx
    cases hs
    exact Or.inr ⟨rfl, fun e => hx ⟨rfl, e⟩⟩

theorem place_slot {l : Loop} {f : Frozen} (h : LiveInv H cfg l)
    (hp : l.pc = .vote f ∨ l.pc = .pause f ∨ l.pc = .decide f ∨ l.pc = .submit f ∨ l.pc = .confirm f) :
    f.slot = l.o.st.latestSlot := by
  have hpl := h.place
  have : (l.o.st.latestSlot, f) ∈ l.o.st.committed := by
    rcases hp with e | e | e | e | e <;> (rw [e] at hpl; exact hpl)
  exact (h.kept.commit.entry _ this).1

end

/-- the root of the books at this slot -/
def BooksRoot (T : Chain) (V : Nat → Nat → BVal) (K : Nat → List (Nat × Nat)) (H : List Nat → List Nat)
    (cfg : Config) (s : Nat) (r : Str) : Prop :=
  ∃ q f, BooksAt T V K cfg s q ∧ FrozenOf H q.st f ∧ f.root = r

section
variable {T : Chain} {V : Nat → Nat → BVal} {K : Nat → List (Nat × Nat)} {H : List Nat → List Nat} {cfg : Config}

theorem booksRoot_unique (hA : ∀ n, n % 1200 = 0 → ActiveTargets V K n) (hg : GoodCfg cfg) (hC : SafeFetch cfg T)
    {s : Nat} {r r' : Str} (h : BooksRoot T V K H cfg s r) (h' : BooksRoot T V K H cfg s r') : r = r' := by
  obtain ⟨q, f, h1, h2, rfl⟩ := h
  obtain ⟨q', f', h1', h2', rfl⟩ := h'
  have hs := h1.unique hA hg hC h1'
  have hpf : q.st.poolFees = q'.st.poolFees := by have := congrArg State.poolFees hs.2; exact this
  have hpa : q.st.poolFeesAddr = q'.st.poolFeesAddr := by have := congrArg State.poolFeesAddr hs.2; exact this
  rw [frozenOf_unique h2' (h2.congr hs.latest.symm hs.vals.symm hpf.symm hpa.symm)]

/-- once somebody is tracked, somebody always is -/
theorem booksAt_vals (hg : GoodCfg cfg) (hC : SafeFetch cfg T) {s s' : Nat} (h0 : cfg.depSlot ≤ s + 1) (hs : s ≤ s')
    (hv : ∀ q, BooksAt T V K cfg s q → q.st.vals ≠ []) {q : Oracle} (h : BooksAt T V K cfg s' q) :
    q.st.vals ≠ [] := by
  obtain ⟨E, bs, h1, h2, h3, h4⟩ := h
  have hn := (Kept.start (H := id) hg.dep.1 hg.dep.2).commit.next
  have e : (newOracle cfg).st.nextSlot = cfg.depSlot := rfl
  obtain ⟨bs1, q1, k1, k2, k3⟩ := h3.back hg h1 hC (s := s) (by omega) (by omega)
  have b1 : BooksAt T V K cfg s q1 := ⟨E, bs1, h1, h2, k1, k2⟩
  have hne := hv q1 b1
  have hok := (b1.ok (H := id) hg hC).2
  obtain ⟨p, hp⟩ := List.exists_mem_of_ne_nil _ hne
  obtain ⟨v', g, _⟩ := k3.vals p.1 p.2 (VMap.Sorted.get_of_mem hok.map hp)
  intro hnil
  have := VMap.mem_of_get g
  rw [hnil] at this
  cases this

/-- the books of a living oracle -/
theorem life_books {P : Law} {L : Lib} (hP : P.Good) (hR : P.Reads V K) (hG : ∀ E, Obeys P E → GoodEnv cfg E)
    (hT : ChainTyped T) (hL : LibOK L) (hH : HashOK H) (hc : CfgTyped cfg) (hg : GoodCfg cfg) {tr : List LoopEv}
    {l : Loop} (h : Life P T L H cfg tr (.on l)) :
    (∃ q, BooksAt T V K cfg l.o.st.latestSlot q ∧ SameBooks q l.o) ∧
    ∀ f, l.pc.frozen = some f → BooksRoot T V K H cfg f.slot f.root := by
  obtain ⟨_, _, h1, h2⟩ := life_inv hP hT hL hH hc hg.dep.1 h
  refine ⟨?_, fun f hf => ?_⟩
  · obtain ⟨E, bs, q, w1, w2, w3⟩ := h1.whole
    exact ⟨q, ⟨E, bs, hG E w1, hR E w1, w2, w3.latest⟩, w3⟩
  · obtain ⟨q, ⟨E, bs, q0, w1, w2, w3⟩, hf, _⟩ := h2 f hf
    refine ⟨q0, f, ⟨E, bs, hG E w1, hR E w1, w2, ?_⟩, ?_, rfl⟩
    · rw [w3.latest, ← frozenOf_slot hf]
    · have hpf : q0.st.poolFees = q.st.poolFees := by have := congrArg State.poolFees w3.2; exact this
      have hpa : q0.st.poolFeesAddr = q.st.poolFeesAddr := by have := congrArg State.poolFeesAddr w3.2; exact this
      exact hf.congr w3.latest w3.vals hpf hpa

end

section
variable {ι : Type} [DecidableEq ι] {n cp : Nat}

theorem vote_cases {c c' : Contract ι} {i : ι} {s : Nat} {r : Str} (h : Vote n cp c i s r c') :
    (c' = c ∧ s ≠ c.slot + cp) ∨
    (s = c.slot + cp ∧ c' = { c with votes := Function.update c.votes i (some (s, r)) } ∧
      ¬ Quorum n (fun j s' r' => Function.update c.votes i (some (s, r)) j = some (s', r')) s r) ∨
    (s = c.slot + cp ∧ c' = ⟨r, s, fun _ => none⟩ ∧
      Quorum n (fun j s' r' => Function.update c.votes i (some (s, r)) j = some (s', r')) s r) := by
  cases h with
  | rejected h => exact Or.inl ⟨rfl, h⟩
  | counted h h' => exact Or.inr (Or.inl ⟨h, rfl, h'⟩)
  | accepted h h' => exact Or.inr (Or.inr ⟨h, rfl, h'⟩)

/-- what is true of the contract; `c0` is the slot it began with and `R` says which roots are right -/
structure ContractInv (R : Nat → Str → Prop) (dep c0 n cp : Nat) (honest : ι → Prop) (c : Contract ι) : Prop where
  ge : c0 ≤ c.slot
  aligned : dep ≤ c.slot + cp ∧ (c.slot + cp - dep) % cp = 0
  steps : (c.slot - c0) % cp = 0
  undecided : ∀ s r, ¬ Quorum n (fun j s r => c.votes j = some (s, r)) s r
  votes : ∀ i, honest i → ∀ s r, c.votes i = some (s, r) → s = c.slot + cp ∧ R s r
  root : c.slot = c0 ∨ R c.slot c.root

theorem ContractInv.vote {R : Nat → Str → Prop} {dep c0 : Nat} {honest : ι → Prop} {c c' : Contract ι} {i : ι}
    {s : Nat} {r : Str} (hfew : ∀ S : List ι, S.Nodup → (∀ i ∈ S, ¬ honest i) → S.length < n)
    (hi : honest i → R s r) (h : ContractInv R dep c0 n cp honest c) (hv : Vote n cp c i s r c') :
    ContractInv R dep c0 n cp honest c' := by
  rcases vote_cases hv with ⟨rfl, _⟩ | ⟨hs, rfl, hq⟩ | ⟨hs, rfl, hq⟩
  · exact h
  · refine ⟨h.ge, h.aligned, h.steps, ?_, ?_, h.root⟩
    · intro s' r' hq'
      dsimp only at hq'
      by_cases e : s' = s ∧ r' = r
      · obtain ⟨rfl, rfl⟩ := e
        exact hq hq'
      · obtain ⟨S, k1, k2, k3⟩ := hq'
        refine h.undecided s' r' ⟨S, k1, k2, fun j hj => ?_⟩
        have := k3 j hj
        dsimp only at this ⊢
        by_cases hj' : j = i
        · subst hj'
          rw [Function.update_self] at this
          simp only [Option.some.injEq, Prod.mk.injEq] at this
          exact absurd ⟨this.1.symm, this.2.symm⟩ e
        · rwa [Function.update_of_ne hj'] at this
    · intro j hj s' r' hv'
      dsimp only at hv' ⊢
      by_cases hj' : j = i
      · subst hj'
        rw [Function.update_self] at hv'
        simp only [Option.some.injEq, Prod.mk.injEq] at hv'
        obtain ⟨rfl, rfl⟩ := hv'
        exact ⟨hs, hi hj⟩
      · rw [Function.update_of_ne hj'] at hv'
        exact h.votes j hj s' r' hv'
  · subst hs
    refine ⟨?_, ⟨?_, ?_⟩, ?_, ?_, ?_, ?_⟩
    · have := h.ge; dsimp only; omega
    · have := h.aligned.1; dsimp only; omega
    · have h1 := h.aligned.1
      have h2 := h.aligned.2
      dsimp only
      have : c.slot + cp + cp - dep = (c.slot + cp - dep) + cp := by omega
      rw [this, Nat.add_mod_right]
      exact h2
    · have h1 := h.ge
      have h2 := h.steps
      dsimp only
      have : c.slot + cp - c0 = (c.slot - c0) + cp := by omega
      rw [this, Nat.add_mod_right]
      exact h2
    · rintro s' r' ⟨S, _, k2, k3⟩
      have h0 := hfew [] List.nodup_nil (fun _ h => by cases h)
      cases S with
      | nil => simp only [List.length_nil] at k2 h0; omega
      | cons j S => exact absurd (k3 j List.mem_cons_self) (by simp)
    · intro j _ s' r' hv'
      cases hv'
    · right
      dsimp only
      obtain ⟨S, k1, k2, k3⟩ := hq
      obtain ⟨j, hj, hh⟩ : ∃ j ∈ S, honest j := by
        by_contra hne
        have := hfew S k1 (fun j hj hh => hne ⟨j, hj, hh⟩)
        omega
      have := k3 j hj
      dsimp only at this
      by_cases hj' : j = i
      · subst hj'; exact hi hh
      · rw [Function.update_of_ne hj'] at this
        exact (h.votes j hh _ _ this).2

theorem vote_slot {c c' : Contract ι} {i : ι} {s : Nat} {r : Str} (h : Vote n cp c i s r c') :
    c'.slot = c.slot ∨ c'.slot = c.slot + cp := by
  rcases vote_cases h with ⟨rfl, _⟩ | ⟨hs, rfl, _⟩ | ⟨hs, rfl, _⟩
  · exact Or.inl rfl
  · exact Or.inl rfl
  · exact Or.inr hs

end

section
variable {ι : Type} [DecidableEq ι] {T : Chain} {V : Nat → Nat → BVal} {K : Nat → List (Nat × Nat)}
  {H : List Nat → List Nat} {cfg : Config}

/-- what is true of an honest member; `c0` is the slot the contract began with -/
structure MemberInv (P : Law) (L : Lib) (T : Chain) (H : List Nat → List Nat) (cfg : Config) (c0 : Nat)
    (c : Contract ι) (i : ι) (l : Loop) : Prop where
  life : ∃ tr, Life P T L H cfg tr (.on l)
  live : LiveInv H cfg l
  reach : l.o.st.latestSlot ≤ c.slot + cfg.cpSize
  before : (l.pc = .top ∨ ∃ f, l.pc = .save f) → l.o.st.latestSlot < c.slot + cfg.cpSize
  pos : ∀ f, l.pc = .vote f → 0 < l.o.st.latestSlot
  fresh : ∀ f, l.pc = .submit f ∨ l.pc = .confirm f → c0 < f.slot ∧ (f.slot - c0) % cfg.cpSize = 0
  voted : ∀ f, l.pc = .confirm f → f.slot = c.slot + cfg.cpSize → c.votes i = some (f.slot, f.root)

variable {P : Law} {L : Lib} {c0 n : Nat}

/-- somebody else votes -/
theorem MemberInv.other {c c' : Contract ι} {i j : ι} {l : Loop} {s : Nat} {r : Str} (hc : GoodCfg cfg)
    (h : MemberInv P L T H cfg c0 c i l) (hj : i ≠ j) (hv : Vote n cfg.cpSize c j s r c') :
    MemberInv P L T H cfg c0 c' i l := by
  have hsl : c.slot ≤ c'.slot := by rcases vote_slot hv with e | e <;> omega
  refine ⟨h.life, h.live, ?_, fun hp => ?_, h.pos, h.fresh, fun f hp hs => ?_⟩
  · have := h.reach; omega
  · have := h.before hp; omega
  · have e := place_slot h.live (Or.inr (Or.inr (Or.inr (Or.inr hp))))
    have hr := h.reach
    have hcp := hc.cpSize
    rcases vote_cases hv with ⟨rfl, _⟩ | ⟨_, rfl, _⟩ | ⟨e', rfl, _⟩
    · exact h.voted f hp hs
    · have := h.voted f hp hs
      dsimp only
      rw [Function.update_of_ne hj]
      exact this
    · dsimp only at hs
      omega

/-- its own step -/
theorem MemberInv.step {E : Env} {A : Answers} {c c' : Contract ι} {i : ι} {l l' : Loop} {evs : List LoopEv}
    {R : Nat → Str → Prop} {honest : ι → Prop}
    (hP : P.Good) (hR : P.Reads V K) (hG : ∀ E, Obeys P E → GoodEnv cfg E)
    (hC : SafeFetch cfg T) (hT : ChainTyped T) (hL : LibOK L) (hH : HashOK H) (ht : CfgTyped cfg)
    (hc : GoodCfg cfg) (hd : cfg.dryRun = false) (hv : ∀ q, BooksAt T V K cfg (c0 + cfg.cpSize) q → q.st.vals ≠ [])
    (h0 : cfg.depSlot ≤ c0 + cfg.cpSize)
    (hci : ContractInv R cfg.depSlot c0 n cfg.cpSize honest c)
    (h : MemberInv P L T H cfg c0 c i l) (hE : Obeys P E) (hA : Reliable cfg A l.o.st)
    (hN : HonestNetwork T A.fetch l.o.st.nextSlot) (htorn : ∀ d, A.torn = some d → Interrupted L l.o.st l.disk d)
    (hsee : Sees cfg.cpSize c i l A) (hsm : c.slot + cfg.cpSize < 2 ^ 64)
    (hs : stepLoop L H E A l = .ok (l', evs))
    (hvo : ∀ f, l.pc = .submit f → Vote n cfg.cpSize c i f.slot f.root c')
    (hno : (∀ f, l.pc ≠ .submit f) → c' = c) : MemberInv P L T H cfg c0 c' i l' := by
  obtain ⟨hl', hm⟩ := step_of hH hc (hG E hE) h.live hA hs
  obtain ⟨tr, hlife⟩ := h.life
  have life' : ∃ tr, Life P T L H cfg tr (.on l') := ⟨_, .step hlife hE hA.finalized hN htorn hs⟩
  have e := h.live.kept.commit.next
  have e' := hl'.kept.commit.next
  have hr := h.reach
  have hcp := hc.cpSize
  unfold Moves at hm
  cases hp : l.pc with
  | top =>
    rw [hp] at hm
    obtain rfl := hno (fun f => by rw [hp]; exact fun h => by cases h)
    have hb := h.before (Or.inl hp)
    rcases hm with ⟨h1, h2, _⟩ | ⟨h1, h2, _⟩
    · exact ⟨life', hl', by omega, fun h => by simp [h1] at h, fun f h => by simp [h1] at h, fun f h => by simp [h1] at h,
        fun f h => by simp [h1] at h⟩
    · exact ⟨life', hl', by omega, fun _ => by omega, fun f h => by simp [h1] at h, fun f h => by simp [h1] at h, fun f h => by simp [h1] at h⟩
  | processed =>
    rw [hp] at hm
    obtain rfl := hno (fun f => by rw [hp]; exact fun h => by cases h)
    obtain ⟨h1, h2⟩ := hm
    rcases h2 with h2 | ⟨f, h2⟩
    · refine ⟨life', hl', by omega, fun _ => ?_, fun f h => by simp [h2] at h, fun f h => by simp [h2] at h, fun f h => by simp [h2] at h⟩
      by_contra hge
      have hlat : l.o.st.latestSlot = c'.slot + cfg.cpSize := by omega
      rcases processed_top (hG E hE).valid h.live hc hp hs h2 with k | k
      · rw [hlat] at k
        exact k hci.aligned.2
      · obtain ⟨⟨q, b1, b2⟩, _⟩ := life_books hP hR hG hT hL hH ht hc hlife
        have := booksAt_vals hc hC (by omega) (by have := hci.ge; omega) hv b1
        rw [b2.vals] at this
        exact this k
    · exact ⟨life', hl', by omega, fun h => by simp [h2] at h, fun _ _ => by have := h.live.place; rw [hp] at this; have : cfg.depSlot ≤ l.o.st.latestSlot := this; have := hc.dep.1; omega, fun f h => by simp [h2] at h,
        fun f h => by simp [h2] at h⟩
  | vote f =>
    rw [hp] at hm
    obtain rfl := hno (fun f => by rw [hp]; exact fun h => by cases h)
    obtain ⟨h1, h2⟩ := hm
    have : l'.pc = .vote f ∨ l'.pc = .pause f ∨ l'.pc = .decide f := by
      rcases h2 with ⟨_, h2⟩ | ⟨_, h2⟩
      · exact Or.inl h2
      · exact Or.inr h2
    rcases this with h2 | h2 | h2 <;>
      exact ⟨life', hl', by omega, fun h => by simp [h2] at h, fun _ _ => by have := h.pos f hp; omega, fun f h => by simp [h2] at h,
        fun f h => by simp [h2] at h⟩
  | pause f =>
    rw [hp] at hm
    obtain rfl := hno (fun f => by rw [hp]; exact fun h => by cases h)
    obtain ⟨h1, h2⟩ := hm
    exact ⟨life', hl', by omega, fun h => by simp [h2] at h, fun f h => by simp [h2] at h, fun f h => by simp [h2] at h,
      fun f h => by simp [h2] at h⟩
  | decide f =>
    rw [hp] at hm
    obtain rfl := hno (fun f => by rw [hp]; exact fun h => by cases h)
    have hfs := place_slot h.live (Or.inr (Or.inr (Or.inl hp)))
    have hge := hci.ge
    obtain ⟨h1, _⟩ := hm
    rcases decide_step h.live hp hsee.chain hsm hd hs with ⟨h2, h3⟩ | ⟨h2, h3⟩
    · refine ⟨life', hl', by omega, fun h => by simp [h2] at h, fun f h => by simp [h2] at h, fun g h => ?_, fun f h => by simp [h2] at h⟩
      simp only [h2, Pc.submit.injEq, reduceCtorEq, or_false] at h
      subst h
      have hst := hci.steps
      have e2 : f.slot - c0 = (c'.slot - c0) + cfg.cpSize := by omega
      exact ⟨by omega, by rw [e2, Nat.add_mod_right]; exact hst⟩
    · exact ⟨life', hl', by omega, fun _ => by omega, fun f h => by simp [h2] at h, fun f h => by simp [h2] at h, fun f h => by simp [h2] at h⟩
  | submit f =>
    rw [hp] at hm
    obtain ⟨h1, h2⟩ := hm
    have hv := hvo f hp
    have hfs := place_slot h.live (Or.inr (Or.inr (Or.inr (Or.inl hp))))
    have hsl : c.slot ≤ c'.slot := by rcases vote_slot hv with e | e <;> omega
    refine ⟨life', hl', by omega, fun h => by simp [h2] at h, fun f h => by simp [h2] at h, fun g hg => ?_, fun g hg hs => ?_⟩
    · simp only [h2, Pc.confirm.injEq, reduceCtorEq, false_or] at hg
      subst hg
      exact h.fresh f (Or.inl hp)
    · simp only [h2, Pc.confirm.injEq] at hg
      subst hg
      rcases vote_cases hv with ⟨rfl, k⟩ | ⟨_, rfl, _⟩ | ⟨e', rfl, _⟩
      · exact absurd hs k
      · dsimp only; rw [Function.update_self]
      · dsimp only at hs
        omega
  | confirm f =>
    rw [hp] at hm
    obtain rfl := hno (fun f => by rw [hp]; exact fun h => by cases h)
    have hfs := place_slot h.live (Or.inr (Or.inr (Or.inr (Or.inr hp))))
    obtain ⟨h1, h2⟩ := hm
    rcases h2 with ⟨k, h2⟩ | ⟨_, h2⟩
    · rw [hsee.chain] at k
      simp only [Option.some.injEq, Prod.mk.injEq] at k
      exact ⟨life', hl', by omega, fun _ => by omega, fun f h => by simp [h2] at h, fun f h => by simp [h2] at h, fun f h => by simp [h2] at h⟩
    · refine ⟨life', hl', by omega, fun h => by simp [h2] at h, fun f h => by simp [h2] at h, fun g hg => ?_, fun g hg hs => ?_⟩
      · exact h.fresh g (by rw [hp, ← h2]; exact hg)
      · exact h.voted g (by rw [hp, ← h2]; exact hg) hs
  | save f =>
    rw [hp] at hm
    obtain rfl := hno (fun f => by rw [hp]; exact fun h => by cases h)
    obtain ⟨h1, h2⟩ := hm
    have := h.before (Or.inr ⟨f, hp⟩)
    exact ⟨life', hl', by omega, fun _ => by omega, fun f h => by simp [h2] at h, fun f h => by simp [h2] at h, fun f h => by simp [h2] at h⟩

end

end Verif
