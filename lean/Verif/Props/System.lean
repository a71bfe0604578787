import Verif.Lemmas.System
/-
Property C88: several oracles and the contract over time. With a quorum of honest oracles the contract accepts the
root of the books for one checkpoint after the other, and every honest oracle keeps up.
-/
namespace Verif

/-- the text of a checkpoint's root -/
theorem frozenOf_bytes {H : List Nat → List Nat} {s : State} {f : Frozen} (hH : HashOK H) (h : FrozenOf H s f) :
    ∃ bytes : List Nat, (∀ b ∈ bytes, b < 256) ∧ f.root = b!"0x" ++ hexEncode bytes := by
  obtain ⟨ls, _, h⟩ := h
  unfold frz at h
  split at h
  · simp at h
  · simp only [bind_ok] at h
    obtain ⟨root, hr, pl, _, h⟩ := h
    simp only [Except.ok.injEq, Option.some.injEq] at h
    rw [← h]
    refine ⟨root, ?_, rfl⟩
    unfold treeRoot at hr
    split at hr
    · have hr := Except.ok.inj hr
      subst hr
      exact (hH _).2
    · cases hr

section
variable {ι : Type} [DecidableEq ι] {T : Chain} {V : Nat → Nat → BVal} {K : Nat → List (Nat × Nat)}
  {H : List Nat → List Nat} {cfg : Config} {n : Nat} {P : ι → Law} {L : ι → Lib} {honest : ι → Prop}

/-- what is true of the whole system -/
structure SystemInv (P : ι → Law) (L : ι → Lib) (T : Chain) (V : Nat → Nat → BVal) (K : Nat → List (Nat × Nat))
    (H : List Nat → List Nat) (cfg : Config) (n : Nat) (honest : ι → Prop) (c0 : Nat) (w : World ι) : Prop where
  contract : ContractInv (BooksRoot T V K H cfg) cfg.depSlot c0 n cfg.cpSize honest w.contract
  member : ∀ i, honest i → MemberInv (P i) (L i) T H cfg c0 w.contract i (w.member i)

variable (hA : ∀ n, n % 1200 = 0 → ActiveTargets V K n) (hg : GoodCfg cfg) (hC : GoodFetch cfg T) (hT : ChainTyped T)
  (hH : HashOK H) (hc : CfgTyped cfg) (hd : cfg.dryRun = false) (hM : Members V K cfg n P L honest)

theorem begins_inv (hg : GoodCfg cfg) (hC : GoodFetch cfg T) (hT : ChainTyped T) (hH : HashOK H) (hc : CfgTyped cfg)
    (hM : Members V K cfg n P L honest) {w : World ι} (h : Begins P L T H cfg n honest w) :
    SystemInv P L T V K H cfg n honest w.contract.slot w := by
  refine ⟨⟨le_refl _, h.aligned, by simp, h.undecided, ?_, Or.inl rfl⟩, ?_⟩
  · intro i hi s r hv
    obtain ⟨_, _, tr, h1, h2⟩ := h.member i hi
    obtain ⟨l1, l2, l3⟩ := hM.law i hi
    obtain ⟨k1, k2⟩ := h2 s r hv
    exact ⟨k1, member_books hg hT hH hc ⟨P i, L i, _, l1, l2, l3, hM.lib i hi, h1⟩ (Or.inr k2)⟩
  · intro i hi
    obtain ⟨h0, h1, tr, h2, _⟩ := h.member i hi
    obtain ⟨l1, l2, l3⟩ := hM.law i hi
    obtain ⟨k1, k2⟩ := life_ok l1 l3 hC hT (hM.lib i hi) hH hc hg h2
    exact ⟨⟨tr, h2⟩, ⟨k1, k2, by rw [h0]; trivial⟩, by omega, fun _ => h1, fun f h => by simp [h0] at h,
      fun f h => by simp [h0] at h, fun f h => by simp [h0] at h⟩

include hg hC hT hH hc hd hM in
theorem turn_inv {w w' : World ι} {c0 : Nat} {x : Option (ι × Answers)}
    (hv : ∀ q, BooksAt T V K cfg (c0 + cfg.cpSize) q → q.st.vals ≠ []) (h0 : cfg.depSlot ≤ c0 + cfg.cpSize)
    (hsm : w.contract.slot + cfg.cpSize < 2 ^ 64)
    (h : SystemInv P L T V K H cfg n honest c0 w) (ht : Turn P L T H cfg n honest w x w') :
    SystemInv P L T V K H cfg n honest c0 w' := by
  cases ht with
  | @member i A E l evs c hi hE hR hN htorn hsee hs hvo hno =>
    obtain ⟨l1, l2, l3⟩ := hM.law i hi
    have hm := h.member i hi
    have own := hm.step l1 l2 l3 hC.toSafeFetch hT (hM.lib i hi) hH hc hg hd hv h0 h.contract hE hR hN htorn hsee hsm hs hvo hno
    by_cases hp : ∃ f, (w.member i).pc = .submit f
    · obtain ⟨f, hp⟩ := hp
      have hvt := hvo f hp
      obtain ⟨tr, hlife⟩ := hm.life
      have hroot := (life_books l1 l2 l3 hT (hM.lib i hi) hH hc hg hlife).2 f (by rw [hp]; rfl)
      refine ⟨h.contract.vote hM.few (fun _ => hroot) hvt, fun j hj => ?_⟩
      dsimp only
      by_cases e : j = i
      · subst e; rw [Function.update_self]; exact own
      · rw [Function.update_of_ne e]
        exact (h.member j hj).other hg e hvt
    · obtain rfl := hno (fun f e => hp ⟨f, e⟩)
      refine ⟨h.contract, fun j hj => ?_⟩
      dsimp only
      by_cases e : j = i
      · subst e; rw [Function.update_self]; exact own
      · rw [Function.update_of_ne e]
        exact h.member j hj
  | @other j s r c hj hvt =>
    refine ⟨h.contract.vote hM.few (fun hh => absurd hh hj) hvt, fun i hi => ?_⟩
    exact (h.member i hi).other hg (fun (e : i = j) => hj (e ▸ hi)) hvt
  | nothing => exact h

variable {who : Nat → Option (ι × Answers)} {w : Nat → World ι}

include hg hC hT hH hc hd hM in
theorem system_inv (hr : SystemRun P L T H cfg n honest who w)
    (hv : ∀ q, BooksAt T V K cfg ((w 0).contract.slot + cfg.cpSize) q → q.st.vals ≠ [])
    (hsm : ∀ k, (w k).contract.slot + cfg.cpSize < 2 ^ 64) (k : Nat) :
    SystemInv P L T V K H cfg n honest (w 0).contract.slot (w k) := by
  induction k with
  | zero => exact begins_inv hg hC hT hH hc hM hr.begins
  | succ k ih =>
    exact turn_inv hg hC hT hH hc hd hM hv hr.begins.aligned.1 (hsm k) ih (hr.turn k)

theorem turn_slot {w w' : World ι} {x : Option (ι × Answers)} (ht : Turn P L T H cfg n honest w x w') :
    w'.contract.slot = w.contract.slot ∨ w'.contract.slot = w.contract.slot + cfg.cpSize := by
  cases ht with
  | @member i A E l evs c hi hE hR hN htorn hsee hs hvo hno =>
    by_cases hp : ∃ f, (w.member i).pc = .submit f
    · obtain ⟨f, hp⟩ := hp
      exact vote_slot (hvo f hp)
    · obtain rfl := hno (fun f e => hp ⟨f, e⟩)
      exact Or.inl rfl
  | other hj hvt => exact vote_slot hvt
  | nothing => exact Or.inl rfl

theorem slot_mono (hr : SystemRun P L T H cfg n honest who w) {k j : Nat} (h : k ≤ j) :
    (w k).contract.slot ≤ (w j).contract.slot := by
  induction j, h using Nat.le_induction with
  | base => exact le_refl _
  | succ j _ ih => rcases turn_slot (hr.turn j) with e | e <;> omega

/-- the step of a member, if it is its turn -/
theorem turn_member {w w' : World ι} {x : Option (ι × Answers)} (ht : Turn P L T H cfg n honest w x w') {i : ι}
    (hi : honest i) : w'.member i = w.member i ∨ ∃ A E evs, x = some (i, A) ∧ Obeys (P i) E ∧
      Reliable cfg A (w.member i).o.st ∧ Sees cfg.cpSize w.contract i (w.member i) A ∧
      stepLoop (L i) H E A (w.member i) = .ok (w'.member i, evs) := by
  cases ht with
  | @member j A E l evs c hj hE hR hN htorn hsee hs hvo hno =>
    dsimp only
    by_cases e : i = j
    · subst e
      rw [Function.update_self]
      exact Or.inr ⟨A, E, evs, rfl, hE, hR, hsee, hs⟩
    · rw [Function.update_of_ne e]
      exact Or.inl rfl
  | other => exact Or.inl rfl
  | nothing => exact Or.inl rfl

/-- whose turn it is makes a step -/
theorem turn_step {w w' : World ι} {i : ι} {A : Answers} (ht : Turn P L T H cfg n honest w (some (i, A)) w') :
    ∃ E evs, Obeys (P i) E ∧ Reliable cfg A (w.member i).o.st ∧ Sees cfg.cpSize w.contract i (w.member i) A ∧
      stepLoop (L i) H E A (w.member i) = .ok (w'.member i, evs) := by
  cases ht with
  | @member j A E l evs c hj hE hR hN htorn hsee hs hvo hno =>
    dsimp only
    rw [Function.update_self]
    exact ⟨E, evs, hE, hR, hsee, hs⟩

variable (hr : SystemRun P L T H cfg n honest who w)
  (hv : ∀ q, BooksAt T V K cfg ((w 0).contract.slot + cfg.cpSize) q → q.st.vals ≠ [])
  (hsm : ∀ k, (w k).contract.slot + cfg.cpSize < 2 ^ 64)

include hg hC hT hH hc hd hM hr hv hsm in
/-- until slot `t` is dealt with, an honest oracle does not fall back -/
theorem toDo_mono {i : ι} (hi : honest i) {t k : Nat}
    (htop : ∀ j, k ≤ j → ((w j).member i).pc = .top → ((w j).member i).o.st.latestSlot < t) {j : Nat} (h : k ≤ j) :
    toDo t ((w j).member i) ≤ toDo t ((w k).member i) := by
  induction j, h using Nat.le_induction with
  | base => exact le_refl _
  | succ j hj ih =>
    refine le_trans ?_ ih
    obtain ⟨l1, l2, l3⟩ := hM.law i hi
    rcases turn_member (hr.turn j) hi with e | ⟨A, E, evs, _, hE, hR, hsee, hs⟩
    · rw [e]
    · have hl := ((system_inv hg hC hT hH hc hd hM hr hv hsm j).member i hi).live
      obtain ⟨h1, h2⟩ := step_of hH hg (l3 E hE) hl hR hs
      rcases step_toDo hl h1 h2 (htop j hj) with h | ⟨h3, h4, _⟩
      · omega
      · unfold toDo; rw [h3, h4]

include hA hg hC hT hH hc hd hM hr hv hsm in
/-- a turn on which slot `N` is shown as finalized brings an honest oracle closer, unless it has processed that
slot or has voted for the next checkpoint -/
theorem turn_toDo (hno : NotOvertaken honest w) {N t k : Nat} {i : ι} (hi : honest i) {A : Answers} {fin : Nat}
    (hw : who k = some (i, A)) (hs : A.sync = some true) (hf : A.finalized = some fin) (hN : N ≤ fin)
    (htop : ((w k).member i).pc = .top → ((w k).member i).o.st.latestSlot < t) :
    toDo t ((w (k + 1)).member i) < toDo t ((w k).member i) ∨
    (((w k).member i).pc = .top ∧ N ≤ ((w k).member i).o.st.latestSlot) ∨
    ((w k).contract.votes i ≠ none ∧ ((w k).member i).o.st.latestSlot = (w k).contract.slot + cfg.cpSize) := by
  obtain ⟨l1, l2, l3⟩ := hM.law i hi
  have ht := hr.turn k
  rw [hw] at ht
  obtain ⟨E, evs, hE, hR, hsee, hst⟩ := turn_step ht
  have inv := system_inv hg hC hT hH hc hd hM hr hv hsm k
  have hm := inv.member i hi
  obtain ⟨h1, h2⟩ := step_of hH hg (l3 E hE) hm.live hR hst
  rcases step_toDo hm.live h1 h2 htop with h | ⟨_, _, h⟩
  · exact Or.inl h
  · right
    unfold Asks at h
    cases hp : ((w k).member i).pc with
    | top =>
      rw [hp] at h
      left
      have := h fin hs hf
      have := hm.live.kept.commit.next
      exact ⟨rfl, by omega⟩
    | vote f =>
      rw [hp] at h
      right
      have e := place_slot hm.live (Or.inl hp)
      have hpos := hm.pos f hp
      dsimp only at h
      rw [hsee.report] at h
      cases hvt : (w k).contract.votes i with
      | none =>
        rw [hvt] at h
        simp only [Option.elim_none, Option.some.injEq] at h
        omega
      | some p =>
        rw [hvt] at h
        simp only [Option.elim_some, Option.some.injEq] at h
        have := (inv.contract.votes i hi p.1 p.2 hvt).1
        exact ⟨by simp, by omega⟩
    | confirm f =>
      rw [hp] at h
      right
      have e := place_slot hm.live (Or.inr (Or.inr (Or.inr (Or.inr hp))))
      have hreach := hm.reach
      have hov := hno k i f hi (Or.inr hp)
      obtain ⟨f1, f2⟩ := hm.fresh f (Or.inr hp)
      have hst := inv.contract.steps
      have hge := inv.contract.ge
      have hcp := hg.cpSize
      dsimp only at h
      rw [hsee.chain] at h
      have : f.slot = (w k).contract.slot ∨ f.slot = (w k).contract.slot + cfg.cpSize := by
        have hdiv : cfg.cpSize ∣ (f.slot - (w k).contract.slot) := by
          have e1 : f.slot - (w k).contract.slot = (f.slot - (w 0).contract.slot) -
            ((w k).contract.slot - (w 0).contract.slot) := by omega
          rw [e1]
          exact Nat.dvd_sub (Nat.dvd_of_mod_eq_zero f2) (Nat.dvd_of_mod_eq_zero hst)
        obtain ⟨m, hm'⟩ := hdiv
        have : m = 0 ∨ m = 1 ∨ 2 ≤ m := by omega
        rcases this with rfl | rfl | h2
        · left; omega
        · right; omega
        · exfalso
          have : cfg.cpSize * 2 ≤ cfg.cpSize * m := Nat.mul_le_mul_left _ h2
          omega
      rcases this with e1 | e1
      · exfalso
        apply h
        obtain ⟨tr, hlife⟩ := hm.life
        have r1 := (life_books l1 l2 l3 hT (hM.lib i hi) hH hc hg hlife).2 f (by rw [hp]; rfl)
        rcases inv.contract.root with r2 | r2
        · omega
        · rw [← e1] at r2
          rw [booksRoot_unique hA hg hC.toSafeFetch r1 r2, e1]
      · have := hm.voted f hp e1
        exact ⟨by rw [this]; simp, by omega⟩
    | _ => rw [hp] at h; exact absurd h id

include hA hg hC hT hH hc hd hM hr hv hsm in
/-- as long as the contract does not move, every honest oracle comes to vote -/
theorem comes_to_vote (hno : NotOvertaken honest w) {N : Nat} (hF : TurnsCome N honest who) {k0 : Nat}
    (hN : (w k0).contract.slot + cfg.cpSize ≤ N)
    (hstop : ∀ k, k0 ≤ k → (w k).contract.slot = (w k0).contract.slot) {i : ι} (hi : honest i) :
    ∃ k, k0 ≤ k ∧ (w k).contract.votes i ≠ none := by
  have inv := fun k => system_inv hg hC hT hH hc hd hM hr hv hsm k
  have htop : ∀ j, k0 ≤ j → ((w j).member i).pc = .top →
      ((w j).member i).o.st.latestSlot < (w k0).contract.slot + cfg.cpSize := by
    intro j hj hp
    have := ((inv j).member i hi).before (Or.inl hp)
    rw [hstop j hj] at this
    exact this
  suffices ∀ m k, k0 ≤ k → toDo ((w k0).contract.slot + cfg.cpSize) ((w k).member i) ≤ m →
      ∃ k', k ≤ k' ∧ (w k').contract.votes i ≠ none by
    obtain ⟨k', h1, h2⟩ := this _ k0 (le_refl _) (le_refl _)
    exact ⟨k', h1, h2⟩
  intro m
  induction m with
  | zero =>
    intro k hk hm
    obtain ⟨j, A, fin, hj, h1, h2, h3, h4⟩ := hF i hi k
    have hmono := toDo_mono hg hC hT hH hc hd hM hr hv hsm hi (k := k) (fun j' hj' => htop j' (by omega)) hj
    rcases turn_toDo hA hg hC hT hH hc hd hM hr hv hsm hno hi h1 h2 h3 h4 (htop j (by omega)) with h | ⟨hp, h⟩ | h
    · omega
    · have := htop j (by omega) hp
      omega
    · exact ⟨j, hj, h.1⟩
  | succ m ih =>
    intro k hk hm
    obtain ⟨j, A, fin, hj, h1, h2, h3, h4⟩ := hF i hi k
    have hmono := toDo_mono hg hC hT hH hc hd hM hr hv hsm hi (k := k) (fun j' hj' => htop j' (by omega)) hj
    rcases turn_toDo hA hg hC hT hH hc hd hM hr hv hsm hno hi h1 h2 h3 h4 (htop j (by omega)) with h | ⟨hp, h⟩ | h
    · obtain ⟨k', e1, e2⟩ := ih (j + 1) (by omega) (by omega)
      exact ⟨k', by omega, e2⟩
    · have := htop j (by omega) hp
      omega
    · exact ⟨j, hj, h.1⟩

/-- a pending vote stays until the contract moves -/
theorem vote_stays (hr : SystemRun P L T H cfg n honest who w) (hcp : 0 < cfg.cpSize) {k0 : Nat}
    (hstop : ∀ k, k0 ≤ k → (w k).contract.slot = (w k0).contract.slot) {i : ι} {k j : Nat} (hk : k0 ≤ k) (hj : k ≤ j)
    (h : (w k).contract.votes i ≠ none) : (w j).contract.votes i ≠ none := by
  induction j, hj using Nat.le_induction with
  | base => exact h
  | succ j hj ih =>
    have key : ∀ a s r, Vote n cfg.cpSize (w j).contract a s r (w (j + 1)).contract →
        (w (j + 1)).contract.votes i ≠ none := by
      intro a s r hvt
      rcases vote_cases hvt with ⟨e, _⟩ | ⟨_, e, _⟩ | ⟨e1, e, _⟩
      · rw [e]; exact ih
      · rw [e]
        dsimp only
        by_cases ea : i = a
        · subst ea; rw [Function.update_self]; simp
        · rw [Function.update_of_ne ea]; exact ih
      · have h1 := hstop j (by omega)
        have h2 := hstop (j + 1) (by omega)
        rw [e] at h2
        dsimp only at h2
        omega
    have ht := hr.turn j
    generalize hx : who j = x at ht
    generalize hw : w (j + 1) = w' at ht key
    cases ht with
    | @member a A E l evs c hi hE hR hN htorn hsee hs hvo hno =>
      by_cases hp : ∃ f, ((w j).member a).pc = .submit f
      · obtain ⟨f, hp⟩ := hp
        exact key _ _ _ (hvo f hp)
      · rw [hno (fun f e => hp ⟨f, e⟩)]
        exact ih
    | other hj hvt => exact key _ _ _ hvt
    | nothing => exact ih

include hA hg hC hT hH hc hd hM hr hv hsm in
/-- the contract moves -/
theorem contract_moves (hno : NotOvertaken honest w) {N : Nat} (hF : TurnsCome N honest who) (k0 : Nat)
    (hN : (w k0).contract.slot + cfg.cpSize ≤ N) :
    ∃ k, k0 ≤ k ∧ (w k).contract.slot = (w k0).contract.slot + cfg.cpSize := by
  by_contra hne
  have hcp := hg.cpSize
  have hstop : ∀ k, k0 ≤ k → (w k).contract.slot = (w k0).contract.slot := by
    intro k hk
    induction k, hk using Nat.le_induction with
    | base => rfl
    | succ k hk ih =>
      rcases turn_slot (hr.turn k) with e | e
      · rw [e, ih]
      · exact absurd ⟨k + 1, by omega, by rw [e, ih]⟩ hne
  obtain ⟨S, s1, s2, s3⟩ := hM.enough
  have all : ∀ S' : List ι, (∀ i ∈ S', honest i) → ∃ k, k0 ≤ k ∧ ∀ i ∈ S', (w k).contract.votes i ≠ none := by
    intro S'
    induction S' with
    | nil => exact fun _ => ⟨k0, le_refl _, fun i hi => by cases hi⟩
    | cons a S' ih =>
      intro h
      obtain ⟨k, h1, h2⟩ := ih (fun i hi => h i (List.mem_cons_of_mem _ hi))
      obtain ⟨k', h3, h4⟩ := comes_to_vote hA hg hC hT hH hc hd hM hr hv hsm hno hF hN hstop
        (h a List.mem_cons_self)
      refine ⟨max k k', by omega, fun i hi => ?_⟩
      rcases List.mem_cons.mp hi with rfl | hi
      · exact vote_stays hr hcp hstop h3 (by omega) h4
      · exact vote_stays hr hcp hstop h1 (by omega) (h2 i hi)
  obtain ⟨k, h1, h2⟩ := all S s3
  have inv := system_inv hg hC hT hH hc hd hM hr hv hsm k
  have hpos := hM.few [] List.nodup_nil (fun _ h => by cases h)
  obtain ⟨a, ha⟩ : ∃ a, a ∈ S := by
    cases S with
    | nil => simp at s2 hpos; omega
    | cons a S => exact ⟨a, List.mem_cons_self⟩
  obtain ⟨⟨s, r⟩, hva⟩ := Option.ne_none_iff_exists'.mp (h2 a ha)
  obtain ⟨v1, v2⟩ := inv.contract.votes a (s3 a ha) s r hva
  refine inv.contract.undecided s r ⟨S, s1, s2, fun i hi => ?_⟩
  obtain ⟨⟨s', r'⟩, hvi⟩ := Option.ne_none_iff_exists'.mp (h2 i hi)
  obtain ⟨v1', v2'⟩ := inv.contract.votes i (s3 i hi) s' r' hvi
  have : s' = s := by omega
  subst this
  rw [booksRoot_unique hA hg hC.toSafeFetch v2' v2] at hvi
  exact hvi

include hA hg hC hT hH hc hd hM hr hv hsm in
/-- **C88** (partial). With enough honest members whose nodes work, and whatever the few others vote for, the
contract accepts one checkpoint after the other, up to the last one that is finalized. The oracles may have been
through anything before. Missing: the conditions of C83; no oracle stops again; at the first checkpoint somebody is
tracked (`hv`, see `C37_false_restart`); and no oracle sleeps through a whole checkpoint while it waits for its
vote (`NotOvertaken`, see `C88_false_overtaken`). -/
theorem C88_contract_goes_on_partial (hno : NotOvertaken honest w) {N : Nat} (hF : TurnsCome N honest who) (m : Nat)
    (hm : (w 0).contract.slot + m * cfg.cpSize ≤ N) :
    ∃ k, (w k).contract.slot = (w 0).contract.slot + m * cfg.cpSize := by
  induction m with
  | zero => exact ⟨0, by omega⟩
  | succ m ih =>
    rw [Nat.add_mul, Nat.one_mul] at hm
    obtain ⟨k, hk⟩ := ih (by omega)
    obtain ⟨k', _, h⟩ := contract_moves hA hg hC hT hH hc hd hM hr hv hsm hno hF k (by omega)
    exact ⟨k', by rw [h, hk, Nat.add_mul, Nat.one_mul]; omega⟩

include hA hg hC hT hH hc hd hM hr hv hsm in
/-- **C88** (partial). And every honest oracle keeps up: every finalized slot is processed. This is what C82 and C83
show only if the contract does not let the oracle wait for ever. Missing: as above. -/
theorem C88_all_keep_up_partial (hno : NotOvertaken honest w) {N : Nat} (hF : TurnsCome N honest who) {i : ι}
    (hi : honest i) : ∃ k, N ≤ ((w k).member i).o.st.latestSlot := by
  by_contra hne
  have hlt : ∀ k, ((w k).member i).o.st.latestSlot < N := fun k => by
    by_contra h
    exact hne ⟨k, by omega⟩
  have hcp := hg.cpSize
  obtain ⟨k0, hk0⟩ : ∃ k, N < (w k).contract.slot + cfg.cpSize := by
    by_contra hn
    have hle : ∀ k, (w k).contract.slot + cfg.cpSize ≤ N := fun k => by
      by_contra h
      exact hn ⟨k, by omega⟩
    have : ∀ m, ∃ k, m ≤ (w k).contract.slot := by
      intro m
      induction m with
      | zero => exact ⟨0, Nat.zero_le _⟩
      | succ m ih =>
        obtain ⟨k, hk⟩ := ih
        obtain ⟨k', _, h⟩ := contract_moves hA hg hC hT hH hc hd hM hr hv hsm hno hF k (hle k)
        exact ⟨k', by omega⟩
    obtain ⟨k, hk⟩ := this N
    have := hle k
    omega
  have : ∀ m k, k0 ≤ k → ¬ toDo N ((w k).member i) ≤ m := by
    intro m
    induction m with
    | zero =>
      intro k hk hm
      unfold toDo at hm
      have := hlt k
      omega
    | succ m ih =>
      intro k hk hm
      obtain ⟨j, A, fin, hj, h1, h2, h3, h4⟩ := hF i hi k
      have hmono := toDo_mono hg hC hT hH hc hd hM hr hv hsm hi (k := k) (t := N) (fun j' _ _ => hlt j') hj
      have hs := slot_mono hr (show k0 ≤ j by omega)
      have := hlt j
      rcases turn_toDo hA hg hC hT hH hc hd hM hr hv hsm hno hi h1 h2 h3 h4 (fun _ => hlt j) with h | ⟨_, h⟩ | ⟨_, h⟩
      · exact ih (j + 1) (by omega) (by omega)
      · omega
      · omega
  exact this _ k0 (le_refl _) (le_refl _)

include hg hC hT hH hc hd hM hr hv hsm in
/-- **C88** (partial). Every root the contract accepts on the way is the root of the books at its slot: everybody
can claim what they are owed, and nothing else. Missing: as above. -/
theorem C88_roots_settle_partial {N : Nat}
    (hfit : ∀ s q, s ≤ N → BooksAt T V K cfg s q → received q.st < 2 ^ 256) (k : Nat)
    (hk : (w k).contract.slot ≠ (w 0).contract.slot) (hN : (w k).contract.slot ≤ N) :
    ∃ q root, BooksAt T V K cfg (w k).contract.slot q ∧ (w k).contract.root = b!"0x" ++ hexEncode root ∧
      Settles H q.st root := by
  have inv := system_inv hg hC hT hH hc hd hM hr hv hsm k
  rcases inv.contract.root with e | ⟨q, f, h1, h2, h3⟩
  · exact absurd e hk
  · obtain ⟨k1, k2⟩ := h1.ok (H := H) hg hC.toSafeFetch
    obtain ⟨a1, a2⟩ := h1.addresses hg hC.toSafeFetch
    obtain ⟨E, _, hE, _⟩ := id h1
    obtain ⟨bytes, hb, hr⟩ := frozenOf_bytes hH h2
    refine ⟨q, bytes, h1, by rw [← h3, hr], frozenOf_settles hH hE.valid k1.commit.keys a1 a2 ?_ h2 hb hr⟩
    intro a x ho
    obtain ⟨p1, p2⟩ := owedTo_bounds k2.nonneg k2.covered ho
    exact ⟨p1, lt_of_le_of_lt p2 (hfit _ q hN h1)⟩

/-- nothing is after slot `B` -/
structure Within (honest : ι → Prop) (B : Nat) (w : World ι) : Prop where
  slot : w.contract.slot ≤ B
  member : ∀ i, honest i → (w.member i).o.st.latestSlot ≤ B
  votes : ∀ i, honest i → ∀ s r, w.contract.votes i = some (s, r) → s ≤ B

omit hc in
include hH hg hM in
/-- nothing gets ahead of what the nodes show as finalized -/
theorem Within.turn {w w' : World ι} {c0 : Nat} {x : Option (ι × Answers)} {B : Nat}
    (inv : SystemInv P L T V K H cfg n honest c0 w) (hw : Within honest B w)
    (hfin : ∀ i A fin, x = some (i, A) → A.finalized = some fin → fin ≤ B)
    (ht : Turn P L T H cfg n honest w x w') : Within honest B w' := by
  have vote : ∀ c a s r, (honest a → s ≤ B) → Vote n cfg.cpSize w.contract a s r c →
      c.slot ≤ B ∧ ∀ i, honest i → ∀ s r, c.votes i = some (s, r) → s ≤ B := by
    intro c a s r ha hvt
    rcases vote_cases hvt with ⟨rfl, _⟩ | ⟨_, rfl, _⟩ | ⟨_, rfl, S, k1, k2, k3⟩
    · exact ⟨hw.slot, hw.votes⟩
    · refine ⟨hw.slot, fun i hi s' r' h => ?_⟩
      dsimp only at h
      by_cases e : i = a
      · subst e
        rw [Function.update_self] at h
        simp only [Option.some.injEq, Prod.mk.injEq] at h
        rw [← h.1]; exact ha hi
      · rw [Function.update_of_ne e] at h
        exact hw.votes i hi s' r' h
    · refine ⟨?_, fun i _ s' r' h => by cases h⟩
      obtain ⟨j, hj, hh⟩ : ∃ j ∈ S, honest j := by
        by_contra hne
        have := hM.few S k1 (fun j hj hh => hne ⟨j, hj, hh⟩)
        omega
      have h := k3 j hj
      dsimp only at h ⊢
      by_cases e : j = a
      · subst e; exact ha hh
      · rw [Function.update_of_ne e] at h
        exact hw.votes j hh _ _ h
  have mem : ∀ i, honest i → (w'.member i).o.st.latestSlot ≤ B := by
    intro i hi
    rcases turn_member ht hi with e | ⟨A, E, evs, hx, hE, hR, hsee, hs⟩
    · rw [e]; exact hw.member i hi
    · obtain ⟨l1, l2, l3⟩ := hM.law i hi
      have hl := (inv.member i hi).live
      obtain ⟨h1, h2⟩ := step_of hH hg (l3 E hE) hl hR hs
      have e1 := hl.kept.commit.next
      have e2 := h1.kept.commit.next
      have e3 := hw.member i hi
      unfold Moves at h2
      cases hp : (w.member i).pc with
      | top =>
        rw [hp] at h2
        rcases h2 with ⟨_, h2, fin, _, hf, hle, _⟩ | ⟨_, h2, _⟩
        · have := hfin i A fin hx hf
          omega
        · omega
      | _ =>
        rw [hp] at h2
        have := h2.1
        omega
  cases ht with
  | @member a A E l evs c hi hE hR hN htorn hsee hs hvo hno =>
    by_cases hp : ∃ f, (w.member a).pc = .submit f
    · obtain ⟨f, hp⟩ := hp
      obtain ⟨v1, v2⟩ := vote c a f.slot f.root (fun _ => by
        rw [place_slot (inv.member a hi).live (Or.inr (Or.inr (Or.inr (Or.inl hp))))]
        exact hw.member a hi) (hvo f hp)
      exact ⟨v1, mem, v2⟩
    · obtain rfl := hno (fun f e => hp ⟨f, e⟩)
      exact ⟨hw.slot, mem, hw.votes⟩
  | @other j s r c hj hvt =>
    obtain ⟨v1, v2⟩ := vote c j s r (fun h => absurd h hj) hvt
    exact ⟨v1, mem, v2⟩
  | nothing => exact hw

include hg hC hT hH hc hd hM hr hv in
theorem system_bound {B : Nat} (hB : B + cfg.cpSize < 2 ^ 64) (h0 : Within honest B (w 0))
    (hfin : ∀ k i A fin, who k = some (i, A) → A.finalized = some fin → fin ≤ B) (k : Nat) :
    SystemInv P L T V K H cfg n honest (w 0).contract.slot (w k) ∧ Within honest B (w k) := by
  induction k with
  | zero => exact ⟨begins_inv hg hC hT hH hc hM hr.begins, h0⟩
  | succ k ih =>
    have := ih.2.slot
    exact ⟨turn_inv hg hC hT hH hc hd hM hv hr.begins.aligned.1 (by omega) ih.1 (hr.turn k),
      ih.2.turn hg hH hM ih.1 (hfin k) (hr.turn k)⟩

include hg hC hT hH hc hd hM hr hv in
/-- **C88** (partial). The contract never gets ahead of finality: if no honest member's node shows a slot after `B`
as finalized, and all begins at or before `B`, no root for a slot after `B` is accepted. Missing: as above. -/
theorem C88_not_ahead_partial {B : Nat} (hB : B + cfg.cpSize < 2 ^ 64) (h0 : (w 0).contract.slot ≤ B)
    (hm0 : ∀ i, honest i → ((w 0).member i).o.st.latestSlot ≤ B)
    (hv0 : ∀ i, honest i → ∀ s r, (w 0).contract.votes i = some (s, r) → s ≤ B)
    (hfin : ∀ k i A fin, who k = some (i, A) → A.finalized = some fin → fin ≤ B) (k : Nat) :
    (w k).contract.slot ≤ B :=
  (system_bound hg hC hT hH hc hd hM hr hv hB ⟨h0, hm0, hv0⟩ hfin k).2.slot

/-- **C88**, limits: an oracle that is overtaken waits for ever. If the contract has moved past the checkpoint an
oracle waits for, then the oracle never leaves the wait again, however often it gets its turn. -/
theorem C88_overtaken_waits (hr : SystemRun P L T H cfg n honest who w) {i : ι} (hi : honest i) {f : Frozen} {k : Nat}
    (hp : ((w k).member i).pc = .confirm f) (hov : f.slot < (w k).contract.slot) {j : Nat} (hj : k ≤ j) :
    (w j).member i = (w k).member i := by
  induction j, hj using Nat.le_induction with
  | base => rfl
  | succ j hj ih =>
    rcases turn_member (hr.turn j) hi with e | ⟨A, E, evs, _, _, _, hsee, hs⟩
    · rw [e, ih]
    · have hm := slot_mono hr hj
      unfold stepLoop at hs
      rw [ih, hp] at hs
      dsimp only at hs
      rw [hsee.chain] at hs
      dsimp only at hs
      rw [if_neg (fun h => by omega)] at hs
      simp only [Except.ok.injEq, Prod.mk.injEq] at hs
      exact hs.1.symm

end

namespace Sample

/-- a vote of one of three members -/
def castVote (n cp : Nat) (c : Contract (Fin 3)) (i : Fin 3) (s : Nat) (r : Str) : Contract (Fin 3) :=
  if s = c.slot + cp then
    if n ≤ ((List.finRange 3).filter fun j => Function.update c.votes i (some (s, r)) j = some (s, r)).length then
      ⟨r, s, fun _ => none⟩
    else { c with votes := Function.update c.votes i (some (s, r)) }
  else c

theorem castVote_vote (n cp : Nat) (c : Contract (Fin 3)) (i : Fin 3) (s : Nat) (r : Str) :
    Vote n cp c i s r (castVote n cp c i s r) := by
  unfold castVote
  split
  · rename_i hs
    split
    · rename_i hq
      refine .accepted hs ⟨_, (List.nodup_finRange 3).filter _, hq, fun j hj => ?_⟩
      simpa using (List.mem_filter.mp hj).2
    · rename_i hq
      refine .counted hs ?_
      rintro ⟨S, h1, h2, h3⟩
      apply hq
      refine le_trans h2 (List.Subperm.length_le (h1.subperm fun j hj => ?_))
      exact List.mem_filter.mpr ⟨List.mem_finRange j, by simpa using h3 j hj⟩
  · rename_i hs
    exact .rejected hs

/-- what a member is told: everything up to slot `fin` is finalized, and what the contract shows -/
def told (cp fin : Nat) (w : World (Fin 3)) (i : Fin 3) : Answers :=
  { answers w.contract.root w.contract.slot with
    finalized := some fin
    claim := fun _ => some 0
    report := some ((w.contract.votes i).elim 0 Prod.fst)
    tx := match (w.member i).pc with
      | .submit f => ⟨true, if f.slot = w.contract.slot + cp then .sent else .slotInvalid, .mined 1⟩
      | _ => ⟨true, .sent, .mined 1⟩ }

theorem told_reliable {cfg : Config} (hC : GoodFetch cfg chain) {cp fin : Nat} (hf : fin + 1 < 2 ^ 64)
    (w : World (Fin 3)) (i : Fin 3) (s : State) : Reliable cfg (told cp fin w i) s := by
  refine ⟨by simp [told, answers, Answers.sync, nodesInSync], ?_, answers_vals [] 0, hC, ⟨by simp [told], rfl⟩,
    by simp [told, answers], ?_, fun _ => 0, fun _ => rfl, by simp [told, answers]⟩
  · intro fin' h
    simp only [told, Option.some.injEq] at h
    omega
  · unfold told
    dsimp only
    split
    · dsimp only
      split
      · exact ⟨rfl, Or.inr ⟨rfl, by simp⟩⟩
      · exact ⟨rfl, Or.inl rfl⟩
    · exact ⟨rfl, Or.inr ⟨rfl, by simp⟩⟩

theorem told_sees (cp fin : Nat) (w : World (Fin 3)) (i : Fin 3) :
    Sees cp w.contract i (w.member i) (told cp fin w i) := by
  refine ⟨rfl, rfl, fun f hf => ?_⟩
  unfold told
  dsimp only
  rw [hf]
  dsimp only
  split
  · rename_i h; simp [h]
  · rename_i h; simp [h]

/-- a member's turn -/
def turn (cfg : Config) (fin : Nat) (w : World (Fin 3)) (i : Fin 3) : M (World (Fin 3)) := do
  let (l, _) ← stepLoop (Toy.lib hash) hash (if i = 0 then env else envRev) (told cfg.cpSize fin w i) (w.member i)
  .ok ⟨Function.update w.member i l, match (w.member i).pc with
    | .submit f => castVote 2 cfg.cpSize w.contract i f.slot f.root
    | _ => w.contract⟩

abbrev TurnOf (cfg : Config) (honest : Fin 3 → Prop) :=
  Turn (fun _ => law) (fun _ => Toy.lib hash) chain hash cfg 2 honest

theorem turn_ok {cfg : Config} (hC : GoodFetch cfg chain) {fin : Nat} (hf : fin + 1 < 2 ^ 64) {honest : Fin 3 → Prop}
    {w w' : World (Fin 3)} {i : Fin 3} (hi : honest i) (h : turn cfg fin w i = .ok w') :
    TurnOf cfg honest w (some (i, told cfg.cpSize fin w i)) w' := by
  unfold turn at h
  simp only [bind_ok] at h
  obtain ⟨⟨l, evs⟩, h1, h2⟩ := h
  simp only [Except.ok.injEq] at h2
  subst h2
  refine .member (E := if i = 0 then env else envRev) hi ?_ (told_reliable hC hf w i _) (chain_network _)
    (fun d hd => by cases hd) (told_sees _ _ w i) h1 ?_ ?_
  · split
    · exact law_env
    · exact law_rev
  · intro f hp
    rw [hp]
    exact castVote_vote _ _ _ _ _ _
  · intro hp
    split
    · rename_i f hf; exact absurd hf (hp f)
    · rfl

/-- checkpoints every `cp` slots -/
def cpCfg (cp : Nat) : Config := { liveCfg with cpSize := cp }

theorem cpCfg_good {cp : Nat} (h : 0 < cp) : GoodCfg (cpCfg cp) :=
  ⟨cfg_good.dep, h, cfg_good.fee, cfg_good.fork, cfg_good.feesAddr⟩

theorem cpCfg_typed {cp : Nat} (h : cp < 2 ^ 64) : CfgTyped (cpCfg cp) := by
  obtain ⟨h1, h2, h3, h4, h5, h6, h7⟩ := liveCfg_typed
  exact ⟨h1, h2, h3, h4, h, h6, h7⟩

theorem cpCfg_env {cp : Nat} {F : Env} (h : Obeys law F) : GoodEnv (cpCfg cp) F :=
  let g := law_goodEnv h
  ⟨g.valid, g.exact, g.noSelf, g.node, g.sane, g.consol, g.owners⟩

theorem cpCfg_chain (cp : Nat) : GoodFetch (cpCfg cp) chain :=
  let g := chain_good
  let ⟨h1, h3, h4, h5⟩ := g.honest
  ⟨⟨⟨h1, h3, h4, fun slot => by
    obtain ⟨i, key, v, k1, k2, k3⟩ := h5 slot
    refine ⟨i, key, v, k1, k2, k3.imp_right fun ⟨c, k3, k4⟩ => ⟨c, k3, ?_⟩⟩
    obtain ⟨evs, e1, ⟨d1, d2, d3, d4, d5, d6⟩, e3⟩ := k4.events
    cases k4
    have e : evs.cpSize = [] := by
      simp only [chain, Option.some.injEq] at e1
      rw [← e1]
    constructor <;> first
      | assumption
      | exact ⟨evs, e1, ⟨d1, d2, d3, d4, d5, d6.fee, d6.recipient, Or.inl e, d6.collateral⟩, e3⟩⟩, g.owners⟩, g.distinct, g.exception⟩

theorem cpCfg_start (cp : Nat) : (newOracle (cpCfg cp)).st.latestSlot = 11999999 ∧ (cpCfg cp).depSlot = 12000000 :=
  ⟨(by decide : sub64 12000000 1 = 11999999), rfl⟩

section
variable (cp fin : Nat) (honest : Fin 3 → Bool) (sched : Nat → Fin 3)

/-- an honest member makes a step; the others vote for nonsense -/
def next (w : World (Fin 3)) (i : Fin 3) : World (Fin 3) :=
  if honest i then
    match turn (cpCfg cp) fin w i with
    | .ok w' => w'
    | .error _ => w
  else ⟨w.member, castVote 2 cp w.contract i (w.contract.slot + cp) [0]⟩

/-- three oracles that were just started; the contract is one checkpoint before the first slot -/
def system : Nat → World (Fin 3)
  | 0 => ⟨fun _ => ⟨.top, ⟨cpCfg cp, { (newOracle (cpCfg cp)).st with tick := 1 }⟩, [], 0⟩,
      ⟨[], 12000000 - cp, fun _ => none⟩⟩
  | k + 1 => next cp fin honest (system k) (sched k)

def whose (k : Nat) : Option (Fin 3 × Answers) :=
  if honest (sched k) then some (sched k, told cp fin (system cp fin honest sched k) (sched k)) else none

variable {cp fin : Nat} {honest : Fin 3 → Bool} {sched : Nat → Fin 3}

theorem few_of (h2 : ∀ i, i ≠ 2 → honest i = true) (S : List (Fin 3)) (hn : S.Nodup)
    (hS : ∀ i ∈ S, ¬ honest i = true) : S.length < 2 := by
  have key : ∀ i ∈ S, i = 2 := fun i hi => by
    by_contra h
    exact hS i hi (h2 i h)
  match S, hn, key with
  | [], _, _ => decide
  | [_], _, _ => exact Nat.lt_succ_self 1
  | a :: b :: S, hn, hS =>
    have ha := hS a (by simp)
    have hb := hS b (by simp)
    simp [ha, hb] at hn

theorem members_of (h2 : ∀ i, i ≠ 2 → honest i = true) :
    Members sampleV (fun _ => [(9, 1)]) (cpCfg cp) 2 (fun _ => law) (fun _ => Toy.lib hash) (honest · = true) :=
  ⟨⟨[0, 1], by decide, by decide, by simpa using ⟨h2 0 (by decide), h2 1 (by decide)⟩⟩, few_of h2,
    fun _ _ => ⟨law_good, law_reads, fun _ => cpCfg_env⟩, fun _ _ => Toy.lib_ok hash_ok⟩

theorem system_begins (h1 : 0 < cp) (h2 : cp ≤ 12000000) :
    Begins (fun _ => law) (fun _ => Toy.lib hash) chain hash (cpCfg cp) 2 (honest · = true)
      (system cp fin honest sched 0) := by
  have e : (system cp fin honest sched 0).contract.slot + (cpCfg cp).cpSize = 12000000 := by
    show 12000000 - cp + cp = 12000000
    omega
  refine ⟨⟨by rw [e]; exact (by decide : 12000000 ≤ 12000000), ?_⟩, ?_, fun i _ => ⟨rfl, ?_, [],
    .start (E := env) (c := 12000000 - cp) 0 .born law_env rfl, fun s r h => by cases h⟩⟩
  · rw [e]
    show (12000000 - 12000000) % cp = 0
    simp
  · rintro s r ⟨S, _, h2, h3⟩
    cases S with
    | nil => simp at h2
    | cons j S => have := h3 j List.mem_cons_self; cases this
  · rw [e]
    show (newOracle (cpCfg cp)).st.latestSlot < _
    rw [(cpCfg_start cp).1]
    decide

theorem next_turn (hf : fin + 1 < 2 ^ 64) (h1 : 0 < cp) {k : Nat}
    (h : SystemInv (fun _ => law) (fun _ => Toy.lib hash) chain sampleV (fun _ => [(9, 1)]) hash (cpCfg cp) 2
      (honest · = true) (12000000 - cp) (system cp fin honest sched k)) :
    TurnOf (cpCfg cp) (honest · = true) (system cp fin honest sched k) (whose cp fin honest sched k)
      (system cp fin honest sched (k + 1)) := by
  show TurnOf (cpCfg cp) (honest · = true) (system cp fin honest sched k) (whose cp fin honest sched k)
    (next cp fin honest (system cp fin honest sched k) (sched k))
  unfold whose next
  generalize system cp fin honest sched k = w at *
  generalize sched k = i
  split
  · rename_i hi
    have hE : Obeys law (if i = 0 then env else envRev) := by
      split
      · exact law_env
      · exact law_rev
    obtain ⟨l', evs, h1, _⟩ := step_live (L := Toy.lib hash) hash_ok (cpCfg_good h1) (cpCfg_env hE) (h.member i hi).live
      (told_reliable (cpCfg_chain cp) (cp := cp) (fin := fin) hf w i _)
    have : ∃ w', turn (cpCfg cp) fin w i = .ok w' := by
      unfold turn
      rw [show (cpCfg cp).cpSize = cp from rfl, h1]
      exact ⟨_, rfl⟩
    obtain ⟨w', hw⟩ := this
    rw [hw]
    exact turn_ok (honest := (honest · = true)) (cpCfg_chain cp) hf hi hw
  · rename_i hi
    exact .other hi (castVote_vote _ _ _ _ _ _)

theorem system_ok (h1 : 0 < cp) (h2 : cp ≤ 12000000) (h3 : ∀ i, i ≠ 2 → honest i = true)
    (hf : 12000000 ≤ fin ∧ fin < 13000000)
    (hv : ∀ q, BooksAt chain sampleV (fun _ => [(9, 1)]) (cpCfg cp) 12000000 q → q.st.vals ≠ []) (k : Nat) :
    SystemInv (fun _ => law) (fun _ => Toy.lib hash) chain sampleV (fun _ => [(9, 1)]) hash (cpCfg cp) 2
      (honest · = true) (12000000 - cp) (system cp fin honest sched k) ∧
    Within (honest · = true) fin (system cp fin honest sched k) := by
  have hC := cpCfg_chain cp
  have hc := cpCfg_typed (cp := cp) (by omega)
  have hM := members_of (cp := cp) h3
  induction k with
  | zero =>
    refine ⟨begins_inv (cpCfg_good h1) hC chain_typed hash_ok hc hM (system_begins h1 h2), ?_, fun _ _ => ?_,
      fun _ _ s r h => by cases h⟩
    · show 12000000 - cp ≤ fin
      omega
    · show (newOracle (cpCfg cp)).st.latestSlot ≤ fin
      rw [(cpCfg_start cp).1]
      omega
  | succ k ih =>
    have ht := next_turn (by omega) h1 ih.1
    have hs := ih.2.slot
    have e : 12000000 - cp + (cpCfg cp).cpSize = 12000000 := by
      show 12000000 - cp + cp = 12000000
      omega
    refine ⟨turn_inv (cpCfg_good h1) hC chain_typed hash_ok hc rfl hM (fun q h => hv q (by rwa [e] at h))
      (by rw [e, (cpCfg_start cp).2]) ?_ ih.1 ht, ih.2.turn (cpCfg_good h1) hash_ok hM ih.1 ?_ ht⟩
    · show _ + cp < 2 ^ 64
      omega
    · intro i A fin' h1 h2
      unfold whose at h1
      split at h1
      · simp only [Option.some.injEq, Prod.mk.injEq] at h1
        rw [← h1.2] at h2
        simp only [told, Option.some.injEq] at h2
        omega
      · cases h1

theorem system_fair (hs : ∀ i k, ∃ j, k ≤ j ∧ sched j = i) :
    TurnsCome fin (honest · = true) (whose cp fin honest sched) := by
  intro i hi k
  obtain ⟨j, hj, e⟩ := hs i k
  refine ⟨j, told cp fin (system cp fin honest sched j) i, fin, hj, ?_, ?_, rfl, le_refl _⟩
  · unfold whose
    rw [e, if_pos hi]
  · simp [told, answers, Answers.sync, nodesInSync]

end

theorem live_vals {q : Oracle} (h : BooksAt chain sampleV (fun _ => [(9, 1)]) (cpCfg 100) 12000000 q) : q.st.vals ≠ [] := by
  obtain ⟨q', v, h1, _, h2, _⟩ := live_books
  rw [(h.unique live_targets cfg_good chain_good.toSafeFetch h1).vals]
  exact List.ne_nil_of_mem h2

def turns (k : Nat) : Fin 3 := ⟨k % 3, Nat.mod_lt _ (by decide)⟩

theorem turns_fair (i : Fin 3) (k : Nat) : ∃ j, k ≤ j ∧ turns j = i :=
  ⟨3 * k + i, by omega, Fin.ext (show (3 * k + i) % 3 = i by omega)⟩

end Sample

open Sample in
/-- Two honest oracles and a member that votes for nonsense. Slot 12000000 is finalized and is the first checkpoint:
the contract accepts its root, everybody can claim what they are owed, and both oracles get there. -/
example : ∃ (w : Nat → World (Fin 3)) (k : Nat), SystemRun (fun _ => law) (fun _ => Toy.lib hash) chain hash liveCfg 2 (· ≠ 2)
      (whose 100 12000000 (· != 2) turns) w ∧ (w 0).contract.slot = 11999900 ∧
    (w 3).contract.votes 2 = some (12000000, [0]) ∧ (w k).contract.slot = 12000000 ∧
    (∃ q root, BooksAt chain sampleV (fun _ => [(9, 1)]) liveCfg 12000000 q ∧
      (w k).contract.root = b!"0x" ++ hexEncode root ∧ Settles hash q.st root) ∧
    ∀ i, i ≠ 2 → ∃ k, 12000000 ≤ ((w k).member i).o.st.latestSlot := by
  have h3 : ∀ i : Fin 3, i ≠ 2 → (i != 2) = true := by decide
  have e3 : (fun i : Fin 3 => (i != 2) = true) = (· ≠ 2) := by funext i; simp
  have hok := system_ok (cp := 100) (fin := 12000000) (sched := turns) (by decide) (by decide) h3 (by decide)
    (fun q => live_vals)
  have hr : SystemRun (fun _ => law) (fun _ => Toy.lib hash) chain hash (cpCfg 100) 2 (fun i : Fin 3 => (i != 2) = true)
      (whose 100 12000000 (· != 2) turns) (system 100 12000000 (· != 2) turns) :=
    ⟨system_begins (by decide) (by decide), fun k => next_turn (by decide) (by decide) (hok k).1⟩
  have hsm : ∀ k, (system 100 12000000 (· != 2) turns k).contract.slot + (cpCfg 100).cpSize < 2 ^ 64 := fun k => by
    have := (hok k).2.slot
    show _ + 100 < 2 ^ 64
    omega
  have hno : NotOvertaken (fun i : Fin 3 => (i != 2) = true) (system 100 12000000 (· != 2) turns) := by
    intro k i f hi hp
    have h1 := (hok k).2.slot
    obtain ⟨h2, h3⟩ := ((hok k).1.member i hi).fresh f hp
    have h3 : (f.slot - (12000000 - 100)) % 100 = 0 := h3
    omega
  have hv : ∀ q, BooksAt chain sampleV (fun _ => [(9, 1)]) (cpCfg 100) 12000000 q → q.st.vals ≠ [] := fun q => live_vals
  have hF := system_fair (cp := 100) (fin := 12000000) (honest := (· != 2)) turns_fair
  obtain ⟨k, hk⟩ := C88_contract_goes_on_partial live_targets cfg_good chain_good chain_typed hash_ok liveCfg_typed rfl
    (members_of h3) hr hv hsm hno hF 1 (by decide)
  have hk : (system 100 12000000 (· != 2) turns k).contract.slot = 12000000 := hk
  refine ⟨_, k, e3 ▸ hr, rfl, by decide +kernel, hk, ?_, fun i hi => ?_⟩
  · have := C88_roots_settle_partial cfg_good chain_good chain_typed hash_ok liveCfg_typed rfl (members_of h3) hr hv hsm
      (N := 12000000) (fun s q hs h => live_fit hs h) k (by rw [hk]; decide) (by rw [hk])
    rwa [hk] at this
  · exact C88_all_keep_up_partial live_targets cfg_good chain_good chain_typed hash_ok liveCfg_typed rfl
      (members_of h3) hr hv hsm hno hF (h3 i hi)

namespace Sample

/-- member 2 votes for the first checkpoint and then sleeps while the others go on -/
def sleeps (k : Nat) : Fin 3 := if k < 6 then 2 else if k < 36 then (if k % 2 = 0 then 0 else 1) else turns k

theorem sleeps_fair (i : Fin 3) (k : Nat) : ∃ j, k ≤ j ∧ sleeps j = i := by
  obtain ⟨j, h1, h2⟩ := turns_fair i (k + 36)
  exact ⟨j, by omega, by unfold sleeps; rw [if_neg (by omega), if_neg (by omega)]; exact h2⟩

/-- the books after the first slot, with a checkpoint every slot -/
theorem quick_vals {q : Oracle} (h : BooksAt chain sampleV (fun _ => [(9, 1)]) (cpCfg 1) 12000000 q) : q.st.vals ≠ [] := by
  have : ∃ q, BooksAt chain sampleV (fun _ => [(9, 1)]) (cpCfg 1) 12000000 q ∧ q.st.vals ≠ [] := by
    obtain ⟨b, h1, k1⟩ := ex_ok (x := fetchFullBlock chain (newOracle (cpCfg 1)).st (newOracle (cpCfg 1)).st.nextSlot false)
      (P := fun b => (advanceState env (newOracle (cpCfg 1)) b).toOption.any fun (p : Oracle × Option Nat) =>
        p.2.isSome && decide (p.1.st.latestSlot = 12000000 ∧ p.1.st.vals ≠ [])) (by decide +kernel)
    obtain ⟨⟨q, n⟩, h2, k2⟩ := ex_ok k1
    simp only [Bool.and_eq_true, decide_eq_true_eq, Option.isSome_iff_exists] at k2
    obtain ⟨⟨n, rfl⟩, k3, k4⟩ := k2
    exact ⟨q, ⟨env, _, cpCfg_env law_env, reads_of rfl rfl, .slot .start h1 h2 (by decide), k3⟩, k4⟩
  obtain ⟨q', h1, h2⟩ := this
  rw [(h.unique live_targets (cpCfg_good (by decide)) (cpCfg_chain 1).toSafeFetch h1).vals]
  exact h2

end Sample

open Sample in
/-- **C88**, limits: without `NotOvertaken` it is false that every oracle keeps up. There is a run of three honest
oracles whose nodes always work and show slot 12000002 as finalized, in which every oracle gets its turn again and
again, but one of them, which slept while the others got two roots accepted, waits for ever at slot 12000000. -/
theorem C88_false_overtaken : ∃ (cfg : Config) (who : Nat → Option (Fin 3 × Answers)) (w : Nat → World (Fin 3)),
    Members sampleV (fun _ => [(9, 1)]) cfg 2 (fun _ => law) (fun _ => Toy.lib hash) (fun _ : Fin 3 => True) ∧
    SystemRun (fun _ => law) (fun _ => Toy.lib hash) chain hash cfg 2 (fun _ => True) who w ∧
    (∀ q, BooksAt chain sampleV (fun _ => [(9, 1)]) cfg ((w 0).contract.slot + cfg.cpSize) q → q.st.vals ≠ []) ∧
    TurnsCome 12000002 (fun _ => True) who ∧
    ∀ k, 36 ≤ k → ((w k).member 2).o.st.latestSlot = 12000000 := by
  have h3 : ∀ i : Fin 3, i ≠ 2 → (fun _ : Fin 3 => true) i = true := fun _ _ => rfl
  have e3 : (fun i : Fin 3 => (fun _ : Fin 3 => true) i = true) = (fun _ => True) := by funext i; simp
  have hok := system_ok (cp := 1) (fin := 12000002) (sched := sleeps) (by decide) (by decide) h3 (by decide)
    (fun q => quick_vals)
  have hr : SystemRun (fun _ => law) (fun _ => Toy.lib hash) chain hash (cpCfg 1) 2 (fun i : Fin 3 => (fun _ : Fin 3 => true) i = true)
      (whose 1 12000002 (fun _ => true) sleeps) (system 1 12000002 (fun _ => true) sleeps) :=
    ⟨system_begins (by decide) (by decide), fun k => next_turn (by decide) (by decide) (hok k).1⟩
  have hF := system_fair (cp := 1) (fin := 12000002) (honest := fun _ => true) sleeps_fair
  have h36 : (match ((system 1 12000002 (fun _ => true) sleeps 36).member 2).pc with
      | .confirm f => decide (f.slot < (system 1 12000002 (fun _ => true) sleeps 36).contract.slot)
      | _ => false) = true ∧ ((system 1 12000002 (fun _ => true) sleeps 36).member 2).o.st.latestSlot = 12000000 := by
    decide +kernel
  obtain ⟨h36, hl⟩ := h36
  refine ⟨cpCfg 1, _, system 1 12000002 (fun _ => true) sleeps, e3 ▸ members_of h3, e3 ▸ hr, fun q => quick_vals, e3 ▸ hF, fun k hk => ?_⟩
  split at h36
  · rename_i f hp
    rw [C88_overtaken_waits hr rfl hp (of_decide_eq_true h36) hk]
    exact hl
  · cases h36

end Verif
