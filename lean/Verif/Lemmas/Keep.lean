import Verif.Spec.Typed
import Verif.Lemmas.Live
import Verif.Lemmas.Persist
/-
A state reached from data that fits its Go types fits its Go types.
-/
namespace Verif
open VMap

theorem Ascii.append {a b : Str} (ha : Ascii a) (hb : Ascii b) : Ascii (a ++ b) := by
  intro c hc
  rcases List.mem_append.mp hc with h | h
  · exact ha c h
  · exact hb c h

theorem Ascii.drop {a : Str} (ha : Ascii a) (n : Nat) : Ascii (a.drop n) :=
  fun c hc => ha c (List.mem_of_mem_drop hc)

theorem ascii_0x : Ascii b!"0x" := by
  intro c hc
  simp only [List.mem_cons, List.not_mem_nil, or_false] at hc
  omega

theorem Bytes.hex {l : List Nat} (h : Bytes l) : Ascii (b!"0x" ++ hexEncode l) :=
  ascii_0x.append (hexEncode_ascii _ h)

theorem ascii_address {creds : List Nat} {w : Str} (h : HasAddress creds w) (hb : Bytes creds) : Ascii w := by
  obtain ⟨p, addr, _, _, rfl, rfl⟩ := h
  exact Bytes.hex fun x hx => hb x (by simp [hx])

theorem ascii_withdrawal {v : BVal} {w : Str} {t : WType} (h : withdrawalAndType v = .ok (w, t))
    (hb : Bytes v.creds) : Ascii w := by
  have hx := hexEncode_ascii _ hb
  unfold withdrawalAndType at h
  dsimp only at h
  split at h
  · cases h
  · repeat' split at h
    all_goals
      simp only [Except.ok.injEq, Prod.mk.injEq] at h
      obtain ⟨rfl, _⟩ := h
    · exact ascii_0x.append (hx.drop _)
    · exact ascii_0x.append (hx.drop _)
    · exact ascii_0x.append (hx.drop _)
    · intro c hc; cases hc

theorem ascii_lower {a : Str} (h : Ascii a) : Ascii (lower a) := by
  intro c hc
  unfold lower at hc
  obtain ⟨x, hx, rfl⟩ := List.mem_map.mp hc
  have := h x hx
  unfold lowerByte
  split <;> omega

theorem fetch_typed {T : Chain} (hT : ChainTyped T) {s : State} {slot : Nat} {all : Bool} {b : FullBlock}
    (h : fetchFullBlock T s slot all = .ok b) : BlockTyped b := by
  obtain ⟨hv, hvs⟩ := fetched_owner hT.validators h
  obtain ⟨i, key, f⟩ := fetch_ok h
  have hd := hT.duty _ _ _ _ f.duty
  have ex : U64 exceptionEvent.block ∧ Ascii exceptionEvent.addr := by
    refine ⟨by unfold U64 exceptionEvent; decide, ?_⟩
    have : asciiB exceptionEvent.addr = true := by decide +kernel
    exact asciiB_iff.mp this
  rcases f.rest with ⟨_, h2, h3, _⟩ | ⟨c, evs, h1, h2, h3, _, h5, h6, _⟩
  · refine ⟨?_, ?_, hv.1, ?_, ?_, hvs⟩
    · rw [f.index]; exact hd.1
    · rw [f.atKey]; exact hd.2
    · intro c hc; rw [h2] at hc; cases hc
    · rw [h3]; exact ⟨by simp, by simp, by simp⟩
  · have he := hT.events _ _ (hT.cons _ _ h1) h5
    refine ⟨?_, ?_, hv.1, ?_, ?_, hvs⟩
    · rw [f.index]; exact hd.1
    · rw [f.atKey]; exact hd.2
    · intro c' hc
      rw [h2, Option.some.injEq] at hc
      subst hc
      exact hT.cons _ _ h1
    · rw [h6]
      split
      · refine ⟨he.subs, he.unsubs, ?_⟩
        intro x hx
        rcases List.mem_append.mp hx with hx | hx
        · exact he.ether x hx
        · rw [List.mem_singleton] at hx; subst hx; exact ex
      · exact he

theorem summarize_typed {s : State} {b : FullBlock} {pool : Str} {sb : SumBlock} (hb : BlockTyped b)
    (hs : U64 b.dutySlot) (h : summarize s b pool = .ok sb) : SumTyped sb := by
  unfold summarize at h
  simp only [bind_ok] at h
  obtain ⟨⟨w, wt⟩, hw, h⟩ := h
  have hw := ascii_withdrawal hw hb.creds
  dsimp only at h
  cases hc : b.cons with
  | none =>
    rw [hc] at h
    have h := Except.ok.inj h
    subst h
    exact ⟨hs, by unfold U64; dsimp only; omega, hb.index, hb.key, hw⟩
  | some c =>
    rw [hc] at h
    simp only [bind_ok] at h
    obtain ⟨_, _, ⟨r, tp, rt⟩, _, n, hn, h⟩ := h
    have h := Except.ok.inj h
    subst h
    exact ⟨hs, by have := exec_ok hn; subst this; exact hb.number c hc, hb.index, hb.key, hw⟩

theorem donations_sub {b : FullBlock} {pool : Str} {dons : List EtherEvent}
    (h : getDonations b pool = .ok dons) : ∀ e ∈ dons, e ∈ b.events.ether := by
  unfold getDonations at h
  split at h
  · have h := Except.ok.inj h; subst h; intro e he; cases he
  · simp only [bind_ok] at h
    obtain ⟨mev, _, tp, _, h⟩ := h
    rcases ite_cases h with ⟨_, h⟩ | ⟨_, h⟩
    · have h := Except.ok.inj h; subst h; exact fun e he => he
    · rcases ite_cases h with ⟨_, h⟩ | ⟨_, h⟩
      · have h := Except.ok.inj h; subst h; exact fun e he => (List.mem_filter.mp he).1
      · cases h

theorem i64_range (x : Int) : -2 ^ 63 ≤ i64 x ∧ i64 x < 2 ^ 63 := by
  unfold i64
  have := Int.le_bmod (x := x) (m := 18446744073709551616) (by decide)
  have := Int.bmod_lt (x := x) (m := 18446744073709551616) (by decide)
  omega

theorem typed_new {cfg : Config} (h : CfgTyped cfg) : StateTyped (newOracle cfg).st := by
  have : ∀ {α : Type} {P : α → Prop}, ∀ p ∈ ([] : List α), P p := by intro α P p hp; cases hp
  refine ⟨this, ?_, ?_, h.depSlot, this, this, this, this, this, this, this, this, this, h.fee, h.poolAddr,
    h.network, h.poolFeesAddr, h.cpSize, h.depBlock, h.depSlot, List.Pairwise.nil,
    List.Pairwise.nil⟩
  · show U64 (sub64 cfg.depSlot 1)
    unfold U64 sub64 u64
    omega
  · unfold U64; show 0 < _; omega

theorem typed_slot {E : Env} (hE : ValidEnv E) (hX : ExactEnv E) (hC : NoSelfConsol E) (hT : EnvTyped E)
    {o o' : Oracle} {b : FullBlock} {n : Nat} (hm : MapOK o.st) (hs : StateTyped o.st) (hb : BlockTyped b)
    (h : advanceState E o b = .ok (o', some n)) : StateTyped o'.st ∧ MapOK o'.st := by
  obtain ⟨sb, dons, r, ops, k1, _, _, _, hp, _, hcause, hn, _⟩ := slot_runs (x := False) hE hX hC hm
    (fun hf => hf.elim) h
  obtain ⟨sb', dons', p, m, w, k1', hd, hrec, _, hf, _, _, hfee⟩ := slot_frame h
  rw [k1] at k1'
  cases k1'
  have hm' := hp.sorted hm
  have hds : U64 b.dutySlot := by rw [← (slot_next h).1]; exact hs.nextSlot
  have hsb := summarize_typed hb hds k1
  have hdon := donations_sub hd
  have app : ∀ {α : Type} {P : α → Prop} {a c : List α}, (∀ x ∈ a, P x) → (∀ x ∈ c, P x) →
      ∀ x ∈ a ++ c, P x := by
    intro α P a c h1 h2 x hx
    rcases List.mem_append.mp hx with hx | hx
    · exact h1 x hx
    · exact h2 x hx
  have one : ∀ {l : List SumBlock}, l = [] ∨ l = [sb] → ∀ x ∈ l, SumTyped x := by
    intro l hl x hx
    rcases hl with rfl | rfl
    · cases hx
    · rw [List.mem_singleton] at hx; subst hx; exact hsb
  refine ⟨⟨?_, ?_, ?_, ?_, ?_, ?_, ?_, ?_, ?_, ?_, ?_, ?_, ?_, ?_, ?_, ?_, ?_, ?_, ?_, ?_, hm', ?_⟩, hm'⟩
  · have : o'.st.stateHash = o.st.stateHash := (by have := congrArg State.stateHash hf; exact this)
    rw [this]; exact hs.hash
  · have : o'.st.latestSlot = o.st.nextSlot := (by have := congrArg State.latestSlot hf; exact this)
    rw [this]; exact hs.nextSlot
  · have : o'.st.latestBlock = if sb.type ≠ .missed then sb.block else o.st.latestBlock := by
      have := congrArg State.latestBlock hf; exact this
    rw [this]
    split
    · exact hsb.2.1
    · exact hs.latestBlock
  · have : o'.st.nextSlot = u64 (o.st.nextSlot + 1) := (by have := congrArg State.nextSlot hf; exact this)
    rw [this]
    unfold U64 u64
    omega
  · have key : ∀ i v, VMap.get o'.st.vals i = some v → U64 i ∧ ValTyped v := by
      refine hp.inv (fun i v => U64 i ∧ ValTyped v) _ hcause ?_ ?_ ?_
      · intro i op f v v' _ hv hw
        cases hv <;> exact hw
      · intro i u hcr _ _ _ hidx
        unfold ValTyped
        rcases hcr with ⟨ev, w, v, ⟨hmem, hev, _, _, hadr, _⟩, _, hw, hk⟩ | ⟨ht, hi, hw, hk⟩ |
          ⟨_, t, req, r, v, w, hn, hv, hi, hadr, hw, hk, t', cs, j, hcs, hj⟩
        · have hvt := hb.valsSubs v (List.of_mem_zip hmem).2
          have hi : U64 i := by rw [← hev]; exact (hb.events.subs ev (List.of_mem_zip hmem).1).1
          rw [hidx, hw, hk]
          exact ⟨hi, hi, ascii_address hadr hvt.1, hvt.2.hex⟩
        · rw [hidx, hw, hk, ← hi]
          exact ⟨hsb.2.2.1, hsb.2.2.1, hsb.2.2.2.2, hsb.2.2.2.1⟩
        · have hvt := hT.node _ _ _ _ hn v hv
          have hi : U64 i := hT.consol _ _ _ hcs _ hj
          rw [hidx, hw, hk]
          exact ⟨hi, hi, ascii_address hadr hvt.1, hvt.2.hex⟩
      · intro i v hv
        exact hs.vals _ (mem_of_get hv)
    intro q hq
    exact key q.1 q.2 (VMap.Sorted.get_of_mem hm' hq)
  · have : o'.st.committed = o.st.committed := (by have := congrArg State.committed hf; exact this)
    rw [this]; exact hs.committed
  · have : o'.st.subs = o.st.subs ++ b.events.subs := (by have := congrArg State.subs hf; exact this)
    rw [this]; exact app hs.subs hb.events.subs
  · have : o'.st.unsubs = o.st.unsubs ++ b.events.unsubs := (by have := congrArg State.unsubs hf; exact this)
    rw [this]; exact app hs.unsubs hb.events.unsubs
  · have : o'.st.ether = o.st.ether ++ b.events.ether := (by have := congrArg State.ether hf; exact this)
    rw [this]; exact app hs.ether hb.events.ether
  · have : o'.st.donations = o.st.donations ++ dons' := (by have := congrArg State.donations hf; exact this)
    rw [this]; exact app hs.donations fun e he => hb.events.ether e (hdon e he)
  · have : o'.st.proposed = o.st.proposed ++ p := (by have := congrArg State.proposed hf; exact this)
    rw [this]
    refine app hs.proposed (one ?_)
    rw [hrec.prop]
    split
    · exact Or.inr rfl
    · exact Or.inl rfl
  · have : o'.st.missed = o.st.missed ++ m := (by have := congrArg State.missed hf; exact this)
    rw [this]
    exact app hs.missed (one (hrec.miss.imp id (·.1)))
  · have : o'.st.wrongFee = o.st.wrongFee ++ w := (by have := congrArg State.wrongFee hf; exact this)
    rw [this]
    exact app hs.wrongFee (one (hrec.wrong.imp id (·.1)))
  · rcases hfee with ⟨e, _⟩ | ⟨f, _, _, e, _⟩
    · rw [e]; exact hs.fee
    · rw [e]; exact i64_range f
  · have : o'.st.poolAddr = o.st.poolAddr := (by have := congrArg State.poolAddr hf; exact this)
    rw [this]; exact hs.poolAddr
  · have : o'.st.network = o.st.network := (by have := congrArg State.network hf; exact this)
    rw [this]; exact hs.network
  · have : o'.st.poolFeesAddr = o.st.poolFeesAddr := (by have := congrArg State.poolFeesAddr hf; exact this)
    rw [this]; exact hs.poolFeesAddr
  · have : o'.st.cpSize = o.st.cpSize := (by have := congrArg State.cpSize hf; exact this)
    rw [this]; exact hs.cpSize
  · have : o'.st.depBlock = o.st.depBlock := (by have := congrArg State.depBlock hf; exact this)
    rw [this]; exact hs.depBlock
  · have : o'.st.depSlot = o.st.depSlot := (by have := congrArg State.depSlot hf; exact this)
    rw [this]; exact hs.depSlot
  · have : o'.st.committed = o.st.committed := (by have := congrArg State.committed hf; exact this)
    rw [this]; exact hs.commitMap

/-! ### checkpoints -/

theorem pairUp_bytes {H : List Nat → List Nat} (hH : HashOK H) : ∀ (l : List (List Nat)), ∀ x ∈ pairUp H l, Bytes x
  | a :: b :: rest => by
    intro x hx
    rw [pairUp, List.mem_cons] at hx
    rcases hx with rfl | hx
    · exact (hH _).2
    · exact pairUp_bytes hH rest x hx
  | [] => by intro x hx; simp [pairUp] at hx
  | [_] => by intro x hx; simp [pairUp] at hx

theorem fixOdd_bytes {l : List (List Nat)} (h : ∀ x ∈ l, Bytes x) : ∀ x ∈ fixOdd l, Bytes x := by
  intro x hx
  unfold fixOdd at hx
  split at hx
  · rcases List.mem_append.mp hx with hx | hx
    · exact h x hx
    · rw [Option.mem_toList] at hx
      exact h x (List.mem_of_getLast? hx)
  · exact h x hx

theorem treeLevels_bytes {H : List Nat → List Nat} (hH : HashOK H) (d : Nat) :
    ∀ (l : List (List Nat)), (∀ x ∈ l, Bytes x) → ∀ lv ∈ treeLevels H d l, ∀ x ∈ lv, Bytes x := by
  induction d with
  | zero => intro l _ lv hlv; simp [treeLevels] at hlv
  | succ d ih =>
    intro l hl lv hlv
    rw [treeLevels, List.mem_cons] at hlv
    rcases hlv with rfl | hlv
    · exact fixOdd_bytes hl
    · exact ih _ (pairUp_bytes hH _) lv hlv

theorem siblings_bytes : ∀ (ls : List (List (List Nat))) (i : Nat) (r), (∀ lv ∈ ls, ∀ x ∈ lv, Bytes x) →
    siblings ls i = .ok r → ∀ x ∈ r, Bytes x := by
  intro ls
  induction ls with
  | nil => intro i r _ h; have h := Except.ok.inj h; subst h; intro x hx; cases hx
  | cons l ls ih =>
    intro i r hl h
    rw [siblings] at h
    split at h
    · cases h
    · rename_i x hx
      simp only [bind_ok] at h
      obtain ⟨rest, h1, h2⟩ := h
      have h2 := Except.ok.inj h2
      subst h2
      intro y hy
      rw [List.mem_cons] at hy
      rcases hy with rfl | hy
      · exact hl l (by simp) _ (List.mem_of_getElem? hx)
      · exact ih _ _ (fun lv hlv => hl lv (by simp [hlv])) h1 y hy

theorem putStr_all {α : Type} {P : Str × α → Prop} {m : List (Str × α)} {k : Str} {v : α}
    (h : ∀ p ∈ m, P p) (hk : P (k, v)) : ∀ p ∈ putStr m k v, P p := by
  intro p hp
  rcases putStr_mem hp with rfl | hp
  · exact hk
  · exact h p hp

theorem freezeLoop_typed {T : TreeData} (hT : ∀ lv ∈ T.levels, ∀ x ∈ lv, Bytes x) :
    ∀ (l : List (Str × Leaf)) (ps ls ps' ls'), (∀ p ∈ l, Ascii p.1 ∧ Ascii p.2.waddr) →
      (∀ p ∈ ps, Ascii p.1 ∧ ∀ x ∈ p.2, Ascii x) → (∀ p ∈ ls, Ascii p.1 ∧ Ascii p.2.waddr) →
      freezeLoop T l ps ls = .ok (ps', ls') →
      (∀ p ∈ ps', Ascii p.1 ∧ ∀ x ∈ p.2, Ascii x) ∧ ∀ p ∈ ls', Ascii p.1 ∧ Ascii p.2.waddr := by
  intro l
  induction l with
  | nil =>
    intro ps ls ps' ls' _ h1 h2 h
    have h := Except.ok.inj h
    cases h
    exact ⟨h1, h2⟩
  | cons q l ih =>
    obtain ⟨k, raw⟩ := q
    intro ps ls ps' ls' hl h1 h2 h
    rw [freezeLoop] at h
    simp only [bind_ok] at h
    obtain ⟨e, _, h⟩ := h
    have hk := hl _ List.mem_cons_self
    rcases ite_cases h with ⟨_, h⟩ | ⟨_, h⟩
    · cases h
    · split at h
      · cases h
      · simp only [bind_ok] at h
        obtain ⟨i, _, sibs, hsib, h⟩ := h
        refine ih _ _ _ _ (fun p hp => hl p (List.mem_cons_of_mem _ hp)) ?_ ?_ h
        · refine putStr_all h1 ⟨hk.1, ?_⟩
          intro x hx
          obtain ⟨y, hy, rfl⟩ := List.mem_map.mp hx
          exact (siblings_bytes _ _ _ hT hsib y hy).hex
        · exact putStr_all h2 hk

theorem freezeLoop_asc {T : TreeData} :
    ∀ (l : List (Str × Leaf)) (ps ls ps' ls'), Ascending ps → Ascending ls →
      freezeLoop T l ps ls = .ok (ps', ls') → Ascending ps' ∧ Ascending ls' := by
  intro l
  induction l with
  | nil =>
    intro ps ls ps' ls' h1 h2 h
    have h := Except.ok.inj h
    cases h
    exact ⟨h1, h2⟩
  | cons q l ih =>
    obtain ⟨k, raw⟩ := q
    intro ps ls ps' ls' h1 h2 h
    rw [freezeLoop] at h
    simp only [bind_ok] at h
    obtain ⟨e, _, h⟩ := h
    rcases ite_cases h with ⟨_, h⟩ | ⟨_, h⟩
    · cases h
    · split at h
      · cases h
      · simp only [bind_ok] at h
        obtain ⟨i, _, sibs, hsib, h⟩ := h
        exact ih _ _ _ _ (putStr_asc _ _ h1) (putStr_asc _ _ h2) h

theorem frz_typed {H : List Nat → List Nat} (hH : HashOK H) {slot : Nat} {vals : VMap} {ls : List Leaf}
    {f : Frozen} (hslot : U64 slot) (hv : ∀ p ∈ vals, U64 p.1 ∧ ValTyped p.2)
    (hva : Ascending vals) (hl : ∀ l ∈ ls, Ascii l.waddr) (h : frz H slot vals ls = .ok (some f)) : FrozenTyped f := by
  unfold frz at h
  split at h
  · simp at h
  · simp only [bind_ok] at h
    obtain ⟨root, hroot, ⟨proofs, leafs⟩, hloop, h⟩ := h
    have h := Option.some.inj (Except.ok.inj h)
    subst h
    have hb := treeLevels_bytes hH (treeDepth (ls.map fun l => H (leafPreimage l)).length)
      (ls.map fun l => H (leafPreimage l)) (by
        intro x hx
        obtain ⟨l, _, rfl⟩ := List.mem_map.mp hx
        exact (hH _).2)
    have hraw : ∀ (l : List Leaf) (m : List (Str × Leaf)), (∀ x ∈ l, Ascii x.waddr) →
        (∀ p ∈ m, Ascii p.1 ∧ Ascii p.2.waddr) →
        ∀ p ∈ l.foldl (fun m l => putStr m l.waddr l) m, Ascii p.1 ∧ Ascii p.2.waddr := by
      intro l
      induction l with
      | nil => exact fun m _ h => h
      | cons a l ih =>
        intro m h1 h2
        rw [List.foldl_cons]
        have ha := h1 a (by simp)
        exact ih _ (fun x hx => h1 x (by simp [hx])) (putStr_all h2 ⟨ha, ha⟩)
    have := freezeLoop_typed (by exact hb) _ _ _ _ _ (hraw ls [] hl (by intro p hp; cases hp))
      (by intro p hp; cases hp) (by intro p hp; cases hp) hloop
    have hasc := freezeLoop_asc _ _ _ _ _ List.Pairwise.nil List.Pairwise.nil hloop
    refine ⟨hslot, ?_, hv, this.2, this.1, hva, hasc.2, hasc.1⟩
    unfold treeRoot at hroot
    split at hroot
    · have hroot := Except.ok.inj hroot
      subst hroot
      exact Bytes.hex (hH _).2
    · cases hroot

theorem leaves_ascii {s : State} (hs : StateTyped s) {ls : List Leaf} (h : LeavesOf s ls) :
    ∀ l ∈ ls, Ascii l.waddr := by
  intro l hl
  have hh := h.head
  cases ls with
  | nil => cases hl
  | cons a ls =>
    simp only [List.head?_cons, Option.some.injEq] at hh
    rcases List.mem_cons.mp hl with rfl | hl
    · rw [hh]; exact ascii_lower hs.poolFeesAddr
    · obtain ⟨⟨p, hp, e⟩, _⟩ := h.sound l hl
      rw [e]; exact ascii_lower (hs.vals p hp).2.2.1

theorem typed_frozen {H : List Nat → List Nat} (hH : HashOK H) {s : State} {f : Frozen} (hs : StateTyped s)
    (h : FrozenOf H s f) : FrozenTyped f := by
  obtain ⟨ls, h1, h2⟩ := h
  exact frz_typed hH hs.latestSlot hs.vals hs.valMap (leaves_ascii hs h1) h2

theorem StateTyped.re' {s : State} (h : StateTyped s) {c : List (Nat × Frozen)} (t : Nat) {x : Str} (hx : Ascii x)
    (hc : ∀ p ∈ c, U64 p.1 ∧ FrozenTyped p.2) (hca : Ascending c) :
    StateTyped { s with tick := t, stateHash := x, committed := c } :=
  ⟨hx, h.latestSlot, h.latestBlock, h.nextSlot, h.vals, hc, h.subs, h.unsubs, h.ether, h.donations, h.proposed,
    h.missed, h.wrongFee, h.fee, h.poolAddr, h.network, h.poolFeesAddr, h.cpSize, h.depBlock, h.depSlot,
    h.valMap, hca⟩

theorem putFrozen_sub {m : List (Nat × Frozen)} {k : Nat} {f : Frozen} :
    ∀ p ∈ putFrozen m k f, p = (k, f) ∨ p ∈ m := fun _ hp => GoMap.put_sub hp

theorem typed_freeze {H : List Nat → List Nat} (hH : HashOK H) {E : Env} (hE : ValidEnv E) {s s' : State}
    {r : Bool} (hs : StateTyped s) (h : freeze H E s = .ok (s', r)) : StateTyped s' := by
  rcases freeze_cases hE h with ⟨_, rfl⟩ | ⟨f, hF, _, rfl⟩
  · exact hs.re' _ hs.hash hs.committed hs.commitMap
  · refine hs.re' _ hs.hash ?_ (putFrozen_asc hs.commitMap _ _)
    intro p hp
    rcases putFrozen_sub p hp with rfl | hp
    · exact ⟨hs.latestSlot, typed_frozen hH hs hF⟩
    · exact hs.committed p hp

end Verif
