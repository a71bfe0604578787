import Verif.Lemmas.Rewards
import Verif.Lemmas.Creds
/-
Every handler is decomposed into a short list of elementary operations on balances and statuses.
All properties over histories are proved once per operation.
-/
namespace Verif
open VMap

/-- Validators, pool fees and money in transit. -/
structure Bal where
  vals : VMap
  pool : Int
  f : Int

def State.bal (s : State) (f : Int) : Bal := ⟨s.vals, s.poolFees, f⟩

/-- validator earns in this map -/
def earns (m : VMap) (i : Nat) : Prop :=
  ∃ v, VMap.get m i = some v ∧ (v.status = .active ∨ v.status = .yellowCard)

inductive Op
  /-- status event -/
  | adv (i : Nat) (e : Ev)
  /-- status event and the pending balance goes to transit -/
  | seize (i : Nat) (e : Ev)
  /-- validator `i` unsubscribed, its pending balance goes to `j` -/
  | move (i j : Nat)
  | create (i : Nat) (v : Validator)
  | subType (i : Nat) (t : SubType)
  /-- money received -/
  | recv (x : Int)
  | toPool
  | toAcc (i : Nat)
  | toPend (i : Nat)
  | consol (i : Nat)
  | dist (sh : List (Nat × Int)) (fees : Int)

def setStatus (e : Ev) (v : Validator) : Validator := { v with status := transition v.status e }

/-- Events that go with a forfeiture. -/
def Ev.forfeits (e : Ev) : Prop := e = .unsubscribe ∨ e = .proposalWrongFee ∨ e = .manualBan

/-- Elementary steps with their guards; `x` says whether distributions are known to be
non-negative. -/
inductive Op.Step (x : Prop) : Op → Bal → Bal → Prop
  | adv (b i e) : ¬ e.forfeits →
      Step x (.adv i e) b { b with vals := modify b.vals i (setStatus e) }
  | seize (b i e v) : VMap.get b.vals i = some v → e.forfeits →
      Step x (.seize i e) b
        { b with
          vals := modify b.vals i fun v => { setStatus e v with pend := 0 }, f := b.f + v.pend }
  | move (b i j v w) : VMap.get b.vals i = some v → VMap.get b.vals j = some w → i ≠ j →
      w.status ≠ .banned →
      Step x (.move i j) b
        { b with vals := modify (modify b.vals i fun v => { setStatus .unsubscribe v with pend := 0 }) j
                  fun w => { w with pend := w.pend + v.pend } }
  | create (b i v) : VMap.get b.vals i = none →
      v.status = .notSubscribed → v.acc = 0 → v.pend = 0 → v.index = i →
      Step x (.create i v) b { b with vals := VMap.insert b.vals i v }
  | subType (b i t) :
      Step x (.subType i t) b { b with vals := modify b.vals i fun v => { v with subType := t } }
  | recv (b y) : Step x (.recv y) b { b with f := b.f + y }
  | toPool (b) : Step x .toPool b { b with pool := b.pool + b.f, f := 0 }
  | toAcc (b i) : (VMap.get b.vals i).isSome →
      Step x (.toAcc i) b
        { b with vals := modify b.vals i fun v => { v with acc := v.acc + b.f }, f := 0 }
  | toPend (b i v) : VMap.get b.vals i = some v → v.status ≠ .banned →
      Step x (.toPend i) b
        { b with vals := modify b.vals i fun v => { v with pend := v.pend + b.f }, f := 0 }
  | consol (b i) : (VMap.get b.vals i).isSome →
      Step x (.consol i) b
        { b with vals := modify b.vals i fun v => { v with acc := v.acc + v.pend, pend := 0 } }
  | dist (b sh fees) : (∀ p ∈ sh, earns b.vals p.1) → (sh.map (·.1)).Nodup →
      (sh.map (·.2)).sum + fees = b.f →
      (x → 0 ≤ b.f → 0 ≤ fees ∧ ∀ p ∈ sh, 0 ≤ p.2) →
      Step x (.dist sh fees) b ⟨credit sh b.vals, b.pool + fees, 0⟩

/-- Sequences of elementary steps. -/
inductive Path (x : Prop) : List Op → Bal → Bal → Prop
  | nil (b) : Path x [] b b
  | cons {op ops b b1 b2} : Op.Step x op b b1 → Path x ops b1 b2 → Path x (op :: ops) b b2

theorem Path.append {x l1 l2 a b c} (h1 : Path x l1 a b) (h2 : Path x l2 b c) :
    Path x (l1 ++ l2) a c := by
  induction h1 with
  | nil => exact h2
  | cons hs _ ih => exact .cons hs (ih h2)

theorem Path.one {x op a b} (h : Op.Step x op a b) : Path x [op] a b := .cons h (.nil _)

theorem Path.split {x l1 l2 a c} (h : Path x (l1 ++ l2) a c) :
    ∃ b, Path x l1 a b ∧ Path x l2 b c := by
  induction l1 generalizing a with
  | nil => exact ⟨a, .nil _, h⟩
  | cons o l1 ih =>
    cases h with
    | cons hs hr =>
      obtain ⟨b, h1, h2⟩ := ih hr
      exact ⟨b, .cons hs h1, h2⟩

/-- Money received along a sequence. -/
def recvTotal : List Op → Int
  | [] => 0
  | .recv x :: ops => x + recvTotal ops
  | _ :: ops => recvTotal ops

theorem recvTotal_append (a b : List Op) : recvTotal (a ++ b) = recvTotal a + recvTotal b := by
  induction a with
  | nil => simp [recvTotal]
  | cons o a ih => cases o <;> simp [recvTotal, ih]; ring

/-- Everything in the state other than balances and the logs written by handlers. -/
def State.rest (s : State) : State :=
  { s with vals := [], poolFees := 0, tick := 0, donations := [], proposed := [], missed := [],
           wrongFee := [] }

/-- `s'` results from `s` by operations allowed by `A`, receiving `r` in total; `f`, `f'` are the
amounts in transit before and after. -/
def Runs (x : Prop) (A : Op → Prop) (s : State) (f : Int) (s' : State) (f' r : Int) : Prop :=
  (∃ ops, Path x ops (s.bal f) (s'.bal f') ∧ recvTotal ops = r ∧ ∀ op ∈ ops, A op) ∧
    s'.rest = s.rest

theorem Runs.refl (x A s f) : Runs x A s f s f 0 :=
  ⟨⟨[], .nil _, rfl, by simp⟩, rfl⟩

theorem Runs.trans {x A s f s1 f1 s2 f2 r1 r2} (h1 : Runs x A s f s1 f1 r1)
    (h2 : Runs x A s1 f1 s2 f2 r2) : Runs x A s f s2 f2 (r1 + r2) := by
  obtain ⟨⟨o1, p1, e1, a1⟩, m1⟩ := h1
  obtain ⟨⟨o2, p2, e2, a2⟩, m2⟩ := h2
  refine ⟨⟨o1 ++ o2, p1.append p2, by rw [recvTotal_append, e1, e2], ?_⟩, m2.trans m1⟩
  intro op hop
  rcases List.mem_append.mp hop with h | h
  · exact a1 op h
  · exact a2 op h

theorem Runs.mono {x A B s f s' f' r} (h : Runs x A s f s' f' r) (hab : ∀ op, A op → B op) :
    Runs x B s f s' f' r := by
  obtain ⟨⟨o, p, e, a⟩, m⟩ := h
  exact ⟨⟨o, p, e, fun op hop => hab op (a op hop)⟩, m⟩

theorem Runs.of {x A s f s' f' r} (ops : List Op) (hp : Path x ops (s.bal f) (s'.bal f'))
    (hr : recvTotal ops = r) (ha : ∀ op ∈ ops, A op) (hm : s'.rest = s.rest) :
    Runs x A s f s' f' r := ⟨⟨ops, hp, hr, ha⟩, hm⟩

/-! ### Sortedness and conservation along paths -/

def Bal.total (b : Bal) : Int := VMap.total (·.pend) b.vals + VMap.total (·.acc) b.vals + b.pool + b.f

theorem earns_isSome {m i} (h : earns m i) : (VMap.get m i).isSome := by
  obtain ⟨v, hv, _⟩ := h; simp [hv]

theorem Op.Step.sorted {x op a b} (h : Op.Step x op a b) (hs : Sorted a.vals) : Sorted b.vals := by
  cases h <;> (try dsimp only) <;> first | exact hs | (apply Sorted.modify; exact hs) |
    (apply Sorted.modify; apply Sorted.modify; exact hs) | (apply Sorted.insert; exact hs) |
    (apply Sorted.credit; exact hs)

theorem Path.sorted {x ops a b} (h : Path x ops a b) (hs : Sorted a.vals) : Sorted b.vals := by
  induction h with
  | nil => exact hs
  | cons hst _ ih => exact ih (hst.sorted hs)

theorem Op.Step.total {x op a b} (h : Op.Step x op a b) (hs : Sorted a.vals) :
    b.total = a.total + recvTotal [op] := by
  unfold Bal.total
  cases h with
  | adv _ i e =>
    simp only [recvTotal]
    rw [total_modify_same (f := (·.pend)) (by intro v; rfl),
      total_modify_same (f := (·.acc)) (by intro v; rfl)]
    ring
  | seize _ i e v hv he =>
    simp only [recvTotal]
    rw [total_modify hs hv (·.pend), total_modify_same (f := (·.acc)) (by intro v; rfl)]
    simp; ring
  | move _ i j v w hv hw hij =>
    simp only [recvTotal]
    have hw' := get_modify_ne a.vals (fun v => { setStatus .unsubscribe v with pend := 0 }) (Ne.symm hij)
    rw [hw] at hw'
    rw [total_modify (hs.modify _ _) hw' (·.pend), total_modify hs hv (·.pend),
      total_modify_same (f := (·.acc)) (by intro v; rfl),
      total_modify_same (f := (·.acc)) (by intro v; rfl)]
    simp
  | create _ i v hv h1 h2 h3 =>
    simp only [recvTotal]
    rw [total_insert hv, total_insert hv, h2, h3]; ring
  | subType _ i t =>
    simp only [recvTotal]
    rw [total_modify_same (f := (·.pend)) (by intro v; rfl),
      total_modify_same (f := (·.acc)) (by intro v; rfl)]
    ring
  | recv _ y => simp only [recvTotal]; ring
  | toPool _ => simp only [recvTotal]; ring
  | toAcc _ i hi =>
    obtain ⟨v, hv⟩ := Option.isSome_iff_exists.mp hi
    simp only [recvTotal]
    rw [total_modify hs hv (·.acc), total_modify_same (f := (·.pend)) (by intro v; rfl)]
    simp; ring
  | toPend _ i v hv =>
    simp only [recvTotal]
    rw [total_modify hs hv (·.pend), total_modify_same (f := (·.acc)) (by intro v; rfl)]
    simp; ring
  | consol _ i hi =>
    obtain ⟨v, hv⟩ := Option.isSome_iff_exists.mp hi
    simp only [recvTotal]
    rw [total_modify hs hv (·.acc), total_modify hs hv (·.pend)]
    simp; ring
  | dist _ sh fees h1 h2 h3 h4 =>
    simp only [recvTotal]
    rw [total_pend_credit hs (fun p hp => earns_isSome (h1 p hp)),
      total_credit_same sh (f := (·.acc)) (by intro v x; rfl)]
    linarith

theorem Path.total {x ops a b} (h : Path x ops a b) (hs : Sorted a.vals) :
    b.total = a.total + recvTotal ops := by
  induction h with
  | nil => simp [recvTotal]
  | @cons op ops a b1 b2 hst _ ih =>
    rw [ih (hst.sorted hs), hst.total hs]
    have := recvTotal_append [op] ops
    simp only [List.singleton_append] at this
    rw [this]; ring

theorem Runs.sorted {x A s f s' f' r} (h : Runs x A s f s' f' r) (hs : Sorted s.vals) :
    Sorted s'.vals := by
  obtain ⟨⟨o, p, _, _⟩, _⟩ := h
  exact p.sorted hs

theorem Runs.rest {x A s f s' f' r} (h : Runs x A s f s' f' r) : s'.rest = s.rest := h.2

end Verif
