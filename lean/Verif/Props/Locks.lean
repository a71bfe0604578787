import Verif.Lemmas.LocksRun
import Mathlib.Data.Nat.Pairing
/-
C51: whether every request for the oracle's mutex is granted.
-/
namespace Verif

/-! ### When requests are granted -/

/-- How many locks are held is determined by what is left to do. -/
theorem Legal.unique {n m r w r' w' l} (h : Legal n r w l) (h' : Legal m r' w' l) : r = r' ∧ w = w' := by
  induction h generalizing r' w' with
  | nil => exact ⟨h'.nil_inv.1.symm, h'.nil_inv.2.symm⟩
  | work _ ih => exact ih h'.work_inv
  | rlock _ _ ih =>
    obtain ⟨k1, _, k3⟩ := h'.rlock_inv
    have := (ih k3).1
    exact ⟨by omega, k1.symm⟩
  | runlock _ ih =>
    obtain ⟨k1, r'', k2, k3⟩ := h'.runlock_inv
    have := (ih k3).1
    exact ⟨by omega, k1.symm⟩
  | lock _ ih =>
    obtain ⟨k1, k2, _⟩ := h'.lock_inv
    exact ⟨k2.symm, k1.symm⟩
  | unlock _ ih =>
    obtain ⟨k1, k2, _⟩ := h'.unlock_inv
    exact ⟨k2.symm, k1.symm⟩

section
variable {calls : Nat → Nat → List Act} {nest : Nat → Bool} {τ : Nat → Nat} {t k : Nat}

/-- The claim C51 for every program in which a goroutine that asks for a read lock while holding one is the
only goroutine that ever asks for the write lock (in particular for every program that never nests read
locks), whatever its calls: under every fair schedule, every request is granted.

Partial, because the code is not such a program: see `C51_false_state`. -/
theorem C51_granted_partial (c : CallsOK nest calls) (hf : Fair τ) :
    (WantsRead (Sys.run calls τ k) t → ∃ j, k < j ∧ Reads (Sys.run calls τ j) t) ∧
    (WantsWrite (Sys.run calls τ k) t → ∃ j, k < j ∧ Writes (Sys.run calls τ j) t) := by
  constructor
  · rintro ⟨l, h⟩
    obtain ⟨j, hj, h1, h2⟩ := moves c hf h
    refine ⟨j + 1, by omega, ?_⟩
    obtain ⟨w, g1, _⟩ := (LockInv.run c.legal τ j).legal t
    obtain ⟨w', g1', _⟩ := (LockInv.run c.legal τ (j + 1)).legal t
    rw [h1] at g1
    rw [h2] at g1'
    have := (g1'.unique g1.rlock_inv.2.2).1
    exact List.count_pos_iff.mp (by omega)
  · rintro ⟨l, h⟩
    obtain ⟨j, hj, h1, h2⟩ := moves c hf h
    refine ⟨j + 1, by omega, ?_⟩
    obtain ⟨w, g1, _⟩ := (LockInv.run c.legal τ j).legal t
    obtain ⟨w', g1', g2⟩ := (LockInv.run c.legal τ (j + 1)).legal t
    rw [h1] at g1
    rw [h2] at g1'
    exact g2.mp (g1'.unique g1.lock_inv.2.2).2

/-- While somebody holds the write lock nobody else holds a lock: in every program that releases what it has
locked, whether it nests read locks or not, under every schedule, fair or not. -/
theorem C51_exclusive (c : ∀ t n, Legal true 0 false (calls t n)) {u : Nat} (h : Writes (Sys.run calls τ k) t) :
    ¬ Reads (Sys.run calls τ k) u ∧ (Writes (Sys.run calls τ k) u → u = t) := by
  constructor
  · intro hr
    unfold Reads at hr
    rw [(LockInv.run (nest := fun _ => true) c τ k).excl t h] at hr
    simp at hr
  · intro hw
    unfold Writes at h hw
    rw [h] at hw
    simpa using hw.symm

end

/-- The calls of the HTTP handlers that use the mutex, other than `GET /state` (api/api.go:1079): they only
ever call `State` (any number of times: each is one call here). -/
def readOnlyCalls : List (List Act) := [[], [.work], stateActs]

theorem mainCalls_legal : ∀ l ∈ mainCalls, Legal true 0 false l := by
  have hs : ∀ {r : Nat} {l}, Legal true r false l → Legal true r false (stateActs ++ l) := fun h =>
    .rlock (Or.inl rfl) (.runlock h)
  have hs1 : ∀ {r : Nat} {l}, Legal true r false l → Legal true r false (.rlock :: .runlock :: l) := fun h =>
    .rlock (Or.inl rfl) (.runlock h)
  intro l hl
  simp only [mainCalls, List.mem_cons, List.not_mem_nil, or_false] at hl
  rcases hl with rfl | rfl | rfl | rfl | rfl | rfl | rfl | rfl | rfl | rfl | rfl
  · exact .work .nil
  · exact hs1 .nil
  · exact .lock (.work (.unlock .nil))
  · exact .rlock (Or.inl rfl) (hs1 (.work (.runlock .nil)))
  · exact .lock (.work (.unlock .nil))
  · exact .rlock (Or.inl rfl) (hs1 (hs1 (.work (.runlock .nil))))
  · exact .rlock (Or.inl rfl) (hs1 (.runlock .nil))
  · exact .rlock (Or.inl rfl) (.rlock (Or.inl rfl) (hs1 (hs1 (.work (.runlock (hs1 (.runlock .nil)))))))
  · exact .rlock (Or.inl rfl) (.rlock (Or.inl rfl) (hs1 (.runlock (.runlock .nil))))
  · exact .lock (.work (.unlock (.work (hs1 (.work .nil)))))
  · exact hs1 (.work (hs1 .nil))

theorem readOnly_legal : ∀ l ∈ readOnlyCalls, Legal false 0 false l ∧ Act.lock ∉ l := by
  intro l hl
  simp only [readOnlyCalls, List.mem_cons, List.not_mem_nil, or_false] at hl
  rcases hl with rfl | rfl | rfl
  · exact ⟨.nil, by simp⟩
  · exact ⟨.work .nil, by simp⟩
  · exact ⟨.rlock (Or.inr rfl) (.runlock .nil), by simp [stateActs]⟩

theorem service_ok {calls : Nat → Nat → List Act} (hm : ∀ n, calls 0 n ∈ mainCalls)
    (ha : ∀ t n, t ≠ 0 → calls t n ∈ readOnlyCalls) : CallsOK (fun t => t == 0) calls where
  legal t n := by
    by_cases h : t = 0
    · subst h
      exact mainCalls_legal _ (hm n)
    · have : (t == 0) = false := by simp [h]
      rw [this]
      exact (readOnly_legal _ (ha t n h)).1
  single t ht u hu n := by
    have : t = 0 := by simpa using ht
    subst this
    exact (readOnly_legal _ (ha u n hu)).2

theorem Legal.nested {n r w l} (h : Legal n r w l) : Legal true r w l := by
  induction h with
  | nil => exact .nil
  | work _ ih => exact .work ih
  | rlock _ _ ih => exact .rlock (Or.inl rfl) ih
  | runlock _ ih => exact .runlock ih
  | lock _ ih => exact .lock ih
  | unlock _ ih => exact .unlock ih

/-- The code itself, with `GET /state` and the shutdown handler: at every moment of every schedule, whoever
holds the write lock is alone. -/
theorem C51_service_exclusive {calls : Nat → Nat → List Act} {τ : Nat → Nat} (hm : ∀ n, calls 0 n ∈ mainCalls)
    (ho : ∀ t n, t ≠ 0 → calls t n ∈ stateWithHashActs :: saveActs false :: readOnlyCalls) {t u k : Nat}
    (h : Writes (Sys.run calls τ k) t) :
    ¬ Reads (Sys.run calls τ k) u ∧ (Writes (Sys.run calls τ k) u → u = t) := by
  refine C51_exclusive (fun t n => ?_) h
  by_cases h0 : t = 0
  · subst h0
    exact mainCalls_legal _ (hm n)
  · rcases List.mem_cons.mp (ho t n h0) with h1 | h1
    · rw [h1]; exact .lock (.work (.unlock (.rlock (Or.inl rfl) (.runlock .nil))))
    · rcases List.mem_cons.mp h1 with h1 | h1
      · rw [h1]; exact .lock (.work (.unlock (.work .nil)))
      · exact (readOnly_legal _ h1).1.nested

/-- The code itself, as long as nobody asks for `GET /state` and no shutdown signal arrives: the main loop,
whatever it calls in whatever order, and any number of handlers, under every fair schedule: every request
for the mutex is granted. -/
theorem C51_service {calls : Nat → Nat → List Act} {τ : Nat → Nat} (hf : Fair τ)
    (hm : ∀ n, calls 0 n ∈ mainCalls) (ha : ∀ t n, t ≠ 0 → calls t n ∈ readOnlyCalls) (t k : Nat) :
    (WantsRead (Sys.run calls τ k) t → ∃ j, k < j ∧ Reads (Sys.run calls τ j) t) ∧
    (WantsWrite (Sys.run calls τ k) t → ∃ j, k < j ∧ Writes (Sys.run calls τ j) t) :=
  C51_granted_partial (service_ok hm ha) hf

/-! ### When they are not -/

/-- `t` holds a read lock and asks for another one while `u` waits for the readers to leave. -/
structure Stuck (s : Sys) (t u : Nat) : Prop where
  holds : Reads s t
  asks : WantsRead s t
  ann : s.owner = some (u, false)
  waits : WantsWrite s u

theorem Stuck.step {calls : Nat → Nat → List Act} {s : Sys} {t u : Nat} (h : Stuck s t u) (v : Nat) :
    Stuck (s.step calls v) t u ∧
    (∀ x a l, s.todo x = a :: l → (a = .rlock ∨ a = .lock) → (s.step calls v).todo x = a :: l) := by
  obtain ⟨h1, ⟨l, h2⟩, h3, ⟨l', h4⟩⟩ := h
  have hne : s.readers ≠ [] := List.ne_nil_of_mem h1
  have hkeep : ∀ {m : List Act} {x a l}, s.todo x = a :: l → (a = .rlock ∨ a = .lock) →
      (∀ b, s.todo v = b :: m → b ≠ .rlock ∧ b ≠ .lock) → (s.todo v = [] ∨ ∃ b, s.todo v = b :: m) →
      ∀ q, Function.update s.todo v q x = a :: l := by
    intro m x a l hx ha hv hv' q
    by_cases hxv : x = v
    · subst hxv
      rcases hv' with hv' | ⟨b, hb⟩
      · rw [hx] at hv'; simp at hv'
      · have := hv b hb
        rw [hx] at hb
        cases hb
        rcases ha with rfl | rfl <;> simp at this
    · rw [upd_ne hxv]; exact hx
  unfold Sys.step
  cases hv : s.todo v with
  | nil =>
    dsimp only
    have hk : ∀ x a l, s.todo x = a :: l → (a = .rlock ∨ a = .lock) →
        Function.update s.todo v (calls v (s.begun v)) x = a :: l := fun x a l hx ha =>
      hkeep (m := []) hx ha (by rw [hv]; simp) (Or.inl hv) _
    exact ⟨⟨h1, ⟨l, hk t _ _ h2 (Or.inl rfl)⟩, h3, ⟨l', hk u _ _ h4 (Or.inr rfl)⟩⟩, hk⟩
  | cons a m =>
    cases a with
    | work =>
      dsimp only
      have hk : ∀ x a l, s.todo x = a :: l → (a = .rlock ∨ a = .lock) →
          Function.update s.todo v m x = a :: l := fun x a l hx ha =>
        hkeep (m := m) hx ha (by rw [hv]; simp) (Or.inr ⟨_, hv⟩) _
      exact ⟨⟨h1, ⟨l, hk t _ _ h2 (Or.inl rfl)⟩, h3, ⟨l', hk u _ _ h4 (Or.inr rfl)⟩⟩, hk⟩
    | rlock =>
      dsimp only
      split
      · exact ⟨⟨h1, ⟨l, h2⟩, h3, ⟨l', h4⟩⟩, fun _ _ _ hx _ => hx⟩
      · rw [if_neg (by rw [h3]; simp)]
        exact ⟨⟨h1, ⟨l, h2⟩, h3, ⟨l', h4⟩⟩, fun _ _ _ hx _ => hx⟩
    | runlock =>
      dsimp only
      split
      · have hk : ∀ x a l, s.todo x = a :: l → (a = .rlock ∨ a = .lock) →
            Function.update s.todo v m x = a :: l := fun x a l hx ha =>
          hkeep (m := m) hx ha (by rw [hv]; simp) (Or.inr ⟨_, hv⟩) _
        have htv : t ≠ v := by rintro rfl; rw [h2] at hv; simp at hv
        exact ⟨⟨(List.mem_erase_of_ne htv).mpr h1, ⟨l, hk t _ _ h2 (Or.inl rfl)⟩, h3,
          ⟨l', hk u _ _ h4 (Or.inr rfl)⟩⟩, hk⟩
      · exact ⟨⟨h1, ⟨l, h2⟩, h3, ⟨l', h4⟩⟩, fun _ _ _ hx _ => hx⟩
    | lock =>
      dsimp only
      rw [if_neg hne]
      split
      · exact ⟨⟨h1, ⟨l, h2⟩, h3, ⟨l', h4⟩⟩, fun _ _ _ hx _ => hx⟩
      · split
        · rw [if_neg (by rw [h3]; simp)]
          exact ⟨⟨h1, ⟨l, h2⟩, h3, ⟨l', h4⟩⟩, fun _ _ _ hx _ => hx⟩
        · exact ⟨⟨h1, ⟨l, h2⟩, h3, ⟨l', h4⟩⟩, fun _ _ _ hx _ => hx⟩
    | unlock =>
      dsimp only
      rw [if_neg (by rw [h3]; simp)]
      exact ⟨⟨h1, ⟨l, h2⟩, h3, ⟨l', h4⟩⟩, fun _ _ _ hx _ => hx⟩

theorem Stuck.forever {calls : Nat → Nat → List Act} {τ : Nat → Nat} {t u k : Nat}
    (h : Stuck (Sys.run calls τ k) t u) (j : Nat) :
    Stuck (Sys.run calls τ (k + j)) t u ∧
    ∀ x a l, (Sys.run calls τ k).todo x = a :: l → (a = .rlock ∨ a = .lock) →
      (Sys.run calls τ (k + j)).todo x = a :: l := by
  induction j with
  | zero => exact ⟨h, fun _ _ _ hx _ => hx⟩
  | succ j ih =>
    obtain ⟨i1, i2⟩ := ih
    obtain ⟨k1, k2⟩ := i1.step (calls := calls) (τ (k + j))
    exact ⟨k1, fun x a l hx ha => k2 x a l (i2 x a l hx ha) ha⟩

/-- The moment that matters: whenever any goroutine `t` (for instance the main loop inside `IsCheckpoint`,
oracle.go:124-126) holds a read lock and is about to ask for another one, the mutex is not wanted by any
writer, and another goroutine `u` (for instance `GET /state`, or the shutdown handler) is about to ask for
the write lock, then there is a continuation (two steps of `u`) after which, whatever happens afterwards,
neither `t` nor `u` ever moves again, and no request of anybody for the mutex is ever granted. -/
theorem C51_false_window {calls : Nat → Nat → List Act} {τ : Nat → Nat} {t u k : Nat}
    (hr : Reads (Sys.run calls τ k) t) (hn : WantsRead (Sys.run calls τ k) t)
    (hw : WantsWrite (Sys.run calls τ k) u)
    (ho : (Sys.run calls τ k).owner = none) (hq : (Sys.run calls τ k).queue = [])
    (τ' : Nat → Nat) (hτ : ∀ i, i < k → τ' i = τ i) (h0 : τ' k = u) (h1 : τ' (k + 1) = u) :
    ∀ j, k + 2 ≤ j →
      (Sys.run calls τ' j).todo t = (Sys.run calls τ k).todo t ∧
      (Sys.run calls τ' j).todo u = (Sys.run calls τ k).todo u ∧
      ∀ v i, k + 2 ≤ i → i ≤ j →
        (WantsRead (Sys.run calls τ' i) v ∨ WantsWrite (Sys.run calls τ' i) v) →
        (Sys.run calls τ' j).todo v = (Sys.run calls τ' i).todo v := by
  obtain ⟨l, hl⟩ := hn
  obtain ⟨l', hl'⟩ := hw
  have hsame : Sys.run calls τ' k = Sys.run calls τ k := by
    clear hr hl hl' ho hq h0 h1
    induction k with
    | zero => rfl
    | succ k ih =>
      show (Sys.run calls τ' k).step calls (τ' k) = (Sys.run calls τ k).step calls (τ k)
      rw [ih fun i hi => hτ i (by omega), hτ k (by omega)]
  have e1 : Sys.run calls τ' (k + 1) = { Sys.run calls τ k with queue := [u] } := by
    show (Sys.run calls τ' k).step calls (τ' k) = _
    rw [hsame, h0]
    unfold Sys.step
    rw [hl']
    dsimp only
    rw [if_neg (by rw [ho]; simp), if_neg (by rw [hq]; simp), hq]
    rfl
  have e2 : Sys.run calls τ' (k + 2) = { Sys.run calls τ k with queue := [], owner := some (u, false) } := by
    show (Sys.run calls τ' (k + 1)).step calls (τ' (k + 1)) = _
    rw [e1, h1]
    unfold Sys.step
    dsimp only
    rw [hl']
    dsimp only
    rw [if_neg (by rw [ho]; simp), if_pos (by simp), if_pos ⟨rfl, ho⟩]
    rfl
  have hst : Stuck (Sys.run calls τ' (k + 2)) t u := by
    rw [e2]
    exact ⟨hr, ⟨l, hl⟩, rfl, ⟨l', hl'⟩⟩
  intro j hj
  obtain ⟨d, rfl⟩ : ∃ d, j = k + 2 + d := ⟨j - (k + 2), by omega⟩
  obtain ⟨_, g2⟩ := hst.forever d
  refine ⟨?_, ?_, ?_⟩
  · rw [hl]; exact g2 t _ _ (by rw [e2]; exact hl) (Or.inl rfl)
  · rw [hl']; exact g2 u _ _ (by rw [e2]; exact hl') (Or.inr rfl)
  · intro v i hi hij hv
    obtain ⟨e, rfl⟩ : ∃ e, i = k + 2 + e := ⟨i - (k + 2), by omega⟩
    obtain ⟨f, rfl⟩ : ∃ f, d = e + f := ⟨d - e, by omega⟩
    have := ((hst.forever e).1.forever f).2 v
    rw [← Nat.add_assoc]
    rcases hv with ⟨m, hm⟩ | ⟨m, hm⟩
    · rw [hm]; exact this _ _ hm (Or.inl rfl)
    · rw [hm]; exact this _ _ hm (Or.inr rfl)

/-- The service with the main loop at slots that are no checkpoints, and one client repeatedly asking for
`GET /state` (goroutine 2); goroutine 1, the shutdown handler, saves the state once. -/
def serviceCalls (shutdown : Bool) (t n : Nat) : List Act :=
  match t with
  | 0 => ordinarySlots n
  | 1 => if shutdown ∧ n = 0 then saveActs false else []
  | 2 => if shutdown then [] else stateWithHashActs
  | _ => []

theorem serviceCalls_main (b : Bool) (n : Nat) : serviceCalls b 0 n ∈ mainCalls := by
  show ordinarySlots n ∈ mainCalls
  unfold ordinarySlots
  split
  · decide
  · split <;> decide

/-- the main loop processes one slot and enters `IsCheckpoint`; then `u` begins -/
def badSchedule (u : Nat) (k : Nat) : Nat := if k < 32 then 0 else if k < 35 then u else (Nat.unpair k).1

/-- The claim C51 is false for the code: with one client asking for `GET /state` there is a fair schedule in
which, after the first slot, the main loop asks for a read lock inside `IsCheckpoint` and never gets it,
and the client never gets its answer, although every goroutine is scheduled again and again. -/
theorem C51_false_state :
    ∃ τ k, Fair τ ∧ (∀ n, serviceCalls false 0 n ∈ mainCalls) ∧
      ∀ j, k ≤ j → WantsRead (Sys.run (serviceCalls false) τ j) 0 ∧ ¬ Writes (Sys.run (serviceCalls false) τ j) 2 ∧
        WantsWrite (Sys.run (serviceCalls false) τ j) 2 := by
  refine ⟨badSchedule 2, 35, ?_, serviceCalls_main _, ?_⟩
  · intro t k
    refine ⟨Nat.pair t (k + 35), ?_, ?_⟩
    · have := Nat.right_le_pair t (k + 35); omega
    · have := Nat.right_le_pair t (k + 35)
      unfold badSchedule
      rw [if_neg (by omega), if_neg (by omega), Nat.unpair_pair]
  · intro j hj
    have hst : Stuck (Sys.run (serviceCalls false) (badSchedule 2) 35) 0 2 :=
      ⟨by unfold Reads; decide +kernel, ⟨[.runlock, .work, .runlock], by decide +kernel⟩, by decide +kernel,
        ⟨[.work, .unlock, .rlock, .runlock], by decide +kernel⟩⟩
    obtain ⟨d, rfl⟩ : ∃ d, j = 35 + d := ⟨j - 35, by omega⟩
    obtain ⟨h1, _⟩ := hst.forever d
    exact ⟨h1.asks, by unfold Writes; rw [h1.ann]; simp, h1.waits⟩

/-- Nor does the process end when it is told to: the shutdown handler waits for ever for the write lock it
needs to save the state (main.go:199-217), so that neither does it save nor exit. -/
theorem C51_false_shutdown :
    ∃ τ k, Fair τ ∧ (∀ n, serviceCalls true 0 n ∈ mainCalls) ∧
      ∀ j, k ≤ j → WantsRead (Sys.run (serviceCalls true) τ j) 0 ∧ ¬ Writes (Sys.run (serviceCalls true) τ j) 1 ∧
        (Sys.run (serviceCalls true) τ j).todo 1 = saveActs false := by
  refine ⟨badSchedule 1, 35, ?_, serviceCalls_main _, ?_⟩
  · intro t k
    refine ⟨Nat.pair t (k + 35), ?_, ?_⟩
    · have := Nat.right_le_pair t (k + 35); omega
    · have := Nat.right_le_pair t (k + 35)
      unfold badSchedule
      rw [if_neg (by omega), if_neg (by omega), Nat.unpair_pair]
  · intro j hj
    have htd : (Sys.run (serviceCalls true) (badSchedule 1) 35).todo 1 = saveActs false := by decide +kernel
    have hst : Stuck (Sys.run (serviceCalls true) (badSchedule 1) 35) 0 1 :=
      ⟨by unfold Reads; decide +kernel, ⟨[.runlock, .work, .runlock], by decide +kernel⟩, by decide +kernel,
        ⟨_, htd⟩⟩
    obtain ⟨d, rfl⟩ : ∃ d, j = 35 + d := ⟨j - 35, by omega⟩
    obtain ⟨h1, h2⟩ := hst.forever d
    exact ⟨h1.asks, by unfold Writes; rw [h1.ann]; simp, h2 1 _ _ htd (Or.inr rfl)⟩

/-! ### The hypotheses hold for concrete runs -/

/-- a fair schedule -/
theorem fair_unpair : Fair fun k => (Nat.unpair k).1 := fun t k =>
  ⟨Nat.pair t k, Nat.right_le_pair t k, by simp⟩

/-- the main loop at ordinary slots and two clients reading -/
def readerCalls (t n : Nat) : List Act :=
  match t with
  | 0 => ordinarySlots n
  | 1 => stateActs
  | 2 => stateActs
  | _ => []

/-- at some moment the main loop asks for the write lock while a client reads -/
example : WantsWrite (Sys.run readerCalls (fun k => if k < 13 then 0 else 1) 15) 0 ∧
    Reads (Sys.run readerCalls (fun k => if k < 13 then 0 else 1) 15) 1 :=
  ⟨⟨[.work, .unlock], by decide +kernel⟩, by unfold Reads; decide +kernel⟩

example (t k : Nat) := C51_service (calls := readerCalls) fair_unpair (serviceCalls_main false)
  (by intro t n h; match t with | 0 => exact absurd rfl h | 1 => exact (by decide : stateActs ∈ readOnlyCalls) | 2 => exact (by decide : stateActs ∈ readOnlyCalls) | t + 3 => exact (by decide : [] ∈ readOnlyCalls)) t k

/-- the shutdown handler holds the write lock -/
example : Writes (Sys.run (serviceCalls true) (fun _ => 1) 4) 1 := by unfold Writes; decide +kernel

/-- the window of `C51_false_window` -/
example : Reads (Sys.run (serviceCalls false) (badSchedule 2) 33) 0 ∧
    WantsRead (Sys.run (serviceCalls false) (badSchedule 2) 33) 0 ∧
    WantsWrite (Sys.run (serviceCalls false) (badSchedule 2) 33) 2 ∧
    (Sys.run (serviceCalls false) (badSchedule 2) 33).owner = none ∧
    (Sys.run (serviceCalls false) (badSchedule 2) 33).queue = [] :=
  ⟨by unfold Reads; decide +kernel, ⟨[.runlock, .work, .runlock], by decide +kernel⟩,
    ⟨[.work, .unlock, .rlock, .runlock], by decide +kernel⟩, by decide +kernel, by decide +kernel⟩

end Verif
