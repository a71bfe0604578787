import Verif.Spec.Logs
import Verif.Lemmas.Rlp
import Verif.Props.Requests
/-
C111: the oracle hears exactly what the contract logged.
-/
namespace Verif

theorem beNat_zeros (k : Nat) (l : List Nat) : beNat (List.replicate k 0 ++ l) = beNat l := by
  induction k with
  | zero => rfl
  | succ k ih => rw [List.replicate_succ, List.cons_append]; exact ih

theorem beNat_word32 (n : Nat) : beNat (word32 n) = n := by
  rw [word32, beNat_zeros, beNat_BE]

theorem word32_inj {m n : Nat} (h : word32 m = word32 n) : m = n := by
  rw [← beNat_word32 m, h, beNat_word32]

theorem word32_length {n : Nat} (h : n < 2 ^ 256) : (word32 n).length = 32 := by
  have : (BE n).length ≤ 32 := BE_length_le.mpr (lt_of_lt_of_eq h (by norm_num))
  rw [word32, List.length_append, List.length_replicate]
  omega

theorem addressWord_length {a : List Nat} (h : IsBytes 20 a) : (addressWord a).length = 32 := by
  rw [addressWord, List.length_append, List.length_replicate, h.1]

theorem logWord_zero {w : List Nat} (rest : List Nat) (h : w.length = 32) : logWord (w ++ rest) 0 = some w := by
  unfold logWord
  rw [if_neg (by simp [h])]
  simp [← h]

theorem logWord_last {w : List Nat} (h : w.length = 32) : logWord w 0 = some w := by
  simpa using logWord_zero [] h

theorem logWord_succ {w : List Nat} (rest : List Nat) (i : Nat) (h : w.length = 32) :
    logWord (w ++ rest) (i + 1) = logWord rest i := by
  unfold logWord
  have e : (w ++ rest).drop ((i + 1) * 32) = rest.drop (i * 32) := by
    rw [show (i + 1) * 32 = w.length + i * 32 by rw [h]; omega, List.drop_append]
    simp
  rw [e, List.length_append, h]
  exact if_congr (by omega) rfl rfl

theorem uint64_small {n : Nat} (h : n < 2 ^ 64) : n < 2 ^ 256 := lt_trans h (by norm_num)

theorem addressWord_drop (a : List Nat) : (addressWord a).drop 12 = a := by simp [addressWord]

/-- The nine signatures have the topics of the deployed contract. -/
theorem topics_read :
    [sigEther, sigSubscribe, sigUnsubscribe, sigBan, sigUnban, sigFee, sigRecipient, sigCheckpoint,
      sigCollateral].map (fun s => beNat (eventId s)) = readTopics ∧
    ∀ s ∈ [sigEther, sigSubscribe, sigUnsubscribe, sigBan, sigUnban, sigFee, sigRecipient, sigCheckpoint,
      sigCollateral], (eventId s).length = 32 ∧ (∀ x ∈ eventId s, x < 256) ∧ (eventId s).head? ≠ some 0 := by
  decide +kernel

theorem topic_eq {s : Str} (hl : (eventId s).length = 32) (hb : ∀ x ∈ eventId s, x < 256)
    (h0 : (eventId s).head? ≠ some 0) : eventId s = word32 (beNat (eventId s)) := by
  rw [word32, BE_beNat hb h0, hl]; rfl

theorem topics_word : eventId sigEther = word32 readTopics[0] ∧ eventId sigSubscribe = word32 readTopics[1] ∧
    eventId sigUnsubscribe = word32 readTopics[2] ∧ eventId sigBan = word32 readTopics[3] ∧
    eventId sigUnban = word32 readTopics[4] ∧ eventId sigFee = word32 readTopics[5] ∧
    eventId sigRecipient = word32 readTopics[6] ∧ eventId sigCheckpoint = word32 readTopics[7] ∧
    eventId sigCollateral = word32 readTopics[8] := by
  obtain ⟨h1, h2⟩ := topics_read
  simp only [List.map_cons, List.map_nil, readTopics, List.cons.injEq, and_true] at h1
  simp only [List.forall_mem_cons, List.not_mem_nil, false_implies, implies_true, and_true] at h2
  obtain ⟨a0, a1, a2, a3, a4, a5, a6, a7, a8⟩ := h1
  obtain ⟨b0, b1, b2, b3, b4, b5, b6, b7, b8⟩ := h2
  refine ⟨?_, ?_, ?_, ?_, ?_, ?_, ?_, ?_, ?_⟩
  · rw [topic_eq b0.1 b0.2.1 b0.2.2, a0]; rfl
  · rw [topic_eq b1.1 b1.2.1 b1.2.2, a1]; rfl
  · rw [topic_eq b2.1 b2.2.1 b2.2.2, a2]; rfl
  · rw [topic_eq b3.1 b3.2.1 b3.2.2, a3]; rfl
  · rw [topic_eq b4.1 b4.2.1 b4.2.2, a4]; rfl
  · rw [topic_eq b5.1 b5.2.1 b5.2.2, a5]; rfl
  · rw [topic_eq b6.1 b6.2.1 b6.2.2, a6]; rfl
  · rw [topic_eq b7.1 b7.2.1 b7.2.2, a7]; rfl
  · rw [topic_eq b8.1 b8.2.1 b8.2.2, a8]; rfl

/-- The logs asked for are those of one kind. -/
theorem asked_filter {pool : List Nat} {b t : Nat} {sig : Str} {es : List PoolEvent} {logs : List Log}
    (hs : eventId sig = word32 t) (h : PoolLogged pool b es logs) :
    logs.filter (asked pool b sig) = (es.filter fun e => e.topic = t).map (PoolEvent.log pool b) := by
  have e1 : logs.filter (asked pool b sig) =
      (logs.filter fun l => l.address = pool ∧ l.block = b).filter
        fun l => l.topics.head? = some (eventId sig) := by
    rw [List.filter_filter]
    refine List.filter_congr fun l _ => ?_
    rw [Bool.eq_iff_iff]
    simp only [asked, decide_eq_true_eq, Bool.and_eq_true]
    tauto
  rw [e1, h, List.filter_map]
  congr 1
  refine List.filter_congr fun e _ => ?_
  simp only [Function.comp, PoolEvent.log, List.head?_cons, Option.some.injEq, hs, decide_eq_decide]
  exact ⟨word32_inj, fun h => by rw [h]⟩

/-- One kind of events, read from the logs. -/
theorem kind_read {α : Type} {pool : List Nat} {b t : Nat} {sig : Str} {es : List PoolEvent} {logs : List Log}
    {read : Log → Option α} {told : PoolEvent → Option α} (hs : eventId sig = word32 t)
    (h : PoolLogged pool b es logs) (hw : ∀ e ∈ es, e.WF)
    (yes : ∀ e : PoolEvent, e.WF → e.topic = t → ∃ a, told e = some a ∧ read (e.log pool b) = some a)
    (no : ∀ e : PoolEvent, e.topic ≠ t → told e = none) :
    (logs.filter (asked pool b sig)).map read = (es.filterMap told).map some := by
  rw [asked_filter hs h]
  clear h
  induction es with
  | nil => rfl
  | cons e es ih =>
    have ih := ih fun x hx => hw x (List.mem_cons_of_mem _ hx)
    by_cases ht : e.topic = t
    · obtain ⟨a, h1, h2⟩ := yes e (hw e List.mem_cons_self) ht
      rw [List.filter_cons_of_pos (by simpa using ht), List.filterMap_cons_some h1]
      simp only [List.map_cons, h2, ih]
    · rw [List.filter_cons_of_neg (by simpa using ht), List.filterMap_cons_none (no e ht), ih]

theorem data_ne {w : List Nat} (h : w.length = 32) : w ≠ [] := by
  rintro rfl
  simp at h

theorem data_ne_append {w : List Nat} (rest : List Nat) (h : w.length = 32) : w ++ rest ≠ [] := by
  simp [data_ne h]

theorem logEther_log {pool : List Nat} {b : Nat} {es : List PoolEvent} {logs : List Log}
    (h : PoolLogged pool b es logs) (hw : ∀ e ∈ es, e.WF) :
    (logs.filter (asked pool b sigEther)).map logEther = (toldEvents pool b es).ether.map some := by
  obtain ⟨t0, t1, t2, t3, t4, t5, t6, t7, t8⟩ := topics_word
  refine kind_read t0 h hw ?_ ?_
  · intro e hw ht
    cases e
    case etherReceived x0 x1 =>
      obtain ⟨h0, h1⟩ := hw
      have l0 := addressWord_length h0
      have l1 := word32_length h1
      have hd : (PoolEvent.etherReceived x0 x1).data = addressWord x0 ++ word32 x1 := by simp [PoolEvent.data]
      refine ⟨_, rfl, ?_⟩
      have hu : unpackLog sigEther ((PoolEvent.etherReceived x0 x1).log pool b) = some (addressWord x0 ++ word32 x1) := by
        simp only [unpackLog, PoolEvent.log, PoolEvent.indexed, hd]
        exact if_pos ⟨t0.symm, data_ne_append _ l0⟩
      simp only [logEther, hu]
      simp [abiAddress, abiUint64, abiUint256, logWord_zero _ l0, logWord_succ _ _ l0, logWord_last l1,
        beNat_word32, addressWord_drop, PoolEvent.log]
    case other => exact absurd (Eq.subst (motive := (· ∈ readTopics)) ht.symm (by simp [readTopics] : readTopics[0] ∈ readTopics)) hw.2
    all_goals exact absurd ht (by simp only [PoolEvent.topic]; decide)
  · intro e ht
    cases e <;> first | rfl | exact absurd rfl ht

theorem logSubscribe_log {pool : List Nat} {b : Nat} {es : List PoolEvent} {logs : List Log}
    (h : PoolLogged pool b es logs) (hw : ∀ e ∈ es, e.WF) :
    (logs.filter (asked pool b sigSubscribe)).map logSubscribe = (toldEvents pool b es).subs.map some := by
  obtain ⟨t0, t1, t2, t3, t4, t5, t6, t7, t8⟩ := topics_word
  refine kind_read t1 h hw ?_ ?_
  · intro e hw ht
    cases e
    case subscribe x0 x1 x2 =>
      obtain ⟨h0, h1, h2⟩ := hw
      have l0 := addressWord_length h0
      have l1 := word32_length h1
      have l2 := word32_length (uint64_small h2)
      have hd : (PoolEvent.subscribe x0 x1 x2).data = addressWord x0 ++ (word32 x1 ++ word32 x2) := by simp [PoolEvent.data]
      refine ⟨_, rfl, ?_⟩
      have hu : unpackLog sigSubscribe ((PoolEvent.subscribe x0 x1 x2).log pool b) = some (addressWord x0 ++ (word32 x1 ++ word32 x2)) := by
        simp only [unpackLog, PoolEvent.log, PoolEvent.indexed, hd]
        exact if_pos ⟨t1.symm, data_ne_append _ l0⟩
      norm_num at h2
      simp only [logSubscribe, hu]
      simp [abiAddress, abiUint64, abiUint256, logWord_zero _ l0, logWord_succ _ _ l0, logWord_zero _ l1, logWord_succ _ _ l1, logWord_last l2,
        beNat_word32, addressWord_drop, h2, PoolEvent.log]
    case other => exact absurd (Eq.subst (motive := (· ∈ readTopics)) ht.symm (by simp [readTopics] : readTopics[1] ∈ readTopics)) hw.2
    all_goals exact absurd ht (by simp only [PoolEvent.topic]; decide)
  · intro e ht
    cases e <;> first | rfl | exact absurd rfl ht

theorem logUnsubscribe_log {pool : List Nat} {b : Nat} {es : List PoolEvent} {logs : List Log}
    (h : PoolLogged pool b es logs) (hw : ∀ e ∈ es, e.WF) :
    (logs.filter (asked pool b sigUnsubscribe)).map logUnsubscribe = (toldEvents pool b es).unsubs.map some := by
  obtain ⟨t0, t1, t2, t3, t4, t5, t6, t7, t8⟩ := topics_word
  refine kind_read t2 h hw ?_ ?_
  · intro e hw ht
    cases e
    case unsubscribe x0 x1 =>
      obtain ⟨h0, h1⟩ := hw
      have l0 := addressWord_length h0
      have l1 := word32_length (uint64_small h1)
      have hd : (PoolEvent.unsubscribe x0 x1).data = addressWord x0 ++ word32 x1 := by simp [PoolEvent.data]
      refine ⟨_, rfl, ?_⟩
      have hu : unpackLog sigUnsubscribe ((PoolEvent.unsubscribe x0 x1).log pool b) = some (addressWord x0 ++ word32 x1) := by
        simp only [unpackLog, PoolEvent.log, PoolEvent.indexed, hd]
        exact if_pos ⟨t2.symm, data_ne_append _ l0⟩
      norm_num at h1
      simp only [logUnsubscribe, hu]
      simp [abiAddress, abiUint64, abiUint256, logWord_zero _ l0, logWord_succ _ _ l0, logWord_last l1,
        beNat_word32, addressWord_drop, h1, PoolEvent.log]
    case other => exact absurd (Eq.subst (motive := (· ∈ readTopics)) ht.symm (by simp [readTopics] : readTopics[2] ∈ readTopics)) hw.2
    all_goals exact absurd ht (by simp only [PoolEvent.topic]; decide)
  · intro e ht
    cases e <;> first | rfl | exact absurd rfl ht

theorem logBan_log {pool : List Nat} {b : Nat} {es : List PoolEvent} {logs : List Log}
    (h : PoolLogged pool b es logs) (hw : ∀ e ∈ es, e.WF) :
    (logs.filter (asked pool b sigBan)).map logBan = (toldEvents pool b es).bans.map some := by
  obtain ⟨t0, t1, t2, t3, t4, t5, t6, t7, t8⟩ := topics_word
  refine kind_read t3 h hw ?_ ?_
  · intro e hw ht
    cases e
    case ban x0 =>
      have h0 : x0 < 2 ^ 64 := hw
      have l0 := word32_length (uint64_small h0)
      have hd : (PoolEvent.ban x0).data = word32 x0 := by simp [PoolEvent.data]
      refine ⟨_, rfl, ?_⟩
      have hu : unpackLog sigBan ((PoolEvent.ban x0).log pool b) = some (word32 x0) := by
        simp only [unpackLog, PoolEvent.log, PoolEvent.indexed, hd]
        exact if_pos ⟨t3.symm, data_ne l0⟩
      norm_num at h0
      simp only [logBan, hu]
      simp [abiAddress, abiUint64, abiUint256, logWord_last l0,
        beNat_word32, addressWord_drop, h0, PoolEvent.log]
    case other => exact absurd (Eq.subst (motive := (· ∈ readTopics)) ht.symm (by simp [readTopics] : readTopics[3] ∈ readTopics)) hw.2
    all_goals exact absurd ht (by simp only [PoolEvent.topic]; decide)
  · intro e ht
    cases e <;> first | rfl | exact absurd rfl ht

theorem logUnban_log {pool : List Nat} {b : Nat} {es : List PoolEvent} {logs : List Log}
    (h : PoolLogged pool b es logs) (hw : ∀ e ∈ es, e.WF) :
    (logs.filter (asked pool b sigUnban)).map logUnban = (toldEvents pool b es).unbans.map some := by
  obtain ⟨t0, t1, t2, t3, t4, t5, t6, t7, t8⟩ := topics_word
  refine kind_read t4 h hw ?_ ?_
  · intro e hw ht
    cases e
    case unban x0 =>
      have h0 : x0 < 2 ^ 64 := hw
      have l0 := word32_length (uint64_small h0)
      have hd : (PoolEvent.unban x0).data = word32 x0 := by simp [PoolEvent.data]
      refine ⟨_, rfl, ?_⟩
      have hu : unpackLog sigUnban ((PoolEvent.unban x0).log pool b) = some (word32 x0) := by
        simp only [unpackLog, PoolEvent.log, PoolEvent.indexed, hd]
        exact if_pos ⟨t4.symm, data_ne l0⟩
      norm_num at h0
      simp only [logUnban, hu]
      simp [abiAddress, abiUint64, abiUint256, logWord_last l0,
        beNat_word32, addressWord_drop, h0, PoolEvent.log]
    case other => exact absurd (Eq.subst (motive := (· ∈ readTopics)) ht.symm (by simp [readTopics] : readTopics[4] ∈ readTopics)) hw.2
    all_goals exact absurd ht (by simp only [PoolEvent.topic]; decide)
  · intro e ht
    cases e <;> first | rfl | exact absurd rfl ht

theorem logFee_log {pool : List Nat} {b : Nat} {es : List PoolEvent} {logs : List Log}
    (h : PoolLogged pool b es logs) (hw : ∀ e ∈ es, e.WF) :
    (logs.filter (asked pool b sigFee)).map logFee = (toldEvents pool b es).poolFee.map some := by
  obtain ⟨t0, t1, t2, t3, t4, t5, t6, t7, t8⟩ := topics_word
  refine kind_read t5 h hw ?_ ?_
  · intro e hw ht
    cases e
    case fee x0 =>
      have h0 := hw
      have l0 := word32_length h0
      have hd : (PoolEvent.fee x0).data = word32 x0 := by simp [PoolEvent.data]
      refine ⟨_, rfl, ?_⟩
      have hu : unpackLog sigFee ((PoolEvent.fee x0).log pool b) = some (word32 x0) := by
        simp only [unpackLog, PoolEvent.log, PoolEvent.indexed, hd]
        exact if_pos ⟨t5.symm, data_ne l0⟩
      simp only [logFee, hu]
      simp [abiAddress, abiUint64, abiUint256, logWord_last l0,
        beNat_word32, addressWord_drop, PoolEvent.log]
    case other => exact absurd (Eq.subst (motive := (· ∈ readTopics)) ht.symm (by simp [readTopics] : readTopics[5] ∈ readTopics)) hw.2
    all_goals exact absurd ht (by simp only [PoolEvent.topic]; decide)
  · intro e ht
    cases e <;> first | rfl | exact absurd rfl ht

theorem logRecipient_log {pool : List Nat} {b : Nat} {es : List PoolEvent} {logs : List Log}
    (h : PoolLogged pool b es logs) (hw : ∀ e ∈ es, e.WF) :
    (logs.filter (asked pool b sigRecipient)).map logRecipient = (toldEvents pool b es).feeRecipient.map some := by
  obtain ⟨t0, t1, t2, t3, t4, t5, t6, t7, t8⟩ := topics_word
  refine kind_read t6 h hw ?_ ?_
  · intro e hw ht
    cases e
    case feeRecipient x0 =>
      have h0 := hw
      have l0 := addressWord_length h0
      have hd : (PoolEvent.feeRecipient x0).data = addressWord x0 := by simp [PoolEvent.data]
      refine ⟨_, rfl, ?_⟩
      have hu : unpackLog sigRecipient ((PoolEvent.feeRecipient x0).log pool b) = some (addressWord x0) := by
        simp only [unpackLog, PoolEvent.log, PoolEvent.indexed, hd]
        exact if_pos ⟨t6.symm, data_ne l0⟩
      simp only [logRecipient, hu]
      simp [abiAddress, abiUint64, abiUint256, logWord_last l0,
        beNat_word32, addressWord_drop, PoolEvent.log]
    case other => exact absurd (Eq.subst (motive := (· ∈ readTopics)) ht.symm (by simp [readTopics] : readTopics[6] ∈ readTopics)) hw.2
    all_goals exact absurd ht (by simp only [PoolEvent.topic]; decide)
  · intro e ht
    cases e <;> first | rfl | exact absurd rfl ht

theorem logCheckpoint_log {pool : List Nat} {b : Nat} {es : List PoolEvent} {logs : List Log}
    (h : PoolLogged pool b es logs) (hw : ∀ e ∈ es, e.WF) :
    (logs.filter (asked pool b sigCheckpoint)).map logCheckpoint = (toldEvents pool b es).cpSize.map some := by
  obtain ⟨t0, t1, t2, t3, t4, t5, t6, t7, t8⟩ := topics_word
  refine kind_read t7 h hw ?_ ?_
  · intro e hw ht
    cases e
    case checkpoint x0 =>
      have h0 : x0 < 2 ^ 64 := hw
      have l0 := word32_length (uint64_small h0)
      have hd : (PoolEvent.checkpoint x0).data = word32 x0 := by simp [PoolEvent.data]
      refine ⟨_, rfl, ?_⟩
      have hu : unpackLog sigCheckpoint ((PoolEvent.checkpoint x0).log pool b) = some (word32 x0) := by
        simp only [unpackLog, PoolEvent.log, PoolEvent.indexed, hd]
        exact if_pos ⟨t7.symm, data_ne l0⟩
      norm_num at h0
      simp only [logCheckpoint, hu]
      simp [abiAddress, abiUint64, abiUint256, logWord_last l0,
        beNat_word32, addressWord_drop, h0, PoolEvent.log]
    case other => exact absurd (Eq.subst (motive := (· ∈ readTopics)) ht.symm (by simp [readTopics] : readTopics[7] ∈ readTopics)) hw.2
    all_goals exact absurd ht (by simp only [PoolEvent.topic]; decide)
  · intro e ht
    cases e <;> first | rfl | exact absurd rfl ht

theorem logCollateral_log {pool : List Nat} {b : Nat} {es : List PoolEvent} {logs : List Log}
    (h : PoolLogged pool b es logs) (hw : ∀ e ∈ es, e.WF) :
    (logs.filter (asked pool b sigCollateral)).map logCollateral = (toldEvents pool b es).collateral.map some := by
  obtain ⟨t0, t1, t2, t3, t4, t5, t6, t7, t8⟩ := topics_word
  refine kind_read t8 h hw ?_ ?_
  · intro e hw ht
    cases e
    case collateral x0 =>
      have h0 := hw
      have l0 := word32_length h0
      have hd : (PoolEvent.collateral x0).data = word32 x0 := by simp [PoolEvent.data]
      refine ⟨_, rfl, ?_⟩
      have hu : unpackLog sigCollateral ((PoolEvent.collateral x0).log pool b) = some (word32 x0) := by
        simp only [unpackLog, PoolEvent.log, PoolEvent.indexed, hd]
        exact if_pos ⟨t8.symm, data_ne l0⟩
      simp only [logCollateral, hu]
      simp [abiAddress, abiUint64, abiUint256, logWord_last l0,
        beNat_word32, addressWord_drop, PoolEvent.log]
    case other => exact absurd (Eq.subst (motive := (· ∈ readTopics)) ht.symm (by simp [readTopics] : readTopics[8] ∈ readTopics)) hw.2
    all_goals exact absurd ht (by simp only [PoolEvent.topic]; decide)
  · intro e ht
    cases e <;> first | rfl | exact absurd rfl ht

/-- **C111** Whatever the requests return, and however often they had to be repeated: if the execution client answers
with the logs it was asked for, the events that the oracle gets of a block are exactly those that the contract logged
there, each with its values, in order; nothing of other contracts, of other blocks or of other kinds of events. -/
theorem C111_hears {pool : List Nat} {b n : Nat} {es : List PoolEvent} {logs : List Log} {W : Wire} {C : Chain}
    {r : Events} (h : PoolLogged pool b es logs) (hw : ∀ e ∈ es, e.WF)
    (hn : HonestLogs pool b logs (W.logs b)) (hh : Heard n W C) (hr : C.events b = some r) :
    r = toldEvents pool b es := by
  obtain ⟨h1, h2, h3, h4, h5, h6, h7, h8, h9⟩ := hh.events b r hr
  have key : ∀ {α : Type} {f : Nat → Option (List (Option α))} {x y : List α}, Collected n f x →
      (∀ k l, f k = some l → l = y.map some) → x = y := by
    intro α f x y hc hf
    obtain ⟨l, h1, rfl⟩ := hc
    obtain ⟨k, _, h1, _⟩ := Retried.some_iff.mp h1
    rw [hf k l h1, iterated_map]
  have e1 := key h1 fun k l hk => (hn.ether k l hk).trans (logEther_log h hw)
  have e2 := key h2 fun k l hk => (hn.subs k l hk).trans (logSubscribe_log h hw)
  have e3 := key h3 fun k l hk => (hn.unsubs k l hk).trans (logUnsubscribe_log h hw)
  have e4 := key h4 fun k l hk => (hn.poolFee k l hk).trans (logFee_log h hw)
  have e5 := key h5 fun k l hk => (hn.feeRecipient k l hk).trans (logRecipient_log h hw)
  have e6 := key h6 fun k l hk => (hn.cpSize k l hk).trans (logCheckpoint_log h hw)
  have e7 := key h7 fun k l hk => (hn.collateral k l hk).trans (logCollateral_log h hw)
  have e8 := key h8 fun k l hk => (hn.bans k l hk).trans (logBan_log h hw)
  have e9 := key h9 fun k l hk => (hn.unbans k l hk).trans (logUnban_log h hw)
  cases r
  simp only at e1 e2 e3 e4 e5 e6 e7 e8 e9
  rw [e1, e2, e3, e4, e5, e6, e7, e8, e9]

theorem till_head {α : Type} {pool : List Nat} {start : Nat} {es : List (Nat × PoolEvent)} {logs : List Log} {sig : Str}
    {read : Log → Option α} {told : Nat → PoolEvent → List α}
    (h : logs.filter (fun l => l.address = pool ∧ start ≤ l.block) = es.map fun p => p.2.log pool p.1)
    (hk : ∀ p ∈ es, ([p.2.log pool p.1].filter (asked pool p.1 sig)).map read = (told p.1 p.2).map some) :
    iterated ((logs.filter (askedFrom pool start sig)).map read) = es.flatMap fun p => told p.1 p.2 := by
  have e1 : logs.filter (askedFrom pool start sig) =
      (es.map fun p => p.2.log pool p.1).filter fun l => l.topics.head? = some (eventId sig) := by
    rw [← h, List.filter_filter]
    refine List.filter_congr fun l _ => ?_
    rw [Bool.eq_iff_iff]
    simp only [askedFrom, decide_eq_true_eq, Bool.and_eq_true]
    tauto
  have e2 : ((es.map fun p => p.2.log pool p.1).filter fun l => l.topics.head? = some (eventId sig)).map read =
      (es.flatMap fun p => told p.1 p.2).map some := by
    clear h e1
    induction es with
    | nil => rfl
    | cons p es ih =>
      have h1 := hk p List.mem_cons_self
      rw [List.flatMap_cons, List.map_append, ← ih fun q hq => hk q (List.mem_cons_of_mem _ hq), ← h1, List.map_cons,
        ← List.map_append]
      congr 1
      have ha : asked pool p.1 sig (p.2.log pool p.1) =
          decide ((p.2.log pool p.1).topics.head? = some (eventId sig)) := by
        simp [asked, PoolEvent.log]
      rw [List.filter_cons, List.filter_cons, List.filter_nil, ha]
      split <;> rfl
  rw [e1, e2, iterated_map]

/-- **C111** The same for what the endpoint for validators asks for, all blocks from one on: it gets the subscriptions
and unsubscriptions of these blocks, in order. -/
theorem C111_till_head {pool : List Nat} {start : Nat} {es : List (Nat × PoolEvent)} {logs : List Log}
    (h : logs.filter (fun l => l.address = pool ∧ start ≤ l.block) = es.map fun p => p.2.log pool p.1)
    (hw : ∀ p ∈ es, p.2.WF) :
    tillHead pool logs start = (es.flatMap fun p => (toldEvents pool p.1 [p.2]).subs,
      es.flatMap fun p => (toldEvents pool p.1 [p.2]).unsubs) := by
  have one : ∀ p ∈ es, PoolLogged pool p.1 [p.2] [p.2.log pool p.1] := by
    intro p _
    simp [PoolLogged, PoolEvent.log]
  have wf : ∀ p ∈ es, ∀ e ∈ [p.2], e.WF := by
    intro p hp e he
    rw [List.mem_singleton.mp he]; exact hw p hp
  unfold tillHead
  rw [till_head (told := fun b e => (toldEvents pool b [e]).subs) h fun p hp => logSubscribe_log (one p hp) (wf p hp),
    till_head (told := fun b e => (toldEvents pool b [e]).unsubs) h
      fun p hp => logUnsubscribe_log (one p hp) (wf p hp)]

/-- **C111** No log is read as two kinds of events: the log of an event the contract can emit is accepted by the reader
of its own kind only. -/
theorem C111_one_kind (l : Log) :
    ([(logEther l).isSome, (logSubscribe l).isSome, (logUnsubscribe l).isSome, (logBan l).isSome,
      (logUnban l).isSome, (logFee l).isSome, (logRecipient l).isSome, (logCheckpoint l).isSome,
      (logCollateral l).isSome].filter id).length ≤ 1 := by
  have key : ∀ {α : Type} {f : List Nat → Option α} {sig : Str}, ((unpackLog sig l).bind f).isSome = true →
      l.topics = [eventId sig] := by
    intro α f sig h
    unfold unpackLog at h
    split at h
    · rename_i t ht
      split at h
      · rename_i hc; rw [ht, hc.1]
      · cases h
    · cases h
  have hn : ([sigEther, sigSubscribe, sigUnsubscribe, sigBan, sigUnban, sigFee, sigRecipient, sigCheckpoint,
      sigCollateral].map fun s => [eventId s]).Nodup := by
    have h := congrArg List.Nodup topics_read.1
    have hr : readTopics.Nodup := by decide
    rw [← h] at hr
    refine (List.nodup_map_iff_inj_on (List.Nodup.of_map _ hr)).mpr fun x hx y hy hxy => ?_
    exact List.inj_on_of_nodup_map hr hx hy (congrArg beNat (List.cons.inj hxy).1)
  have gen : ∀ (ps : List Bool) (ks : List (List (List Nat))), ks.Nodup →
      List.Forall₂ (fun p k => p = true → l.topics = k) ps ks → (ps.filter id).length ≤ 1 := by
    intro ps
    induction ps with
    | nil => intro _ _ _; simp
    | cons p ps ih =>
      intro ks hk hf
      cases hf with
      | @cons _ k _ ks hp hf =>
        rw [List.nodup_cons] at hk
        cases p with
        | false => simpa using ih ks hk.2 hf
        | true =>
          have h0 : ps.filter id = [] := by
            rw [List.filter_eq_nil_iff]
            intro q hq hq1
            obtain ⟨i, hi, rfl⟩ := List.getElem_of_mem hq
            have hik : i < ks.length := by rw [← hf.length_eq]; exact hi
            have := (List.forall₂_iff_get.mp hf).2 i hi hik hq1
            rw [hp rfl] at this
            exact hk.1 (this ▸ List.getElem_mem hik)
          simp [h0]
  refine gen _ _ hn ?_
  simp only [List.map_cons, List.map_nil]
  exact .cons key (.cons key (.cons key (.cons key (.cons key (.cons key (.cons key (.cons key (.cons key
    .nil))))))))

/-! ### A block with logs -/

namespace Sample

def loggedPool : List Nat := List.replicate 19 7 ++ [200]
def loggedUser : List Nat := List.replicate 20 171

/-- A subscription, a donation of 2^255 wei, an event the oracle does not read, two bans, a new fee. -/
def loggedEvents : List PoolEvent :=
  [.subscribe loggedUser 80000000000000000 12, .etherReceived loggedUser (2 ^ 255), .other 5 [[1]] [], .ban 3,
    .ban (2 ^ 64 - 1), .fee 700]

/-- The logs of two blocks; among them a log with the same topic, of another contract. -/
def chainLogs : List Log :=
  [(PoolEvent.ban 9).log loggedPool 99, (PoolEvent.ban 8).log loggedUser 100] ++
    loggedEvents.map (PoolEvent.log loggedPool 100) ++ [(PoolEvent.unban 3).log loggedPool 101]

/-- Replies of a client that has the logs; the first attempt at each question fails. -/
def logReplies (b : Nat) : LogReplies where
  ether k := if k = 0 then none else some ((chainLogs.filter (asked loggedPool b sigEther)).map logEther)
  subs k := if k = 0 then none else some ((chainLogs.filter (asked loggedPool b sigSubscribe)).map logSubscribe)
  unsubs k := if k = 0 then none else
    some ((chainLogs.filter (asked loggedPool b sigUnsubscribe)).map logUnsubscribe)
  poolFee k := if k = 0 then none else some ((chainLogs.filter (asked loggedPool b sigFee)).map logFee)
  feeRecipient k := if k = 0 then none else
    some ((chainLogs.filter (asked loggedPool b sigRecipient)).map logRecipient)
  cpSize k := if k = 0 then none else some ((chainLogs.filter (asked loggedPool b sigCheckpoint)).map logCheckpoint)
  collateral k := if k = 0 then none else
    some ((chainLogs.filter (asked loggedPool b sigCollateral)).map logCollateral)
  bans k := if k = 0 then none else some ((chainLogs.filter (asked loggedPool b sigBan)).map logBan)
  unbans k := if k = 0 then none else some ((chainLogs.filter (asked loggedPool b sigUnban)).map logUnban)

theorem logReplies_honest (b : Nat) : HonestLogs loggedPool b chainLogs (logReplies b) := by
  constructor <;>
  · intro k l h
    simp only [logReplies] at h
    split at h
    · cases h
    · exact (Option.some.inj h).symm

theorem loggedEvents_WF : ∀ e ∈ loggedEvents, e.WF := by
  simp only [loggedEvents, List.forall_mem_cons, PoolEvent.WF, IsBytes, readTopics, List.not_mem_nil, false_implies,
    implies_true]
  decide +kernel

/-- The example meets the hypotheses of `C111_hears`: there the two bans are heard, and nothing of the others. -/
example : PoolLogged loggedPool 100 loggedEvents chainLogs ∧ (∀ e ∈ loggedEvents, e.WF) ∧
    HonestLogs loggedPool 100 chainLogs (logReplies 100) ∧
    Collected 0 (logReplies 100).bans (toldEvents loggedPool 100 loggedEvents).bans ∧
    (toldEvents loggedPool 100 loggedEvents).bans = [⟨3, 100⟩, ⟨2 ^ 64 - 1, 100⟩] := by
  have h : PoolLogged loggedPool 100 loggedEvents chainLogs := by
    simp [PoolLogged, chainLogs, loggedEvents, PoolEvent.log, loggedPool, loggedUser]
  refine ⟨h, loggedEvents_WF, logReplies_honest _, ⟨_, .again rfl (by simp) (.done rfl), ?_⟩, by decide⟩
  rw [logBan_log h loggedEvents_WF, iterated_map]

/-- And those of `C111_till_head`: from block 99 on there is one subscription. -/
example : chainLogs.filter (fun l => l.address = loggedPool ∧ 99 ≤ l.block) =
      (((99, PoolEvent.ban 9) :: loggedEvents.map fun e => (100, e)) ++ [(101, PoolEvent.unban 3)]).map
        (fun p : Nat × PoolEvent => p.2.log loggedPool p.1) := by
  simp [chainLogs, loggedEvents, PoolEvent.log, loggedPool, loggedUser]

end Sample

/-- **C111 says nothing of malformed logs**, and the library does not refuse them: with bytes before an address or after
the last field, which no contract of Solidity writes, the same event is read. -/
theorem C111_false_malformed {pool s : List Nat} {b v : Nat} (hs : IsBytes 20 s) (hv : v < 2 ^ 64)
    (pad tail : List Nat) (hp : pad.length = 12) :
    logUnsubscribe ⟨pool, [eventId sigUnsubscribe], pad ++ s ++ word32 v ++ tail, b⟩ =
      some ⟨v, addressText s, b⟩ := by
  have l0 : (pad ++ s).length = 32 := by rw [List.length_append, hp, hs.1]
  have l1 := word32_length (uint64_small hv)
  have hu : unpackLog sigUnsubscribe ⟨pool, [eventId sigUnsubscribe], pad ++ s ++ word32 v ++ tail, b⟩ =
      some (pad ++ s ++ (word32 v ++ tail)) := by
    simp only [unpackLog, List.append_assoc (pad ++ s)]
    exact if_pos ⟨trivial, data_ne_append _ l0⟩
  have hd : (pad ++ s).drop 12 = s := by simp [← hp]
  have ha := logWord_zero (word32 v ++ tail) l0
  have hb := (logWord_succ (word32 v ++ tail) 0 l0).trans (logWord_zero tail l1)
  generalize pad ++ s ++ (word32 v ++ tail) = d at ha hb hu
  simp only [logUnsubscribe, hu]
  norm_num at hv
  simp [abiAddress, abiUint64, abiUint256, ha, hb, hd, beNat_word32, hv, -List.drop_append]

end Verif
