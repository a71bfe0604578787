import Verif.Lemmas.Tree
import Verif.Lemmas.Creds
import Verif.Lemmas.GoMap
/-
Freezing a checkpoint.
-/
namespace Verif

theorem bind_val {α β : Type} (a : α) (f : α → M β) : ((Except.ok a : M α) >>= f) = f a := rfl

/-! ### string maps -/

theorem putStr_new {α : Type} {m : List (Str × α)} {k : Str} {v : α} (h : ∀ p ∈ m, p.1 < k) :
    putStr m k v = m ++ [(k, v)] := GoMap.put_new strictStr h

theorem putStr_map {α β : Type} (g : α → β) (m : List (Str × α)) (k : Str) (v : α) :
    putStr (m.map fun p => (p.1, g p.2)) k (g v) = (putStr m k v).map fun p => (p.1, g p.2) :=
  GoMap.put_map g m k v

theorem putStr_mem {α : Type} {m : List (Str × α)} {k : Str} {v : α} {p} (h : p ∈ putStr m k v) :
    p = (k, v) ∨ p ∈ m := GoMap.put_sub h

theorem putStr_keys {α : Type} {m : List (Str × α)} {k : Str} {v : α} {x : Str} :
    x ∈ (putStr m k v).map (·.1) ↔ x = k ∨ x ∈ m.map (·.1) := GoMap.put_keys

theorem putStr_asc {α : Type} {m : List (Str × α)} (k : Str) (v : α) (h : m.Pairwise fun p q => p.1 < q.1) :
    (putStr m k v).Pairwise fun p q => p.1 < q.1 := GoMap.put_asc strictStr h k v

theorem getStr_of_mem {α : Type} {m : List (Str × α)} {k : Str} {v : α} (hn : (m.map (·.1)).Nodup)
    (h : (k, v) ∈ m) : getStr m k = some v := by
  induction m with
  | nil => simp at h
  | cons q m ih =>
    rw [List.map_cons, List.nodup_cons] at hn
    unfold getStr
    rw [List.find?_cons]
    rcases List.mem_cons.mp h with h | h
    · subst h; simp
    · have : q.1 ≠ k := by
        intro e
        apply hn.1
        rw [List.mem_map]
        exact ⟨_, h, e.symm⟩
      have hb : (q.1 == k) = false := by simpa using this
      rw [hb]
      exact ih hn.2 h

/-- the map from addresses to leaves -/
def rawMap (ls : List Leaf) : List (Str × Leaf) := ls.foldl (fun m l => putStr m l.waddr l) []

theorem rawMap_gen (ls : List Leaf) (m : List (Str × Leaf)) (hn : m.Pairwise fun p q => p.1 < q.1)
    (P : Str × Leaf → Prop) (hm : ∀ p ∈ m, P p) (hl : ∀ l ∈ ls, P (l.waddr, l)) :
    ((ls.foldl (fun m l => putStr m l.waddr l) m).Pairwise fun p q => p.1 < q.1) ∧
    (∀ p ∈ ls.foldl (fun m l => putStr m l.waddr l) m, P p) ∧
    (∀ k, (k ∈ m.map (·.1) ∨ ∃ l ∈ ls, l.waddr = k) →
      k ∈ (ls.foldl (fun m l => putStr m l.waddr l) m).map (·.1)) := by
  induction ls generalizing m with
  | nil =>
    refine ⟨hn, hm, ?_⟩
    rintro k (h | ⟨l, hl, _⟩)
    · exact h
    · simp at hl
  | cons l ls ih =>
    obtain ⟨h1, h2, h3⟩ := ih (putStr m l.waddr l) (putStr_asc _ _ hn) (by
      intro p hp
      rcases putStr_mem hp with e | e
      · rw [e]; exact hl l (by simp)
      · exact hm p e) (fun l hl' => hl l (List.mem_cons_of_mem _ hl'))
    refine ⟨h1, h2, ?_⟩
    intro k hk
    apply h3
    rw [putStr_keys]
    rcases hk with hk | ⟨l', hl', rfl⟩
    · exact Or.inl (Or.inr hk)
    · rcases List.mem_cons.mp hl' with rfl | hl'
      · exact Or.inl (Or.inl rfl)
      · exact Or.inr ⟨l', hl', rfl⟩

theorem rawMap_asc (ls : List Leaf) : (rawMap ls).Pairwise fun p q => p.1 < q.1 :=
  (rawMap_gen ls [] (by simp) (fun _ => True) (by simp) (by simp)).1

theorem rawMap_nodup (ls : List Leaf) : ((rawMap ls).map (·.1)).Nodup :=
  GoMap.asc_nodup strictStr (rawMap_asc ls)

theorem rawMap_mem {ls : List Leaf} {p} (h : p ∈ rawMap ls) : p.2 ∈ ls ∧ p.1 = p.2.waddr :=
  (rawMap_gen ls [] (by simp) (fun p => p.2 ∈ ls ∧ p.1 = p.2.waddr) (by simp)
    (fun l hl => ⟨hl, rfl⟩)).2.1 p h

theorem rawMap_key {ls : List Leaf} {l} (h : l ∈ ls) : ∃ l', (l.waddr, l') ∈ rawMap ls := by
  have := (rawMap_gen ls [] (by simp) (fun _ => True) (by simp) (by simp)).2.2 l.waddr
    (Or.inr ⟨l, h, rfl⟩)
  rw [List.mem_map] at this
  obtain ⟨⟨k, l'⟩, hp, e⟩ := this
  dsimp only at e
  subst e
  exact ⟨l', hp⟩

/-- with distinct addresses no leaf is lost -/
theorem rawMap_full {ls : List Leaf} (hn : (ls.map (·.waddr)).Nodup) {l} (h : l ∈ ls) :
    (l.waddr, l) ∈ rawMap ls := by
  obtain ⟨l', hl'⟩ := rawMap_key h
  obtain ⟨h1, h2⟩ := rawMap_mem hl'
  dsimp only at h1 h2
  have : l = l' := by
    have hinj : ∀ (ls : List Leaf), (ls.map (·.waddr)).Nodup → ∀ a ∈ ls, ∀ b ∈ ls,
        a.waddr = b.waddr → a = b := by
      intro ls
      induction ls with
      | nil => simp
      | cons c ls ih =>
        intro hn a ha b hb e
        rw [List.map_cons, List.nodup_cons] at hn
        rcases List.mem_cons.mp ha with ea | ha <;> rcases List.mem_cons.mp hb with eb | hb
        · rw [ea, eb]
        · exact (hn.1 (List.mem_map.mpr ⟨b, hb, by rw [← e, ea]⟩)).elim
        · exact (hn.1 (List.mem_map.mpr ⟨a, ha, by rw [e, eb]⟩)).elim
        · exact ih hn.2 a ha b hb e
    exact hinj ls hn l h l' h1 h2
  rw [← this] at hl'
  exact hl'

theorem hashMap_eq (H : List Nat → List Nat) (ls : List Leaf) :
    ls.foldl (fun m l => putStr m l.waddr (H (leafPreimage l))) [] =
      (rawMap ls).map fun p => (p.1, H (leafPreimage p.2)) := by
  have gen : ∀ (ls : List Leaf) (m : List (Str × Leaf)),
      ls.foldl (fun m l => putStr m l.waddr (H (leafPreimage l)))
        (m.map fun p => (p.1, H (leafPreimage p.2))) =
      (ls.foldl (fun m l => putStr m l.waddr l) m).map fun p => (p.1, H (leafPreimage p.2)) := by
    intro ls
    induction ls with
    | nil => intro m; rfl
    | cons l ls ih =>
      intro m
      rw [List.foldl_cons, List.foldl_cons, putStr_map (fun l => H (leafPreimage l)), ih]
  exact gen ls []

/-! ### freezing -/

theorem leafIndex_ok {xs : List (List Nat)} {x} (h : x ∈ xs) :
    ∃ i, leafIndex xs x = .ok i ∧ xs[i]? = some x := by
  unfold leafIndex
  have hne : (xs.zipIdx.filter fun p => p.1 == x) ≠ [] := by
    rw [List.mem_iff_getElem?] at h
    obtain ⟨i, hi⟩ := h
    intro e
    rw [List.filter_eq_nil_iff] at e
    have := e (x, i) (List.mem_zipIdx_iff_getElem?.mpr hi)
    simp at this
  rw [List.getLast?_eq_some_getLast hne]
  have hm := List.getLast_mem hne
  rw [List.mem_filter] at hm
  refine ⟨_, rfl, ?_⟩
  have h1 := List.mem_zipIdx_iff_getElem?.mp hm.1
  have h2 : ((xs.zipIdx.filter fun p => p.1 == x).getLast hne).1 = x := by simpa using hm.2
  rw [h1, h2]

/-- what the loop over the addresses stores -/
theorem freezeLoop_ok {T : TreeData} (Q : Str → List (List Nat) → Prop) :
    ∀ (rest : List (Str × Leaf)) (ps : List (Str × List Str)) (ls : List (Str × Leaf)),
      ps.map (·.1) = ls.map (·.1) → ((ls ++ rest).Pairwise fun p q => p.1 < q.1) →
      (∀ p ∈ rest, p.1 = p.2.waddr ∧ ∃ block i sibs, getStr T.toLeaf p.1 = some block ∧
        leafIndex T.hashes block = .ok i ∧ siblings T.levels i = .ok sibs ∧ Q p.1 sibs) →
      (∀ q ∈ ps, ∃ sibs, q.2 = sibs.map (fun x => b!"0x" ++ hexEncode x) ∧ Q q.1 sibs) →
      ∃ ps', freezeLoop T rest ps ls = .ok (ps', ls ++ rest) ∧
        ps'.map (·.1) = (ls ++ rest).map (·.1) ∧
        ∀ q ∈ ps', ∃ sibs, q.2 = sibs.map (fun x => b!"0x" ++ hexEncode x) ∧ Q q.1 sibs := by
  intro rest
  induction rest with
  | nil =>
    intro ps ls h1 _ _ h4
    exact ⟨ps, by simp [freezeLoop], by simpa using h1, h4⟩
  | cons p rest ih =>
    intro ps ls h1 h2 h3 h4
    obtain ⟨k, raw⟩ := p
    obtain ⟨e, block, i, sibs, hb, hi, hs, hQ⟩ := h3 (k, raw) (by simp)
    dsimp only at e hb hQ
    have hne : ∀ q ∈ ls, q.1 < k := by
      rw [List.pairwise_append] at h2
      intro q hq
      exact h2.2.2 q hq (k, raw) (by simp)
    have hnp : ∀ q ∈ ps, q.1 < k := by
      intro q hq
      have : q.1 ∈ ls.map (·.1) := by rw [← h1]; exact List.mem_map.mpr ⟨q, hq, rfl⟩
      obtain ⟨q', hq', e'⟩ := List.mem_map.mp this
      rw [← e']; exact hne q' hq'
    obtain ⟨ps', hf, hk, hq⟩ := ih (ps ++ [(k, sibs.map fun x => b!"0x" ++ hexEncode x)])
      (ls ++ [(k, raw)]) (by simp [h1]) (by simpa using h2)
      (fun p hp => h3 p (List.mem_cons_of_mem _ hp)) (by
        intro q hq
        rcases List.mem_append.mp hq with hq | hq
        · exact h4 q hq
        · rw [List.mem_singleton] at hq; subst hq
          exact ⟨sibs, rfl, hQ⟩)
    refine ⟨ps', ?_, by simpa using hk, hq⟩
    have he : equals k raw.waddr = .ok true := by
      rw [← e]; unfold equals; simp
    unfold freezeLoop
    rw [he]
    simp only [bind_val, hb, hi, hs, Bool.not_true, Bool.false_eq_true, if_false]
    rw [putStr_new hnp, putStr_new hne]
    simpa using hf

/-- Freezing succeeds once the leaves are there, and stores this. -/
theorem freeze_spec {H E s ls} (ha : aggregate E s.tick s = .ok ls) (h2 : 2 ≤ ls.length) :
    ∃ f root, freeze H E s = .ok ({ s with
        committed := putFrozen s.committed s.latestSlot f, tick := s.tick + 2 }, true) ∧
      f.slot = s.latestSlot ∧ f.vals = s.vals ∧ f.root = b!"0x" ++ hexEncode root ∧
      f.leafs = rawMap ls ∧ f.proofs.map (·.1) = f.leafs.map (·.1) ∧
      (∀ q ∈ f.proofs, ∃ sibs l, q.2 = sibs.map (fun x => b!"0x" ++ hexEncode x) ∧
        (q.1, l) ∈ f.leafs ∧ Verifies H root sibs (leafPreimage l) ∧
        ∀ y ∈ sibs, ∃ z, y = H z) ∧
      (∃ T : HTree, T.hash H = root ∧ ∀ x ∈ T.leaves, ∃ l ∈ ls, x = leafPreimage l) := by
  have hlen : (ls.map fun l => H (leafPreimage l)).length = ls.length := by simp
  obtain ⟨root, hr, hpath⟩ := tree_path H (treeDepth ls.length) (ls.map fun l => H (leafPreimage l))
    (by rw [hlen]; exact h2) (by rw [hlen]; rfl)
  obtain ⟨T, hT, hlv⟩ := tree_root H (treeDepth ls.length) (ls.map fun l => HTree.leaf (leafPreimage l))
    (by simpa using h2) (by simp [treeDepth])
  have hTr : T.hash H = root := by
    rw [List.map_map] at hT
    have : (ls.map ((fun x => x.hash H) ∘ fun l => HTree.leaf (leafPreimage l))) =
        ls.map fun l => H (leafPreimage l) := rfl
    rw [this, hr] at hT
    exact (Except.ok.inj hT).symm
  have hgen : generateTree H E s.tick s = .ok (some ⟨(rawMap ls).map fun p => (p.1, H (leafPreimage p.2)),
      rawMap ls, ls.map fun l => H (leafPreimage l),
      treeLevels H (treeDepth ls.length) (ls.map fun l => H (leafPreimage l)), root⟩) := by
    unfold generateTree
    rw [ha]
    simp only [bind_val, hlen]
    rw [if_neg (by omega), hr, hashMap_eq]
    rfl
  have hloop := freezeLoop_ok
    (T := ⟨(rawMap ls).map fun p => (p.1, H (leafPreimage p.2)),
      rawMap ls, ls.map fun l => H (leafPreimage l),
      treeLevels H (treeDepth ls.length) (ls.map fun l => H (leafPreimage l)), root⟩)
    (fun k sibs => ∃ l, (k, l) ∈ rawMap ls ∧ Verifies H root sibs (leafPreimage l) ∧
      ∀ y ∈ sibs, ∃ z, y = H z)
    (rawMap ls) [] [] rfl (by simpa using rawMap_asc ls) (by
      intro p hp
      obtain ⟨hm, e⟩ := rawMap_mem hp
      refine ⟨e, ?_⟩
      have hb : getStr ((rawMap ls).map fun p => (p.1, H (leafPreimage p.2))) p.1 =
          some (H (leafPreimage p.2)) := by
        apply getStr_of_mem
        · rw [List.map_map]; exact rawMap_nodup ls
        · exact List.mem_map.mpr ⟨p, hp, rfl⟩
      obtain ⟨i, hi, hx⟩ := leafIndex_ok (xs := ls.map fun l => H (leafPreimage l))
        (x := H (leafPreimage p.2)) (List.mem_map.mpr ⟨p.2, hm, rfl⟩)
      obtain ⟨sibs, hs, hf, hy⟩ := hpath i _ hx
      refine ⟨_, i, sibs, hb, hi, hs, p.2, hp, hf, ?_⟩
      intro y hym
      rcases hy y hym with h | h
      · obtain ⟨l, _, rfl⟩ := List.mem_map.mp h
        exact ⟨_, rfl⟩
      · exact h) (by simp)
  obtain ⟨ps, hf, hk, hq⟩ := hloop
  refine ⟨⟨s.latestSlot, b!"0x" ++ hexEncode root, s.vals, rawMap ls, ps⟩, root, ?_, rfl, rfl, rfl, rfl,
    by simpa using hk, ?_, T, hTr, ?_⟩
  · unfold freeze
    rw [hgen]
    simp only [bind_val]
    simp only [List.nil_append] at hf
    rw [hf]
    rfl
  · intro q hqm
    obtain ⟨sibs, e, l, h1, h3, h4⟩ := hq q hqm
    exact ⟨sibs, l, e, h1, h3, h4⟩
  · intro x hx
    obtain ⟨t, ht, hxt⟩ := hlv x hx
    obtain ⟨l, hl, rfl⟩ := List.mem_map.mp ht
    simp only [HTree.leaves, List.mem_singleton] at hxt
    exact ⟨l, hl, hxt⟩

theorem freeze_few {H E s ls} (ha : aggregate E s.tick s = .ok ls) (h2 : ls.length < 2) :
    freeze H E s = .ok ({ s with tick := s.tick + 2 }, false) := by
  unfold freeze generateTree
  rw [ha]
  simp only [bind_val, List.length_map]
  rw [if_pos h2]
  rfl

theorem freeze_aggregate {H E s r} (h : freeze H E s = .ok r) : ∃ ls, aggregate E s.tick s = .ok ls := by
  unfold freeze generateTree at h
  simp only [bind_ok] at h
  obtain ⟨_, ⟨ls, hl, _⟩, _⟩ := h
  exact ⟨ls, hl⟩

/-- the checkpoint made of given leaves -/
def frz (H : List Nat → List Nat) (slot : Nat) (vals : VMap) (ls : List Leaf) : M (Option Frozen) :=
  if (ls.map fun l => H (leafPreimage l)).length < 2 then .ok none
  else do
    let root ← treeRoot H (treeLevels H (treeDepth (ls.map fun l => H (leafPreimage l)).length)
      (ls.map fun l => H (leafPreimage l)))
    let (proofs, leafs) ← freezeLoop ⟨ls.foldl (fun m l => putStr m l.waddr (H (leafPreimage l))) [],
      ls.foldl (fun m l => putStr m l.waddr l) [], ls.map fun l => H (leafPreimage l),
      treeLevels H (treeDepth (ls.map fun l => H (leafPreimage l)).length)
        (ls.map fun l => H (leafPreimage l)), root⟩ (ls.foldl (fun m l => putStr m l.waddr l) []) [] []
    .ok (some ⟨slot, b!"0x" ++ hexEncode root, vals, leafs, proofs⟩)

/-- the iteration orders matter only through the leaves -/
theorem freeze_frz {H E s s' r} (h : freeze H E s = .ok (s', r)) :
    ∃ ls x, aggregate E s.tick s = .ok ls ∧ frz H s.latestSlot s.vals ls = .ok x ∧
      ((x = none ∧ r = false ∧ s' = { s with tick := s.tick + 2 }) ∨
        ∃ f, x = some f ∧ r = true ∧ s' = { s with
          committed := putFrozen s.committed s.latestSlot f, tick := s.tick + 2 }) := by
  obtain ⟨ls, ha⟩ := freeze_aggregate h
  by_cases hl : (ls.map fun l => H (leafPreimage l)).length < 2
  · refine ⟨ls, none, ha, by unfold frz; rw [if_pos hl], Or.inl ?_⟩
    rw [freeze_few ha (by simpa using hl)] at h
    simp only [Except.ok.injEq, Prod.mk.injEq] at h
    exact ⟨rfl, h.2.symm, h.1.symm⟩
  · unfold freeze generateTree at h
    rw [ha, bind_val] at h
    dsimp only at h
    rw [if_neg hl] at h
    simp only [bind_ok] at h
    obtain ⟨o, ⟨root, hr, ho⟩, h⟩ := h
    have ho := Except.ok.inj ho
    subst ho
    simp only [bind_ok] at h
    obtain ⟨⟨a, b⟩, h2, h⟩ := h
    simp only [Except.ok.injEq, Prod.mk.injEq] at h
    refine ⟨ls, _, ha, ?_, Or.inr ⟨_, rfl, h.2.symm, h.1.symm⟩⟩
    unfold frz
    rw [if_neg hl, hr, bind_val, h2]
    rfl

/-! ### the leaves are determined -/

theorem leaves_unique {s s' ls ls'} (h : LeavesOf s ls) (h' : LeavesOf s' ls')
    (hf : lower s'.poolFeesAddr = lower s.poolFeesAddr) (hp : s'.poolFees = s.poolFees)
    (hd : ∀ a, debtOf s' a = debtOf s a)
    (ho : ∀ a, (∃ p ∈ s'.vals, lower p.2.waddr = a) ↔ ∃ p ∈ s.vals, lower p.2.waddr = a) :
    ls' = ls := by
  have key : ∀ {u v : State} {lu lv : List Leaf}, LeavesOf u lu → LeavesOf v lv →
      (∀ a, debtOf v a = debtOf u a) →
      (∀ a, (∃ p ∈ v.vals, lower p.2.waddr = a) → ∃ p ∈ u.vals, lower p.2.waddr = a) →
      ∀ l ∈ lv.tail, l ∈ lu.tail := by
    intro u v lu lv hu hv hd ho l hl
    obtain ⟨⟨p, hpm, e⟩, hb⟩ := hv.sound l hl
    obtain ⟨q, hq, e'⟩ := ho l.waddr ⟨p, hpm, e.symm⟩
    obtain ⟨l', hl', e''⟩ := hu.complete q hq
    have hw : l'.waddr = l.waddr := e''.trans e'
    have hb' := (hu.sound l' hl').2
    rw [hw, ← hd, ← hb] at hb'
    have : l' = l := by
      cases l; cases l'; simp_all
    rw [← this]; exact hl'
  have nd : ∀ {u : State} {lu : List Leaf}, LeavesOf u lu → lu.tail.Nodup := by
    intro u lu hu
    refine hu.sorted.imp ?_
    rintro a b h rfl
    exact slt_asymm h h
  have hperm : ls'.tail.Perm ls.tail := by
    rw [List.perm_ext_iff_of_nodup (nd h') (nd h)]
    intro l
    exact ⟨key h h' hd (fun a => (ho a).mp) l, key h' h (fun a => (hd a).symm) (fun a => (ho a).mpr) l⟩
  have htail : ls'.tail = ls.tail :=
    hperm.eq_of_pairwise (fun a b _ _ h1 h2 => absurd h2 (slt_asymm h1)) h'.sorted h.sorted
  have hh := h.head
  have hh' := h'.head
  rw [hf, hp] at hh'
  cases ls with
  | nil => simp at hh
  | cons a ls =>
    cases ls' with
    | nil => simp at hh'
    | cons b ls' =>
      simp only [List.head?_cons, Option.some.injEq] at hh hh'
      simp only [List.tail_cons] at htail
      rw [hh, hh', htail]

/-! ### addresses -/

theorem IsAddress.length {a} (h : IsAddress a) : a.length = 42 := by
  obtain ⟨d, rfl, hd, _⟩ := h
  rw [List.length_append, hd]; rfl

theorem isAddress_lower {a} (h : IsAddress a) : isHexAddress (lower a) = true := by
  obtain ⟨d, rfl, hd, hc⟩ := h
  have e : lower (b!"0x" ++ d) = 48 :: 120 :: lower d := by
    unfold lower; rw [List.map_append]; rfl
  rw [e]
  unfold isHexAddress
  have : has0xPrefix (48 :: 120 :: lower d) = true := by simp [has0xPrefix]
  simp only [this, if_true, List.drop_succ_cons, List.drop_zero, length_lower, hd, beq_self_eq_true,
    Bool.true_and, List.all_eq_true]
  intro c hc'
  unfold lower at hc'
  obtain ⟨c', hm, rfl⟩ := List.mem_map.mp hc'
  have := hc c' hm
  unfold isHexChar lowerByte
  simp only [Bool.or_eq_true, Bool.and_eq_true, decide_eq_true_eq]
  split <;> omega

theorem aggregate_total {E : Env} (hE : ValidEnv E) {t s} (h : AddressesOK s) :
    ∃ ls, aggregate E t s = .ok ls := by
  have hp := shuffle_perm hE t s.vals
  have hp1 := shuffle_perm hE (t + 1) s.vals
  obtain ⟨rs, hr⟩ := aggLoop_total (us := (E.shuffle t s.vals).map (·.2)) (ls := []) (n := 42) (by
    intro v hv
    obtain ⟨p, hpm, rfl⟩ := List.mem_map.mp hv
    exact (h.vals p (hp.mem_iff.mp hpm)).length) (by simp)
  have hinv : AggInv ((E.shuffle t s.vals).map (·.2)) rs := by
    have := aggLoop_inv (vs := []) (ls := []) ⟨by simp, by simp, by simp, by simp, by simp, rfl⟩ hr
    simpa using this
  have howner : ∀ l ∈ rs, ∃ p ∈ s.vals, l.waddr = lower p.2.waddr := by
    intro l hl
    obtain ⟨v, hv, e⟩ := hinv.owner l hl
    obtain ⟨p, hpm, rfl⟩ := List.mem_map.mp hv
    exact ⟨p, hp.mem_iff.mp hpm, e⟩
  have hsum : ((E.shuffle (t + 1) s.vals).map fun p => p.2.acc).sum = (rs.map (·.bal)).sum := by
    rw [hinv.total, List.map_map]
    exact ((hp1.trans hp.symm).map _).sum_eq
  have hmem : ∀ l ∈ (⟨lower s.poolFeesAddr, s.poolFees⟩ :: orderLeaves rs : List Leaf),
      isHexAddress l.waddr = true ∧ lower l.waddr = l.waddr := by
    intro l hl
    rcases List.mem_cons.mp hl with rfl | hl
    · exact ⟨isAddress_lower h.fees, lower_lower _⟩
    · obtain ⟨p, hpm, e⟩ := howner l ((orderLeaves_perm rs).mem_iff.mp hl)
      rw [e]
      exact ⟨isAddress_lower (h.vals p hpm), lower_lower _⟩
  refine ⟨⟨lower s.poolFeesAddr, s.poolFees⟩ :: orderLeaves rs, ?_⟩
  unfold aggregate
  rw [hr]
  simp only [bind_val]
  rw [if_neg (by rw [hsum]; simp), if_neg, if_neg, if_neg]
  · rw [Bool.not_eq_true, List.any_eq_false]
    intro l hl; simp [(hmem l hl).2]
  · rw [Bool.not_eq_true, List.any_eq_false]
    intro l hl; simp [(hmem l hl).1]
  · rw [Bool.not_eq_true, List.any_eq_false]
    intro l hl
    obtain ⟨p, hpm, e⟩ := howner l ((orderLeaves_perm rs).mem_iff.mp hl)
    rw [e, lower_lower]
    simpa using h.pool p hpm

/-! ### the bytes of a claim -/

theorem hexVal_hexDigit {d : Nat} (h : d < 16) : hexVal (hexDigit d) = d := by
  unfold hexDigit hexVal
  by_cases h1 : d < 10
  · rw [if_pos h1, if_pos (by omega)]; omega
  · rw [if_neg h1, if_neg (by omega), if_neg (by omega)]; omega

theorem hexDigit_hexVal {c : Nat} (h : (48 ≤ c ∧ c ≤ 57) ∨ (97 ≤ c ∧ c ≤ 102)) :
    hexDigit (hexVal c) = c ∧ hexVal c < 16 := by
  unfold hexDigit hexVal
  by_cases h1 : c ≤ 57
  · rw [if_pos h1]
    refine ⟨?_, by omega⟩
    rw [if_pos (by omega)]; omega
  · have h2 : ¬ c ≤ 70 := by omega
    simp only [h1, h2, if_false]
    refine ⟨?_, by omega⟩
    rw [if_neg (by omega)]; omega

theorem hexDecode_spec : ∀ (d : Str) (n : Nat), d.length = 2 * n →
    (∀ c ∈ d, (48 ≤ c ∧ c ≤ 57) ∨ (97 ≤ c ∧ c ≤ 102)) →
    hexEncode (hexDecode d) = d ∧ (hexDecode d).length = n ∧ ∀ x ∈ hexDecode d, x < 256
  | [], n, h, _ => by simp at h; subst h; simp [hexDecode, hexEncode]
  | [_], n, h, _ => by simp at h; omega
  | a :: b :: d, n, h, hc => by
    obtain ⟨m, rfl⟩ : ∃ m, n = m + 1 := ⟨n - 1, by simp at h; omega⟩
    obtain ⟨h1, h2, h3⟩ := hexDecode_spec d m (by simp at h; omega)
      (fun c hc' => hc c (by simp [hc']))
    obtain ⟨ea, la⟩ := hexDigit_hexVal (hc a (by simp))
    obtain ⟨eb, lb⟩ := hexDigit_hexVal (hc b (by simp))
    refine ⟨?_, by simp [hexDecode, h2], ?_⟩
    · rw [hexDecode, hexEncode, h1]
      rw [show (hexVal a * 16 + hexVal b) / 16 = hexVal a by omega,
        show (hexVal a * 16 + hexVal b) % 16 = hexVal b by omega, ea, eb]
    · intro x hx
      rw [hexDecode] at hx
      rcases List.mem_cons.mp hx with rfl | hx
      · omega
      · exact h3 x hx

theorem hexDecode_hexEncode : ∀ (bs : List Nat), (∀ x ∈ bs, x < 256) → hexDecode (hexEncode bs) = bs
  | [], _ => rfl
  | b :: bs, h => by
    have hb := h b (by simp)
    rw [hexEncode, hexDecode, hexDecode_hexEncode bs fun x hx => h x (by simp [hx]),
      hexVal_hexDigit (by omega), hexVal_hexDigit (by omega)]
    congr 1; omega

theorem addressBytes_text {a bytes} (h : AddressText a bytes) (hb : ∀ x ∈ bytes, x < 256) :
    addressBytes a = bytes := by
  unfold AddressText at h
  subst h
  unfold addressBytes
  have : has0xPrefix (b!"0x" ++ hexEncode bytes) = true := rfl
  rw [this, if_pos rfl]
  exact hexDecode_hexEncode bytes hb

/-- a lower case address is the text of its 20 bytes -/
theorem addressBytes_spec {a} (h : IsAddress a) :
    AddressText (lower a) (addressBytes (lower a)) ∧ (addressBytes (lower a)).length = 20 ∧
      ∀ x ∈ addressBytes (lower a), x < 256 := by
  obtain ⟨d, rfl, hd, hc⟩ := h
  have e : lower (b!"0x" ++ d) = 48 :: 120 :: lower d := by
    unfold lower; rw [List.map_append]; rfl
  have e2 : addressBytes (48 :: 120 :: lower d) = hexDecode (lower d) := by
    unfold addressBytes
    have : has0xPrefix (48 :: 120 :: lower d) = true := by simp [has0xPrefix]
    rw [this]; rfl
  obtain ⟨h1, h2, h3⟩ := hexDecode_spec (lower d) 20 (by rw [length_lower, hd]) (by
    intro c hc'
    unfold lower at hc'
    obtain ⟨c', hm, rfl⟩ := List.mem_map.mp hc'
    have := hc c' hm
    unfold lowerByte
    split <;> omega)
  rw [e, e2]
  refine ⟨?_, h2, h3⟩
  unfold AddressText
  rw [h1]; rfl

theorem bigEndian_spec (n : Nat) : ∀ x, x < 256 ^ n → (bigEndian n x).length = n ∧
    (∀ b ∈ bigEndian n x, b < 256) ∧ (bigEndian n x).foldl (fun n x => n * 256 + x) 0 = x := by
  induction n with
  | zero => intro x hx; simp at hx; subst hx; simp [bigEndian]
  | succ n ih =>
    intro x hx
    obtain ⟨h1, h2, h3⟩ := ih (x / 256) (by
      rw [Nat.div_lt_iff_lt_mul (by omega)]; rw [pow_succ] at hx; exact hx)
    refine ⟨by simp [bigEndian, h1], ?_, ?_⟩
    · intro b hb
      rw [bigEndian] at hb
      rcases List.mem_append.mp hb with hb | hb
      · exact h2 b hb
      · rw [List.mem_singleton] at hb; subst hb; exact Nat.mod_lt _ (by omega)
    · rw [bigEndian, List.foldl_append, h3]
      simp only [List.foldl_cons, List.foldl_nil]
      omega

theorem bigEndian_length (n x : Nat) : (bigEndian n x).length = n := by
  induction n generalizing x with
  | zero => rfl
  | succ n ih => simp [bigEndian, ih]

/-- equal values, equal bytes -/
theorem fold_inj : ∀ (a b : List Nat), a.length = b.length → (∀ x ∈ a, x < 256) → (∀ x ∈ b, x < 256) →
    a.foldl (fun n x => n * 256 + x) 0 = b.foldl (fun n x => n * 256 + x) 0 → a = b := by
  intro a
  induction a using List.reverseRecOn with
  | nil => intro b h _ _ _; exact (List.length_eq_zero_iff.mp h.symm).symm
  | append_singleton a x ih =>
    intro b h ha hb e
    rcases List.eq_nil_or_concat b with rfl | ⟨b, y, rfl⟩
    · simp at h
    · rw [List.concat_eq_append] at *
      rw [List.foldl_append, List.foldl_append] at e
      simp only [List.foldl_cons, List.foldl_nil] at e
      have hx := ha x (by simp)
      have hy := hb y (by simp)
      have := ih b (by simpa using h) (fun z hz => ha z (by simp [hz])) (fun z hz => hb z (by simp [hz]))
        (by omega)
      rw [this]
      have : x = y := by rw [this] at e; omega
      rw [this]

/-- what is hashed for a leaf are the bytes of the claim -/
theorem leafPreimage_claim {a : Str} {x : Int} (h : IsAddress a) (h0 : 0 ≤ x) (h1 : x < 2 ^ 256) :
    ∃ addr, AddressText (lower a) addr ∧ ClaimBytes addr x.toNat (leafPreimage ⟨lower a, x⟩) := by
  obtain ⟨h2, h3, h4⟩ := addressBytes_spec h
  refine ⟨_, h2, h3, h4, by omega, ?_⟩
  obtain ⟨h5, h6, h7⟩ := bigEndian_spec 32 x.toNat (by
    have : (256 : Nat) ^ 32 = 2 ^ 256 := by norm_num
    rw [this]; omega)
  have e : uint256Bytes x = bigEndian 32 x.toNat := by
    unfold uint256Bytes
    rw [Int.emod_eq_of_lt h0 (by exact_mod_cast h1)]
  exact ⟨_, by unfold leafPreimage; rw [e], h5, h6, h7⟩

theorem leafPreimage_length {l : Leaf} (h : (addressBytes l.waddr).length = 20) :
    (leafPreimage l).length = 52 := by
  unfold leafPreimage uint256Bytes
  rw [List.length_append, h, bigEndian_length]

/-- the bytes determine the claim -/
theorem leafPreimage_inj {a : Str} {x : Int} {addr amount bytes} (h : IsAddress a) (h0 : 0 ≤ x)
    (h1 : x < 2 ^ 256) (hc : ClaimBytes addr amount bytes) (e : bytes = leafPreimage ⟨lower a, x⟩) :
    AddressText (lower a) addr ∧ x = amount := by
  obtain ⟨addr', ht, hc'⟩ := leafPreimage_claim h h0 h1
  rw [← e] at hc'
  obtain ⟨be, e1, l1, s1, f1⟩ := hc.bytes
  obtain ⟨be', e2, l2, s2, f2⟩ := hc'.bytes
  rw [e1] at e2
  have := List.append_inj e2 (by rw [hc.len, hc'.len])
  refine ⟨by rw [this.1]; exact ht, ?_⟩
  rw [← this.2, f1] at f2
  omega

end Verif
