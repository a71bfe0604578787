import Mathlib.Data.List.Induction
import Verif.Lemmas.Leaves
/-
The Merkle tree: every stored proof verifies, and nothing else does.
-/
namespace Verif

theorem sortedPair_comm (a b : List Nat) : sortedPair a b = sortedPair b a := by
  unfold sortedPair
  by_cases h1 : a < b
  · rw [if_pos h1, if_neg (slt_asymm h1)]
  · by_cases h2 : b < a
    · rw [if_neg h1, if_pos h2]
    · rw [slt_total h1 h2]

theorem concatSorted_eq (a b : List Nat) : concatSorted a b = sortedPair a b := rfl

/-! ### shape of the levels -/

theorem fixOdd_length (l : List (List Nat)) :
    (fixOdd l).length = 2 * ((l.length + 1) / 2) := by
  unfold fixOdd
  split
  · rename_i h
    have : l ≠ [] := by rintro rfl; simp at h
    rw [List.length_append, List.getLast?_eq_some_getLast this]
    simp
    omega
  · omega

theorem fixOdd_get {l : List (List Nat)} {i : Nat} (h : i < l.length) : (fixOdd l)[i]? = l[i]? := by
  unfold fixOdd
  split
  · exact List.getElem?_append_left h
  · rfl

theorem pairUp_length (H) : ∀ (l : List (List Nat)), (pairUp H l).length = l.length / 2
  | [] => rfl
  | [_] => by simp [pairUp]
  | a :: b :: rest => by
    simp only [pairUp, List.length_cons, pairUp_length H rest]; omega

theorem pairUp_get (H) : ∀ (l : List (List Nat)) (j : Nat) (a b : List Nat),
    l[2 * j]? = some a → l[2 * j + 1]? = some b → (pairUp H l)[j]? = some (hashPair H a b)
  | [], j, a, b, h, _ => by simp at h
  | [x], j, a, b, _, h => by
    rw [List.getElem?_cons_succ] at h
    simp at h
  | x :: y :: rest, 0, a, b, h1, h2 => by
    simp only [Nat.mul_zero, Nat.zero_add, List.getElem?_cons_zero, List.getElem?_cons_succ,
      Option.some.injEq] at h1 h2
    subst h1; subst h2
    rfl
  | x :: y :: rest, j + 1, a, b, h1, h2 => by
    have e1 : 2 * (j + 1) = 2 * j + 1 + 1 := by omega
    have e2 : 2 * (j + 1) + 1 = 2 * j + 1 + 1 + 1 := by omega
    rw [e1, List.getElem?_cons_succ, List.getElem?_cons_succ] at h1
    rw [e2, List.getElem?_cons_succ, List.getElem?_cons_succ] at h2
    rw [pairUp, List.getElem?_cons_succ]
    exact pairUp_get H rest j a b h1 h2

theorem bitsLen_zero : bitsLen 0 = 0 := rfl
theorem bitsLen_pos {n : Nat} (h : n ≠ 0) : bitsLen n = bitsLen (n / 2) + 1 := by
  unfold bitsLen
  rw [if_neg h, Nat.log2_def]
  by_cases h2 : 2 ≤ n
  · rw [if_pos h2, if_neg (by omega)]
  · rw [if_neg h2, if_pos (by omega)]

theorem next_length (H) (l : List (List Nat)) (h : 2 ≤ l.length) :
    (pairUp H (fixOdd l)).length - 1 = (l.length - 1) / 2 ∧ 1 ≤ (pairUp H (fixOdd l)).length := by
  rw [pairUp_length, fixOdd_length]
  omega

theorem treeLevels_succ (H d l) :
    treeLevels H (d + 1) l = fixOdd l :: treeLevels H d (pairUp H (fixOdd l)) := rfl

/-- a level of two nodes or more and the levels above it have a root, and from each node the siblings
lead to it -/
theorem tree_path (H) : ∀ (d : Nat) (l : List (List Nat)), 2 ≤ l.length → bitsLen (l.length - 1) = d →
    ∃ root, treeRoot H (treeLevels H d l) = .ok root ∧
      ∀ (i : Nat) (x : List Nat), l[i]? = some x → ∃ sibs, siblings (treeLevels H d l) i = .ok sibs ∧
        sibs.foldl (hashPair H) x = root ∧
        ∀ y ∈ sibs, y ∈ l ∨ ∃ z, y = H z := by
  intro d
  induction d with
  | zero =>
    intro l h1 h2
    rw [bitsLen_pos (by omega)] at h2
    omega
  | succ d ih =>
    intro l h1 h2
    have hlen := fixOdd_length l
    obtain ⟨hnext, hnext1⟩ := next_length H l h1
    have hd : bitsLen ((pairUp H (fixOdd l)).length - 1) = d := by
      rw [hnext]; rw [bitsLen_pos (by omega)] at h2; omega
    -- the pair of node i
    have hpair : ∀ i x, l[i]? = some x → ∃ y, (fixOdd l)[if i % 2 = 1 then i - 1 else i + 1]? = some y ∧
        (pairUp H (fixOdd l))[i / 2]? = some (hashPair H x y) ∧ y ∈ l := by
      intro i x hx
      have hi : i < l.length := by
        rw [List.getElem?_eq_some_iff] at hx; exact hx.1
      have hmem : ∀ y ∈ fixOdd l, y ∈ l := by
        intro y hy
        unfold fixOdd at hy
        split at hy
        · rcases List.mem_append.mp hy with hy | hy
          · exact hy
          · rw [Option.mem_toList] at hy
            exact List.mem_of_getLast? hy
        · exact hy
      by_cases ho : i % 2 = 1
      · rw [if_pos ho]
        have hlt : i - 1 < (fixOdd l).length := by omega
        refine ⟨(fixOdd l)[i - 1], List.getElem?_eq_getElem hlt, ?_, hmem _ (List.getElem_mem hlt)⟩
        have := pairUp_get H (fixOdd l) (i / 2) (fixOdd l)[i - 1] x
          (by rw [show 2 * (i / 2) = i - 1 by omega]; exact List.getElem?_eq_getElem hlt)
          (by rw [show 2 * (i / 2) + 1 = i by omega, fixOdd_get hi]; exact hx)
        rw [this]
        unfold hashPair
        rw [sortedPair_comm]
      · rw [if_neg ho]
        have hlt : i + 1 < (fixOdd l).length := by omega
        refine ⟨(fixOdd l)[i + 1], List.getElem?_eq_getElem hlt, ?_, hmem _ (List.getElem_mem hlt)⟩
        exact pairUp_get H (fixOdd l) (i / 2) x (fixOdd l)[i + 1]
          (by rw [show 2 * (i / 2) = i by omega, fixOdd_get hi]; exact hx)
          (by rw [show 2 * (i / 2) + 1 = i + 1 by omega]; exact List.getElem?_eq_getElem hlt)
    by_cases h3 : l.length = 2
    · -- the last level
      have hd0 : d = 0 := by
        rw [bitsLen_pos (by omega), h3] at h2
        simpa [bitsLen_zero] using h2.symm
      subst hd0
      have hf : fixOdd l = l := by unfold fixOdd; rw [if_neg (by omega)]
      obtain ⟨a, b, rfl⟩ : ∃ a b, l = [a, b] := by
        match l, h3 with
        | [a, b], _ => exact ⟨a, b, rfl⟩
      refine ⟨hashPair H a b, ?_, ?_⟩
      · rw [treeLevels_succ, hf]; rfl
      · intro i x hx
        obtain ⟨y, hy, hp, hm⟩ := hpair i x hx
        refine ⟨[y], ?_, ?_, ?_⟩
        · rw [treeLevels_succ]
          unfold siblings
          rw [hy]; rfl
        · have hi : i / 2 = 0 := by
            rw [List.getElem?_eq_some_iff] at hx; have := hx.1; simp at this; omega
          rw [hi, hf] at hp
          simp only [pairUp, List.getElem?_cons_zero, Option.some.injEq] at hp
          simp only [List.foldl_cons, List.foldl_nil]
          rw [← hp]; rfl
        · intro z hz; rw [List.mem_singleton] at hz; subst hz; exact Or.inl hm
    · have h4 : 2 ≤ (pairUp H (fixOdd l)).length := by omega
      obtain ⟨root, hr, hs⟩ := ih _ h4 hd
      refine ⟨root, ?_, ?_⟩
      · rw [treeLevels_succ]
        have : treeLevels H d (pairUp H (fixOdd l)) ≠ [] := by
          cases d with
          | zero => rw [bitsLen_pos (by omega)] at hd; omega
          | succ d => simp [treeLevels]
        unfold treeRoot at hr ⊢
        rw [List.getLast?_cons]
        rw [List.getLast?_eq_some_getLast this] at hr ⊢
        exact hr
      · intro i x hx
        obtain ⟨y, hy, hp, hm⟩ := hpair i x hx
        obtain ⟨sibs, h5, h6, h7⟩ := hs (i / 2) _ hp
        refine ⟨y :: sibs, ?_, h6, ?_⟩
        · rw [treeLevels_succ]
          unfold siblings
          rw [hy, h5]; rfl
        · intro z hz
          rcases List.mem_cons.mp hz with rfl | hz
          · exact Or.inl hm
          · rcases h7 z hz with h8 | h8
            · right
              rw [List.mem_iff_getElem?] at h8
              obtain ⟨j, hj⟩ := h8
              have hjl : j < (pairUp H (fixOdd l)).length := by
                rw [List.getElem?_eq_some_iff] at hj; exact hj.1
              rw [pairUp_length] at hjl
              have e1 : 2 * j < (fixOdd l).length := by omega
              have e2 : 2 * j + 1 < (fixOdd l).length := by omega
              have := pairUp_get H (fixOdd l) j _ _ (List.getElem?_eq_getElem e1)
                (List.getElem?_eq_getElem e2)
              rw [hj] at this
              exact ⟨_, Option.some.inj this⟩
            · exact Or.inr h8

/-! ### the tree of the levels -/

/-- the trees over a completed level -/
def pairTrees : List HTree → List HTree
  | a :: b :: rest => .node a b :: pairTrees rest
  | _ => []

theorem pairTrees_hash (H) : ∀ ts : List HTree,
    (pairTrees ts).map (·.hash H) = pairUp H (ts.map (·.hash H))
  | [] => rfl
  | [_] => rfl
  | a :: b :: rest => by
    simp only [pairTrees, List.map_cons, pairUp, pairTrees_hash H rest]
    rfl

theorem pairTrees_leaves : ∀ (ts : List HTree) (T : HTree), T ∈ pairTrees ts →
    ∀ x ∈ T.leaves, ∃ t ∈ ts, x ∈ t.leaves
  | [], T, h => by simp [pairTrees] at h
  | [_], T, h => by simp [pairTrees] at h
  | a :: b :: rest, T, h => by
    intro x hx
    simp only [pairTrees, List.mem_cons] at h
    rcases h with rfl | h
    · simp only [HTree.leaves, List.mem_append] at hx
      rcases hx with hx | hx
      · exact ⟨a, by simp, hx⟩
      · exact ⟨b, by simp, hx⟩
    · obtain ⟨t, ht, hxt⟩ := pairTrees_leaves rest T h x hx
      exact ⟨t, by simp [ht], hxt⟩

theorem fixOdd_trees (H) (ts : List HTree) : ∃ ts' : List HTree,
    ts'.map (·.hash H) = fixOdd (ts.map (·.hash H)) ∧ ∀ t ∈ ts', t ∈ ts := by
  unfold fixOdd
  split
  · refine ⟨ts ++ ts.getLast?.toList, ?_, ?_⟩
    · rw [List.map_append, List.getLast?_map]
      cases ts.getLast? <;> rfl
    · intro t ht
      rcases List.mem_append.mp ht with ht | ht
      · exact ht
      · rw [Option.mem_toList] at ht; exact List.mem_of_getLast? ht
  · exact ⟨ts, rfl, fun _ h => h⟩

theorem tree_root (H) : ∀ (d : Nat) (ts : List HTree), 2 ≤ ts.length → bitsLen (ts.length - 1) = d →
    ∃ T : HTree, treeRoot H (treeLevels H d (ts.map (·.hash H))) = .ok (T.hash H) ∧
      ∀ x ∈ T.leaves, ∃ t ∈ ts, x ∈ t.leaves := by
  intro d
  induction d with
  | zero =>
    intro ts h1 h2
    rw [bitsLen_pos (by omega)] at h2; omega
  | succ d ih =>
    intro ts h1 h2
    have hlen := fixOdd_length (ts.map (·.hash H))
    rw [List.length_map] at hlen
    obtain ⟨hnext, hnext1⟩ := next_length H (ts.map (·.hash H)) (by simpa using h1)
    rw [List.length_map] at hnext
    obtain ⟨ts', he, hm⟩ := fixOdd_trees H ts
    have hd : bitsLen ((pairUp H (fixOdd (ts.map (·.hash H)))).length - 1) = d := by
      rw [hnext]; rw [bitsLen_pos (by omega)] at h2; omega
    by_cases h3 : ts.length = 2
    · have hd0 : d = 0 := by
        rw [bitsLen_pos (by omega), h3] at h2
        simpa [bitsLen_zero] using h2.symm
      subst hd0
      obtain ⟨a, b, rfl⟩ : ∃ a b, ts = [a, b] := by
        match ts, h3 with
        | [a, b], _ => exact ⟨a, b, rfl⟩
      refine ⟨.node a b, ?_, ?_⟩
      · rw [treeLevels_succ]
        have : fixOdd ([a, b].map (·.hash H)) = [a.hash H, b.hash H] := by
          unfold fixOdd; rw [if_neg (by simp)]; rfl
        rw [this]; rfl
      · intro x hx
        simp only [HTree.leaves, List.mem_append] at hx
        rcases hx with hx | hx
        · exact ⟨a, by simp, hx⟩
        · exact ⟨b, by simp, hx⟩
    · have hl : (pairTrees ts').length = (pairUp H (fixOdd (ts.map (·.hash H)))).length := by
        rw [← he, ← pairTrees_hash, List.length_map]
      obtain ⟨T, hT, hlv⟩ := ih (pairTrees ts') (by omega) (by rw [hl]; exact hd)
      refine ⟨T, ?_, ?_⟩
      · rw [treeLevels_succ]
        rw [pairTrees_hash, he] at hT
        have : treeLevels H d (pairUp H (fixOdd (ts.map (·.hash H)))) ≠ [] := by
          cases d with
          | zero => rw [bitsLen_pos (by omega)] at hd; omega
          | succ d => simp [treeLevels]
        unfold treeRoot at hT ⊢
        rw [List.getLast?_cons]
        rw [List.getLast?_eq_some_getLast this] at hT ⊢
        exact hT
      · intro x hx
        obtain ⟨t, ht, hxt⟩ := hlv x hx
        obtain ⟨u, hu, hxu⟩ := pairTrees_leaves ts' t ht x hxt
        exact ⟨u, hm u hu, hxu⟩

/-! ### second preimages -/

theorem verifierInputs_snoc (H) (ps : List (List Nat)) (p x : List Nat) :
    verifierInputs H (ps ++ [p]) x =
      verifierInputs H ps x ++ [sortedPair (ps.foldl (hashPair H) (H x)) p] := by
  induction ps generalizing x with
  | nil => rfl
  | cons q ps ih =>
    rw [List.cons_append, verifierInputs, ih, verifierInputs]
    rfl

theorem sortedPair_length {a b : List Nat} (ha : a.length = 32) (hb : b.length = 32) :
    (sortedPair a b).length = 64 := by
  unfold sortedPair; split <;> simp [ha, hb]

theorem sortedPair_inj {a b c d : List Nat} (ha : a.length = 32) (hb : b.length = 32)
    (hc : c.length = 32) (hd : d.length = 32) (h : sortedPair a b = sortedPair c d) :
    a = c ∨ a = d := by
  unfold sortedPair at h
  split at h <;> split at h
  · exact Or.inl (List.append_inj h (by omega)).1
  · exact Or.inr (List.append_inj h (by omega)).1
  · exact Or.inr (List.append_inj h (by omega)).2
  · exact Or.inl (List.append_inj h (by omega)).2

theorem tree_hash_length {H} (hH : ∀ x, (H x).length = 32) (T : HTree) : (T.hash H).length = 32 := by
  cases T <;> simp [HTree.hash, hashPair, hH]

theorem fold_length {H} (hH : ∀ x, (H x).length = 32) (ps : List (List Nat)) (x : List Nat) :
    (ps.foldl (hashPair H) (H x)).length = 32 := by
  rcases List.eq_nil_or_concat ps with rfl | ⟨qs, q, rfl⟩
  · exact hH _
  · simp [List.foldl_append, hashPair, hH]

/-- A verified claim is a leaf, or a collision shows up. -/
theorem second_preimage {H} (hH : ∀ x, (H x).length = 32) (x : List Nat) (hx : x.length ≠ 64) :
    ∀ (ps : List (List Nat)) (T : HTree), (∀ p ∈ ps, p.length = 32) →
      (∀ b ∈ T.leaves, b.length ≠ 64) → ps.foldl (hashPair H) (H x) = T.hash H →
      x ∈ T.leaves ∨ ∃ u ∈ verifierInputs H ps x, ∃ v ∈ T.inputs H, u ≠ v ∧ H u = H v := by
  intro ps
  induction ps using List.reverseRecOn with
  | nil =>
    intro T _ hT h
    simp only [List.foldl_nil] at h
    cases T with
    | leaf b =>
      by_cases e : x = b
      · left; simp [HTree.leaves, e]
      · right
        exact ⟨x, by simp [verifierInputs], b, by simp [HTree.inputs], e, h⟩
    | node l r =>
      right
      refine ⟨x, by simp [verifierInputs], sortedPair (l.hash H) (r.hash H), by simp [HTree.inputs],
        ?_, h⟩
      intro e
      exact hx (by rw [e]; exact sortedPair_length (tree_hash_length hH l) (tree_hash_length hH r))
  | append_singleton qs q ih =>
    intro T hq hT h
    rw [List.foldl_append] at h
    simp only [List.foldl_cons, List.foldl_nil] at h
    have hy := fold_length hH qs x
    have hql : q.length = 32 := hq q (by simp)
    have hin : sortedPair (qs.foldl (hashPair H) (H x)) q ∈ verifierInputs H (qs ++ [q]) x := by
      rw [verifierInputs_snoc]; simp
    cases T with
    | leaf b =>
      right
      refine ⟨_, hin, b, by simp [HTree.inputs], ?_, h⟩
      intro e
      exact hT b (by simp [HTree.leaves]) (by rw [← e]; exact sortedPair_length hy hql)
    | node l r =>
      by_cases e : sortedPair (qs.foldl (hashPair H) (H x)) q = sortedPair (l.hash H) (r.hash H)
      · have hsub : ∀ t : HTree, t = l ∨ t = r → qs.foldl (hashPair H) (H x) = t.hash H →
            x ∈ (HTree.node l r).leaves ∨
              ∃ u ∈ verifierInputs H (qs ++ [q]) x, ∃ v ∈ (HTree.node l r).inputs H,
                u ≠ v ∧ H u = H v := by
          intro t ht he
          have hl : ∀ b ∈ t.leaves, b ∈ (HTree.node l r).leaves := by
            intro b hb; rcases ht with rfl | rfl <;> simp [HTree.leaves, hb]
          have hi : ∀ b ∈ t.inputs H, b ∈ (HTree.node l r).inputs H := by
            intro b hb; rcases ht with rfl | rfl <;> simp [HTree.inputs, hb]
          rcases ih t (fun p hp => hq p (by simp [hp])) (fun b hb => hT b (hl b hb)) he with h1 | h1
          · exact Or.inl (hl x h1)
          · obtain ⟨u, hu, v, hv, h2⟩ := h1
            exact Or.inr ⟨u, by rw [verifierInputs_snoc]; simp [hu], v, hi v hv, h2⟩
        rcases sortedPair_inj hy hql (tree_hash_length hH l) (tree_hash_length hH r) e with e1 | e1
        · exact hsub l (Or.inl rfl) e1
        · exact hsub r (Or.inr rfl) e1
      · right
        exact ⟨_, hin, _, by simp [HTree.inputs], e, h⟩

end Verif
