import Verif.Model.Advance
import Verif.Model.Hex
import Verif.Model.GoMap
/-
oracle/merklelizer.go: leaves and Merkle tree of a checkpoint; oracle/oracle.go:708-801: freezing and
looking up checkpoints. The hash function is a parameter `H` on byte strings (Keccak-256 in the
program). The tree is library code (github.com/txaty/go-merkletree v0.1.15, not in the repository),
modelled from its documented behaviour with the options of merklelizer.go:179-184: leaves are not
hashed again, sibling pairs are sorted before hashing, an odd level is completed by repeating its last
node, the tree is kept to answer proof requests.
-/
namespace Verif

/-- oracle/merklelizer.go:60-66: the inner loop over the leaves found so far; the flag tells whether
the address was found. The loop does not stop at the first match. -/
def addToLeaves (v : Validator) : List Leaf → M (List Leaf × Bool)
  | [] => .ok ([], false)
  | l :: rest => do
    let e ← equals l.waddr v.waddr
    let (rest', found) ← addToLeaves v rest
    .ok ((if e then { l with bal := l.bal + v.acc } else l) :: rest', e || found)

/-- oracle/merklelizer.go:54-77: the loop over the validators. -/
def aggLoop : List Validator → List Leaf → M (List Leaf)
  | [], ls => .ok ls
  | v :: rest, ls => do
    let (ls', found) ← addToLeaves v ls
    aggLoop rest (if found then ls' else ls' ++ [⟨lower v.waddr, v.acc⟩])

/-- One step of the sort below. /repo: oracle/merklelizer.go:132-141 -/
def insertLeaf (l : Leaf) : List Leaf → List Leaf
  | [] => [l]
  | x :: rest => if x.waddr < l.waddr then x :: insertLeaf l rest else l :: x :: rest

/-- oracle/merklelizer.go:132-139 `OrderByWithdrawalAddress`: `sort.Slice` by Go's string order
(bytewise). The addresses are distinct, so every sorting algorithm gives this result. -/
def orderLeaves (ls : List Leaf) : List Leaf := ls.foldr insertLeaf []

/-- oracle/merklelizer.go:44-129 `AggregateValidatorsIndexes`. The two loops over the validator map
are number `t` and `t + 1`. -/
def aggregate (E : Env) (t : Nat) (s : State) : M (List Leaf) := do
  let ls ← aggLoop ((E.shuffle t s.vals).map (·.2)) []
  let fromVals : Int := ((E.shuffle (t + 1) s.vals).map fun p => p.2.acc).sum
  let fromLeaves : Int := (ls.map (·.bal)).sum
  if fromVals ≠ fromLeaves then .error .fatal
  else
    let ordered := orderLeaves ls
    if ordered.any (fun l => lower l.waddr == lower s.poolAddr) then .error .fatal
    else
      let all := ⟨lower s.poolFeesAddr, s.poolFees⟩ :: ordered
      if all.any (fun l => !isHexAddress l.waddr) then .error .fatal
      else if all.any (fun l => lower l.waddr != l.waddr) then .error .fatal
      else .ok all

/-- Value of one hexadecimal digit (encoding/hex `fromHexChar`), on digits. /repo: oracle/merklelizer.go:160 -/
def hexVal (c : Nat) : Nat := if c ≤ 57 then c - 48 else if c ≤ 70 then c - 55 else c - 87

/-- `hex.DecodeString` on text of even length made of hexadecimal digits. /repo: oracle/merklelizer.go:160 -/
def hexDecode : Str → List Nat
  | a :: b :: rest => (hexVal a * 16 + hexVal b) :: hexDecode rest
  | _ => []

/-- go-solidity-sha3 `Address` for a string that passed `IsHexAddress` and is in lower case: the 20
bytes. /repo: oracle/merklelizer.go:160 -/
def addressBytes (a : Str) : List Nat := hexDecode (if has0xPrefix a then a.drop 2 else a)

/-- `n` bytes, most significant first. /repo: oracle/merklelizer.go:161 -/
def bigEndian : Nat → Nat → List Nat
  | 0, _ => []
  | n + 1, x => bigEndian n (x / 256) ++ [x % 256]

/-- go-solidity-sha3 `Uint256`: 32 bytes of the value modulo 2^256. /repo: oracle/merklelizer.go:161 -/
def uint256Bytes (x : Int) : List Nat := bigEndian 32 (x % (2 ^ 256 : Nat)).toNat

/-- oracle/merklelizer.go:159-162: what is hashed for one leaf. -/
def leafPreimage (l : Leaf) : List Nat := addressBytes l.waddr ++ uint256Bytes l.bal

/-- go-merkletree `concatSortHash`: the smaller sibling first. /repo: oracle/merklelizer.go:181-186 -/
def concatSorted (a b : List Nat) : List Nat := if a < b then a ++ b else b ++ a

/-- go-merkletree `fixOdd`: repeat the last node of an odd level. /repo: oracle/merklelizer.go:181-186 -/
def fixOdd (l : List (List Nat)) : List (List Nat) :=
  if l.length % 2 = 1 then l ++ (l.getLast?).toList else l

/-- go-merkletree `treeBuild`: the next level. /repo: oracle/merklelizer.go:181-186 -/
def pairUp (H : List Nat → List Nat) : List (List Nat) → List (List Nat)
  | a :: b :: rest => H (concatSorted a b) :: pairUp H rest
  | _ => []

/-- go-merkletree `treeBuild`: the completed levels, from the leaves up. /repo: oracle/merklelizer.go:181-186 -/
def treeLevels (H : List Nat → List Nat) : Nat → List (List Nat) → List (List (List Nat))
  | 0, _ => []
  | d + 1, l => fixOdd l :: treeLevels H d (pairUp H (fixOdd l))

/-- `bits.Len`. /repo: oracle/merklelizer.go:181-186 -/
def bitsLen (n : Nat) : Nat := if n = 0 then 0 else Nat.log2 n + 1

/-- go-merkletree `New`, `treeBuild`: the depth of the tree. /repo: oracle/merklelizer.go:181-186 -/
def treeDepth (n : Nat) : Nat := bitsLen (n - 1)

/-- go-merkletree `treeBuild`: the root from the last level, index out of range is a panic.
/repo: oracle/merklelizer.go:181-186 -/
def treeRoot (H : List Nat → List Nat) (levels : List (List (List Nat))) : M (List Nat) :=
  match levels.getLast? with
  | some (a :: b :: _) => .ok (H (concatSorted a b))
  | _ => .error .panic

/-- go-merkletree `Proof`: the siblings from the leaf up. /repo: oracle/oracle.go:713-769 -/
def siblings : List (List (List Nat)) → Nat → M (List (List Nat))
  | [], _ => .ok []
  | l :: ls, i => do
    match l[if i % 2 = 1 then i - 1 else i + 1]? with
    | none => .error .panic
    | some x => do
      let rest ← siblings ls (i / 2)
      .ok (x :: rest)

/-- go-merkletree `leafMap`: the last position of a leaf; a leaf that is not in the tree is an error,
which is Fatal in the caller (oracle.go:743-745). -/
def leafIndex (leaves : List (List Nat)) (x : List Nat) : M Nat :=
  match (leaves.zipIdx.filter fun p => p.1 == x).getLast? with
  | none => .error .fatal
  | some p => .ok p.2

/-- What `GenerateTreeFromState` returns. /repo: oracle/merklelizer.go:143-193 -/
structure TreeData where
  toLeaf : List (Str × List Nat)
  toRaw : List (Str × Leaf)
  hashes : List (List Nat)
  levels : List (List (List Nat))
  root : List Nat
  deriving DecidableEq, Repr

/-- oracle/merklelizer.go:143-193 `GenerateTreeFromState`; `none` when there are fewer than two
leaves. -/
def generateTree (H : List Nat → List Nat) (E : Env) (t : Nat) (s : State) : M (Option TreeData) := do
  let ls ← aggregate E t s
  let hashes := ls.map fun l => H (leafPreimage l)
  let toLeaf := ls.foldl (fun m l => putStr m l.waddr (H (leafPreimage l))) []
  let toRaw := ls.foldl (fun m l => putStr m l.waddr l) []
  if hashes.length < 2 then .ok none
  else do
    let levels := treeLevels H (treeDepth hashes.length) hashes
    let root ← treeRoot H levels
    .ok (some ⟨toLeaf, toRaw, hashes, levels, root⟩)

/-- oracle/oracle.go:731-753: the loop over the addresses. The results are maps, so the iteration
order does not matter and storage order is used. `withdrawalToLeaf[x]` of a missing key would be a nil
block (panic in `Proof`). -/
def freezeLoop (T : TreeData) : List (Str × Leaf) → List (Str × List Str) → List (Str × Leaf) →
    M (List (Str × List Str) × List (Str × Leaf))
  | [], ps, ls => .ok (ps, ls)
  | (k, raw) :: rest, ps, ls => do
    let e ← equals k raw.waddr
    if !e then .error .fatal
    else
      match getStr T.toLeaf k with
      | none => .error .panic
      | some block => do
        let i ← leafIndex T.hashes block
        let sibs ← siblings T.levels i
        freezeLoop T rest (putStr ps k (sibs.map fun x => b!"0x" ++ hexEncode x)) (putStr ls k raw)

/-- oracle/oracle.go:764: assignment to the map of checkpoints. -/
def putFrozen (m : List (Nat × Frozen)) (k : Nat) (v : Frozen) : List (Nat × Frozen) := putNat m k v

/-- Look-up in the map of checkpoints. /repo: oracle/oracle.go:788-802 -/
def getFrozen (m : List (Nat × Frozen)) (k : Nat) : Option Frozen :=
  (m.find? fun p => p.1 == k).map (·.2)

/-- oracle/oracle.go:713-766 `FreezeCheckpoint`; `false` when there was not enough data. The deep copy
of the validators (utils.DeepCopy) is the value itself. -/
def freeze (H : List Nat → List Nat) (E : Env) (s : State) : M (State × Bool) := do
  match ← generateTree H E s.tick s with
  | none => .ok ({ s with tick := s.tick + 2 }, false)
  | some T => do
    let (proofs, leafs) ← freezeLoop T T.toRaw [] []
    let f : Frozen := ⟨s.latestSlot, b!"0x" ++ hexEncode T.root, s.vals, leafs, proofs⟩
    .ok ({ s with committed := putFrozen s.committed s.latestSlot f, tick := s.tick + 2 }, true)

/-- oracle/oracle.go:771-786 `LatestCommitedSlot`: (slot, at least one); a loop that keeps the
maximum, over the map in iteration order `t`. -/
def latestCommittedSlot (E : Env) (t : Nat) (s : State) : Nat × Bool :=
  if s.committed = [] then (0, false)
  else ((E.shuffle t s.committed).foldl (fun m p => if p.1 > m then p.1 else m) 0, true)

/-- oracle/oracle.go:789-801 `LatestCommitedState`: nil when nothing was committed. -/
def latestCommitted (E : Env) (t : Nat) (s : State) : Option Frozen :=
  let (slot, one) := latestCommittedSlot E t s
  if !one then none else getFrozen s.committed slot

end Verif
