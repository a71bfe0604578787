import Verif.Lemmas.GoLib
import Verif.Props.Persist
/-
C30 and C31 with the library functions that the program calls (`goLib`: the text written by
`json.MarshalIndent`, the scanner of `json.Unmarshal`, SHA-256) and Keccak-256 in the Merkle tree, in place
of assumptions about them.
-/
namespace Verif

/-- **C30** with the functions of the library: a state that was saved is loaded again with the same
content, from `state.json` and from the copy named after its slot. -/
theorem C30_library_partial {E E' : Env} (hE : ValidEnv E) (hE' : ValidEnv E') {cfg : Config} {o o0 : Oracle}
    (hw : Work Keccak.keccak E (newOracle cfg) o) (ht : StateTyped o.st) (ha : AddressesOK o.st)
    (h0 : o0.cfg = cfg) (d : Disk) (flag : Bool) :
    (∃ o', loadFromPath goLib Keccak.keccak E' (saveToJson goLib flag o d).2 o0 stateJson = .ok (o', .loaded) ∧
      o'.cfg = o.cfg ∧ SameContent o'.st o.st) ∧
    ∃ o', loadFromPath goLib Keccak.keccak E' (saveToJson goLib true o d).2 o0 (slotJson o.st.latestSlot) =
      .ok (o', .loaded) ∧ o'.cfg = o.cfg ∧ SameContent o'.st o.st :=
  C30_round_trip_partial goLib_ok hE hE' hw ht ha h0 d flag

/-- **C31** with the functions of the library: no proper beginning of a saved file is accepted, whatever
the state is that was saved. -/
theorem C31_library_torn (H : List Nat → List Nat) (E : Env) (o : Oracle) (s : State) {raw : List Nat}
    (hp : raw <+: savedBytes goLib s) (hne : raw ≠ savedBytes goLib s) :
    loadFromBytes goLib H E o raw = .ok (o, .failed) := by
  unfold loadFromBytes
  have : goLib.parse raw = none := JsonText.read_cut hp hne
  rw [this]
  rfl

/-- **C31** with the functions of the library, for any bytes whatever: if they are accepted as a file
and carry the hash of a state `s`, then the content of `s` is what is now in memory, or the text of `s`
and the text of the accepted state are different and have the same SHA-256. -/
theorem C31_library_tampering {H : List Nat → List Nat} {E : Env} {o o' : Oracle} {raw : List Nat}
    (h : loadFromBytes goLib H E o raw = .ok (o', .loaded)) {j : J} {st : State}
    (hj : JsonText.read raw = some j) (hd : decState j = some st) {s : State} (hs : StateNums s)
    (hh : lower st.stateHash = lower (stateDigest goLib s)) :
    SameContent o'.st s ∨
      JsonText.write 0 (encState { o'.st with stateHash := [] }) ≠
        JsonText.write 0 (encState { s with stateHash := [] }) ∧
      Sha256.sum (JsonText.write 0 (encState { o'.st with stateHash := [] })) =
        Sha256.sum (JsonText.write 0 (encState { s with stateHash := [] })) := by
  obtain ⟨j', st', hj', hd', hhash, hsame, _⟩ := C31_accepted_only_if h
  change JsonText.read raw = some j' at hj'
  rw [hj] at hj'
  cases hj'
  rw [hd] at hd'
  cases hd'
  have enc : encState { o'.st with stateHash := [] } = encState { st with stateHash := [] } := by
    have h1 : encState { o'.st with stateHash := [] } = encState { o'.st with stateHash := [], tick := 0 } := rfl
    have h2 : encState { st with stateHash := [] } = encState { st with stateHash := [], tick := 0 } := rfl
    rw [h1, h2, hsame]
  rw [hhash] at hh
  have key : Sha256.sum (JsonText.write 0 (encState { st with stateHash := [] })) =
      Sha256.sum (JsonText.write 0 (encState { s with stateHash := [] })) :=
    hex_lower_inj (sha256_ok _).2 (sha256_ok _).2 hh
  rw [enc]
  by_cases e : JsonText.write 0 (encState { st with stateHash := [] }) =
      JsonText.write 0 (encState { s with stateHash := [] })
  · left
    have e1 := JsonText.read_write (encState { st with stateHash := [] })
    rw [e, JsonText.read_write] at e1
    have n1 : StateNums { st with stateHash := [] } := { decState_fits hd with }
    have n2 : StateNums { s with stateHash := [] } := { hs with }
    have e2 := decState_nums n1
    rw [← Option.some.inj e1, decState_nums n2] at e2
    exact hsame.trans (Option.some.inj e2).symm
  · exact .inr ⟨e, key⟩

/-- The history of `Spec/Sample.lean`, saved and loaded: all hypotheses hold. -/
example : ∃ o' j st, loadFromBytes goLib Keccak.keccak Sample.env (newOracle Sample.cfg)
      (savedBytes goLib Sample.final.st) = .ok (o', .loaded) ∧
    JsonText.read (savedBytes goLib Sample.final.st) = some j ∧ decState j = some st ∧
    StateNums Sample.final.st ∧ lower st.stateHash = lower (stateDigest goLib Sample.final.st) ∧
    o'.st.nextSlot = Sample.final.st.nextSlot := by
  have hL := goLib_ok
  have ht : StateTyped Sample.final.st := typed_of (by decide +kernel)
  have ha : AddressesOK Sample.final.st := ⟨fun p hp => isAddress_of ((by decide +kernel :
      ∀ p ∈ Sample.final.st.vals, (p.2.waddr.take 2 == b!"0x" && p.2.waddr.length == 42 &&
        (p.2.waddr.drop 2).all fun c =>
          (48 ≤ c && c ≤ 57) || (97 ≤ c && c ≤ 102) || (65 ≤ c && c ≤ 70)) = true) p hp),
      isAddress_of (by decide +kernel), by decide +kernel⟩
  have hi := cfgInv_work (H := Sample.hash) Sample.env_valid (Work.of_hist Sample.hist (by decide +kernel))
  have hc := loadCfg_inv hi
  have key := load_saved hL (H := Keccak.keccak) Sample.env_valid (o := newOracle Sample.cfg) ht ha
    (by rw [show (newOracle Sample.cfg).cfg = Sample.cfg from rfl, hc]; exact hi.same)
  have hb := hashState_typed hL ht
  have hr := JsonText.read_write (encState (hashState goLib Sample.final.st))
  have hd := decState_enc hb
  generalize hg : hashState goLib Sample.final.st = g at hr hd
  have hsv : savedBytes goLib Sample.final.st = JsonText.write 0 (encState g) := by rw [← hg]; rfl
  refine ⟨_, encState g, { g with tick := 0 }, key, ?_, hd, ht.nums, ?_, rfl⟩
  · rw [hsv]; exact hr
  · rw [← hg]; rfl

end Verif
