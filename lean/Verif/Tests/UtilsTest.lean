import Verif.Tests.Base
import Verif.Model.Secp
/-
Conformance tests: utils/utils_test.go, for the helpers that are in the model.
-/
namespace Verif.Tests

/-- utils/utils_test.go:87-96 `Test_SumAndSaturate` -/
example : sumAndSaturate 5 5 1 = 1 ∧ sumAndSaturate 5 5 5 = 5
    ∧ sumAndSaturate 500 700 1000000 = 1200 := by decide +kernel

/-- utils/utils_test.go:158-210 `Test_WithdrawalCredentials`: the kinds of credentials -/
example :
    [b!"00ed750cbdedaa39da69532eee649a5d3a202b310de2a6645af1dd7daca0fd22",
     b!"00b9f30bfce35138f7638d68c1473d1d45693dae775166022a493f38d942deb5",
     b!"010000000000000000000000dc62f9e8c34be08501cdef4ebde0a280f576d762",
     b!"01000000000000000000000059b0d71688da01057c08e4c1baa8faa629819c2a",
     b!"020000000000000000000000dc62f9e8c34be08501cdef4ebde0a280f576d762",
     b!"098765"].map (fun k => (isBlsType k, isEth1Type k, isElectraType k)) =
    [(true, false, false), (true, false, false), (false, true, false), (false, true, false),
     (false, false, true), (false, false, false)] := by decide +kernel

/-- the same test: the addresses -/
example : compatAddress b!"00ed750cbdedaa39da69532eee649a5d3a202b310de2a6645af1dd7daca0fd22" = none
    ∧ compatAddress b!"010000000000000000000000dc62f9e8c34be08501cdef4ebde0a280f576d762" =
      some b!"0xdc62f9e8c34be08501cdef4ebde0a280f576d762"
    ∧ compatAddress b!"01000000000000000000000059b0d71688da01057c08e4c1baa8faa629819c2a" =
      some b!"0x59b0d71688da01057c08e4c1baa8faa629819c2a"
    ∧ compatAddress (hexEncode (wc 148)) = some b!"0x9427a30991170f917d7b83def6e44d26577871ed" := by
  decide +kernel

/-- utils/utils_test.go:212-215 `Test_AreAddressEqual` -/
example : ok (equals b!"0x0000" b!"0x0000") (· = true) = true
    ∧ ok (equals b!"0x0000" b!"0x0001") (· = false) = true := by decide +kernel

/-- utils/utils_test.go:228-234 `Test_IsIn` -/
example : ok (isIn b!"0x0000" [b!"0x0000", b!"0x0001"]) (· = true) = true
    ∧ ok (isIn b!"0x0002" [b!"0x0000", b!"0x0001"]) (· = false) = true
    ∧ ok (isIn b!"0x000A" [b!"0x000a", b!"0x0001"]) (· = true) = true
    ∧ ok (isIn b!"0x000A" [b!"0x000a"]) (· = true) = true
    ∧ ok (isIn b!"a" [b!"c", b!"d"]) (· = false) = true := by decide +kernel

/-- `Transaction.Nonce()` and `Transaction.Gas()`, which only the test asks for -/
def nonceGas : EthTx → Nat × Nat
  | .legacy n _ g .. => (n, g)
  | .accessList _ n _ g .. => (n, g)
  | .dynamic _ n _ _ g .. => (n, g)
  | .blob _ n _ _ g .. => (n, g)
  | .setCode _ n _ _ g .. => (n, g)

/-- utils/utils_test.go:21-85 `Test_DecodeTx_GetSender`: raw transaction 1 -/
def rawTx1 : List Nat :=
  [248, 110, 129, 174, 133, 2, 150, 3, 101, 156, 130, 109, 96, 148, 56, 140, 129, 140, 168, 185, 37, 27, 57, 49,
   49, 192, 138, 115, 106, 103, 204, 177, 146, 151, 137, 23, 72, 83, 127, 19, 188, 52, 12, 6, 128, 38, 160, 54,
   233, 9, 131, 116, 183, 92, 228, 28, 83, 106, 15, 104, 152, 63, 158, 150, 130, 189, 164, 176, 53, 190, 148,
   106, 212, 134, 54, 80, 159, 125, 183, 160, 14, 60, 201, 32, 36, 154, 2, 147, 213, 195, 248, 4, 221, 44, 235,
   32, 1, 49, 12, 26, 221, 246, 230, 135, 248, 37, 220, 140, 58, 55, 117, 204]

/-- the same test: the sender of transaction 1 -/
example : (decodeTx rawTx1).bind (fun t => (t.sender Secp.recover 1).map (checksumHex Keccak.keccak)) =
    some b!"0xbd3Afb0bB76683eCb4225F9DBc91f998713C3b01" := by decide +kernel

/-- the same test: the other things it asserts of transaction 1 -/
example : (decodeTx rawTx1).map (fun t => (t.type, t.value, t.tipCap, t.feeCap, t.gasPrice)) =
      some (0, 429486762611856116742, 11106739612, 11106739612, 11106739612)
    ∧ (decodeTx rawTx1).map nonceGas = some (174, 28000)
    ∧ (decodeTx rawTx1).bind (fun t => t.to.map (checksumHex Keccak.keccak)) = some b!"0x388C818CA8B9251b393131C08a736A67ccB19297"
    ∧ (decodeTx rawTx1).map (fun t => hexEncode (Keccak.keccak t.preimage)) =
      some b!"8984591d8415482f1638d0893c0febf55fd713ab6fd069ac02f395a623c72a9c" := by decide +kernel

/-- utils/utils_test.go:21-85 `Test_DecodeTx_GetSender`: raw transaction 2 -/
def rawTx2 : List Nat :=
  [2, 248, 113, 1, 131, 1, 235, 156, 128, 133, 3, 138, 43, 116, 33, 130, 82, 8, 148, 203, 250, 136, 64, 68, 84,
   109, 85, 105, 226, 171, 255, 63, 180, 41, 48, 27, 97, 86, 42, 135, 209, 4, 207, 48, 167, 232, 100, 128, 192,
   1, 160, 231, 96, 155, 44, 168, 65, 53, 57, 47, 197, 200, 232, 81, 67, 183, 6, 244, 187, 193, 52, 34, 8, 209,
   217, 37, 226, 87, 27, 223, 205, 7, 199, 160, 113, 195, 124, 35, 35, 216, 255, 145, 88, 118, 134, 134, 42,
   193, 6, 95, 25, 176, 124, 172, 249, 43, 250, 196, 217, 37, 35, 53, 151, 103, 232, 120]

/-- the same test: the sender of transaction 2 -/
example : (decodeTx rawTx2).bind (fun t => (t.sender Secp.recover 1).map (checksumHex Keccak.keccak)) =
    some b!"0xDAFEA492D9c6733ae3d56b7Ed1ADB60692c98Bc5" := by decide +kernel

/-- the same test: the other things it asserts of transaction 2 -/
example : (decodeTx rawTx2).map (fun t => (t.type, t.value, t.tipCap, t.feeCap, t.gasPrice)) =
      some (2, 58833558053578852, 0, 15203005473, 15203005473)
    ∧ (decodeTx rawTx2).map nonceGas = some (125852, 21000)
    ∧ (decodeTx rawTx2).bind (fun t => t.to.map (checksumHex Keccak.keccak)) = some b!"0xcBfa884044546d5569E2abFf3fB429301b61562A"
    ∧ (decodeTx rawTx2).map (fun t => hexEncode (Keccak.keccak t.preimage)) =
      some b!"04f8069ebbcfe6169e42fb880e084541369a3b9348cde28c0e63d7ef9ea7d7ec" := by decide +kernel

/-- utils/utils_test.go:21-85 `Test_DecodeTx_GetSender`: raw transaction 3 -/
def rawTx3 : List Nat :=
  [2, 248, 179, 1, 130, 11, 30, 132, 7, 34, 115, 24, 133, 46, 144, 237, 208, 0, 131, 3, 13, 64, 148, 218, 193,
   127, 149, 141, 46, 229, 35, 162, 32, 98, 6, 153, 69, 151, 193, 61, 131, 30, 199, 128, 184, 68, 169, 5, 156,
   187, 0, 0, 0, 0, 0, 0, 0, 0, 0, 0, 0, 0, 74, 163, 102, 249, 217, 236, 76, 164, 107, 175, 87, 143, 196, 188,
   19, 122, 235, 129, 141, 50, 0, 0, 0, 0, 0, 0, 0, 0, 0, 0, 0, 0, 0, 0, 0, 0, 0, 0, 0, 0, 0, 0, 0, 0, 0, 0, 0,
   0, 2, 250, 240, 128, 192, 1, 160, 19, 247, 136, 48, 89, 40, 124, 171, 95, 144, 175, 216, 212, 90, 244, 115,
   173, 192, 198, 15, 17, 163, 230, 164, 128, 83, 184, 120, 19, 135, 16, 103, 160, 40, 217, 81, 9, 212, 49, 76,
   102, 164, 238, 99, 138, 229, 190, 144, 157, 207, 215, 199, 92, 248, 76, 160, 243, 33, 56, 188, 169, 242, 232,
   219, 240]

/-- the same test: the sender of transaction 3 -/
example : (decodeTx rawTx3).bind (fun t => (t.sender Secp.recover 1).map (checksumHex Keccak.keccak)) =
    some b!"0xaF8162eaE1253ea5Ce016B9DF1EA779993dFb826" := by decide +kernel

/-- the same test: the other things it asserts of transaction 3 -/
example : (decodeTx rawTx3).map (fun t => (t.type, t.value, t.tipCap, t.feeCap, t.gasPrice)) =
      some (2, 0, 119698200, 200000000000, 200000000000)
    ∧ (decodeTx rawTx3).map nonceGas = some (2846, 200000)
    ∧ (decodeTx rawTx3).bind (fun t => t.to.map (checksumHex Keccak.keccak)) = some b!"0xdAC17F958D2ee523a2206206994597C13D831ec7"
    ∧ (decodeTx rawTx3).map (fun t => hexEncode (Keccak.keccak t.preimage)) =
      some b!"604c575a6dfce8154411613fdc2a768c906631fb769a61baf098908a140447b5" := by decide +kernel

/-- Keccak-256 of the bytes 0, 1, 2, ... around the size of a block and over several, from an independent program that
agrees with the SHA3-256 of Python's `hashlib` but for the padding -/
example : [135, 136, 300].map (fun n => hexEncode (Keccak.keccak ((List.range n).map (· % 256)))) =
    [b!"cbdfd9dee5faad3818d6b06f95a219fd290b0e1706f6a82e5a595b9ce9faca62",
     b!"7ce759f1ab7f9ce437719970c26b0a66ff11fe3e38e17df89cf5d29c7d7f807e",
     b!"a679e749a6af300c36e7ff2255d220864eab27b382f9cfdc5aa4d13563ba36ff"] := by decide +kernel

end Verif.Tests
