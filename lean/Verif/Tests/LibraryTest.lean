import Verif.Model.GoLib
/-
Tests of the library functions: SHA-256 with the examples of FIPS 180-4 and JSON text as
encoding/json writes it. They are not proofs of properties and no claim rests on them.
-/
namespace Verif.Tests

/-- the examples of FIPS 180-4: the empty message, one block and two blocks -/
example : hexEncode (Sha256.sum []) =
      b!"e3b0c44298fc1c149afbf4c8996fb92427ae41e4649b934ca495991b7852b855"
    ∧ hexEncode (Sha256.sum b!"abc") =
      b!"ba7816bf8f01cfea414140de5dae2223b00361a396177a9cb410ff61f20015ad"
    ∧ hexEncode (Sha256.sum b!"abcdbcdecdefdefgefghfghighijhijkijkljklmklmnlmnomnopnopq") =
      b!"248d6a61d20638b8e5c026930c3e6039a33ce45964ff2167f6ecedd419db06c1" := by decide +kernel

/-- a document with every kind of value -/
def doc : J :=
  .obj [(b!"a", .num (-12)), (b!"b", .arr [.num 0, .str b!"<x> & \"y\"\n", .null]), (b!"c", .arr []),
    (b!"d", .obj [(b!"e", .obj []), (b!"", .str [])])]

/-- `json.MarshalIndent(doc, "", " ")` -/
example : JsonText.write 0 doc =
    b!"{\n \"a\": -12,\n \"b\": [\n  0,\n  \"\\u003cx\\u003e \\u0026 \\\"y\\\"\\n\",\n  null\n ],\n \"c\": [],\n \"d\": {\n  \"e\": {},\n  \"\": \"\"\n }\n}" := by
  decide +kernel

/-- `json.Unmarshal` of the same document written without spaces and with other escapes -/
example : (JsonText.read
    b!" {\"a\":-12,\"b\":[0,\"\\u003Cx> \\u0026 \\u0022y\\\"\\n\" , null],\"c\":[ ],\"d\":{\"e\":{},\"\":\"\"}}\n").map (JsonText.write 0)
      = some (JsonText.write 0 doc) := by
  decide +kernel

/-- texts that are no documents: cut short, a comma too many, a leading zero, a bare minus sign, two
values, a raw line break in a string, an unknown escape -/
example : ([b!"{\"a\":1", b!"[1,]", b!"01", b!"-", b!"1 2", b!"\"a\nb\"", b!"\"\\x\"", b!"nul", b!"",
    b!"{\"a\" 1}", b!"[1}", b!"{1:2}"].all fun t => (JsonText.read t).isNone) = true := by
  decide +kernel

end Verif.Tests
