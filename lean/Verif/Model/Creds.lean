import Verif.Model.Types
/-
Withdrawal credentials (utils/utils.go:121-189, oracle/oracle.go:1850-1871).
-/
namespace Verif

/-- Go `strings.HasPrefix`. /repo: utils/utils.go:129, 143, 156, 171, 184 -/
def hasPrefix (p s : Str) : Bool := p.isPrefixOf s

/-- "01" followed by 22 zeros. /repo: utils/utils.go:143, 171, 184 -/
def eth1Prefix : Str := b!"010000000000000000000000"
/-- "02" followed by 22 zeros. /repo: utils/utils.go:156, 171, 184 -/
def electraPrefix : Str := b!"020000000000000000000000"

/-- utils/utils.go:123-133 `IsBlsType` (on the hex string). -/
def isBlsType (wc : Str) : Bool := wc.length == 64 && hasPrefix b!"00" wc

/-- utils/utils.go:137-147 `IsEth1Type`. -/
def isEth1Type (wc : Str) : Bool := wc.length == 64 && hasPrefix eth1Prefix wc

/-- utils/utils.go:150-160 `IsElectraType`. -/
def isElectraType (wc : Str) : Bool := wc.length == 64 && hasPrefix electraPrefix wc

/-- utils/utils.go:166-176 `GetCompatibleAddress`; `none` is a returned error. -/
def compatAddress (wc : Str) : Option Str :=
  if wc.length ≠ 64 then none
  else if hasPrefix eth1Prefix wc || hasPrefix electraPrefix wc then some (b!"0x" ++ wc.drop 24)
  else none

/-- utils/utils.go:178-189 `GetCompatibleAddressByte`. -/
def compatAddressByte (creds : List Nat) : Option Str := compatAddress (hexEncode creds)

/-- oracle/oracle.go:1850-1871 `GetWithdrawalAndType`. Malformed prefixes give the empty address
and the zero type, which is `bls`. -/
def withdrawalAndType (v : BVal) : M (Str × WType) :=
  let wc := hexEncode v.creds
  if wc.length ≠ 64 then .error .fatal
  else if isBlsType wc then .ok (b!"0x" ++ wc.drop 2, .bls)
  else if isEth1Type wc then .ok (b!"0x" ++ wc.drop 24, .eth1)
  else if isElectraType wc then .ok (b!"0x" ++ wc.drop 24, .electra)
  else .ok ([], .bls)

/-- `hexutil.Encode` (go-ethereum): "0x" and lower-case hex. /repo: oracle/oracle.go:614, 725, 1000 -/
def hexutilEncode (bs : List Nat) : Str := b!"0x" ++ hexEncode bs

end Verif
