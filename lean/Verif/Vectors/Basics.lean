import Verif.Genesis.Model
import Verif.BinProt.Serde
import Verif.Base.Amount
import Verif.Hash.Command
import Verif.Json.StrConv
import Verif.Secrets.Model
import Verif.Consensus.Model

/-!
# The project's own test vectors

The values below are those of the unit tests of `/repo`, and the model gives the same answers.  These are tests of
the model (its agreement with the code on known cases), not claims: the claims are proved elsewhere for all inputs.
-/

namespace MinaRs.Vectors

open BinProt (toBytes decode camlHashVariant utf8)

/-! ## bin_prot (`protocol/bin-prot/tests/non_integers_repr.rs`; the tests list bytes last to first) -/

example : toBytes .unit () = [0x00] ∧ toBytes .bool true = [0x01] ∧ toBytes .bool false = [0x00] := by decide +kernel

example : toBytes .char 'A' = [0x41] ∧ toBytes .char 'z' = [0x7a] ∧ toBytes .char (Char.ofNat 255) = [0xff] := by
  decide +kernel

example : toBytes .string "" = [0] ∧ toBytes .string "a" = [1, 97] ∧ toBytes .string "aBc" = [3, 97, 66, 99] := by
  decide +kernel

-- 1f64, -1f64, 1E-07 as their bit patterns
example : toBytes .f64 (0x3ff0000000000000 : UInt64) = [0, 0, 0, 0, 0, 0, 0xf0, 0x3f] ∧
    toBytes .f64 (0xbff0000000000000 : UInt64) = [0, 0, 0, 0, 0, 0, 0xf0, 0xbf] ∧
    toBytes .f64 (0x3e7ad7f29abcaf48 : UInt64) = [0x48, 0xaf, 0xbc, 0x9a, 0xf2, 0xd7, 0x7a, 0x3e] := by decide +kernel

example : toBytes (.seq .f32) [(0x3f800000 : UInt32)] = [0x01, 0, 0, 0x80, 0x3f] := by decide +kernel

/-- An `i64` (`protocol/bin-prot/tests/non_integers_repr.rs:119-129`). -/
def i (n : Int) (h : BinProt.i64.holds n := by decide) : (BinProt.Ty.int .i64).denote := ⟨n, h⟩

/-- An `i32` (`protocol/bin-prot/tests/arrays.rs:24-33`). -/
def i32 (n : Int) (h : BinProt.i32.holds n := by decide) : (BinProt.Ty.int .i32).denote := ⟨n, h⟩

example : toBytes (.option (.int .i64)) none = [0x00] ∧ toBytes (.option (.int .i64)) (some (i 0)) = [0x01, 0x00] ∧
    toBytes (.option (.int .i64)) (some (i (-1))) = [0x01, 0xff, 0xff] ∧
    toBytes (.option (.int .i64)) (some (i 2147483647)) = [0x01, 0xfd, 0xff, 0xff, 0xff, 0x7f] ∧
    toBytes (.option (.int .i64)) (some (i (-2147483648))) = [0x01, 0xfd, 0x00, 0x00, 0x00, 0x80] := by decide +kernel

-- `protocol/bin-prot/tests/arrays.rs:15-22`
example : toBytes (.seq (.int .i32)) ([] : List _) = [0x00] ∧ toBytes (.seq (.int .i32)) [i32 0, i32 1] = [2, 0, 1] ∧
    toBytes (.seq (.int .i32)) [i32 1, i32 (-1)] = [2, 1, 0xff, 0xff] ∧
    toBytes (.seq (.int .i32)) [i32 2147483647, i32 (-2147483648)] =
      [2, 0xfd, 0xff, 0xff, 0xff, 0x7f, 0xfd, 0, 0, 0, 0x80] := by decide +kernel

-- `protocol/bin-prot/tests/non_integers_repr.rs:208-218` (record2): 9223372036854775807 and 2147483647, then `None`
example : toBytes (.struct (.cons "y" (.struct (.cons "w" (.int .i64) (.cons "x" (.int .i64) .nil)))
      (.cons "z" (.option (.int .i64)) .nil))) ((i 9223372036854775807, i 2147483647, ()), none, ()) =
    [0xfc, 0xff, 0xff, 0xff, 0xff, 0xff, 0xff, 0xff, 0x7f, 0xfd, 0xff, 0xff, 0xff, 0x7f, 0x00] := by decide +kernel

/-! ## Polymorphic variants (`protocol/bin-prot/tests/polyvar.rs`, `src/polyvar/caml_hash_variant.rs:45-53`) -/

example : camlHashVariant (utf8 "One") = 3953222 ∧ camlHashVariant (utf8 "Two") = 4203884 ∧
    camlHashVariant (utf8 "None") = 870530776 ∧ camlHashVariant (utf8 "Some") = 925978388 := by decide +kernel

/-- `TestPolyvar` (`protocol/bin-prot/tests/polyvar.rs:15-37`) -/
def testPolyvar : BinProt.Ty :=
  .polyvar (.cons "None" (.tuple .nil) (.cons "One" .bool (.cons "Two" (.polyvar (.cons "Some" (.tuple .nil) .nil)) .nil)))

example : toBytes testPolyvar (Sum.inl ()) = leBytes 4 1741061553 ∧
    toBytes testPolyvar (Sum.inr (Sum.inl true)) = leBytes 4 7906445 ++ [0x01] ∧
    toBytes testPolyvar (Sum.inr (Sum.inr (Sum.inl (Sum.inl ())))) = leBytes 4 8407769 ++ leBytes 4 1851956777 := by
  decide +kernel

example : (match (decode testPolyvar).run (leBytes 4 1741061553) with
      | .ok (v, rest) => some (toBytes testPolyvar v, rest) | .error _ => none) = some (leBytes 4 1741061553, []) ∧
    (match (decode testPolyvar).run (leBytes 4 7906445 ++ leBytes 4 1) with
      | .ok (v, rest) => some (toBytes testPolyvar v, rest) | .error _ => none) =
        some (leBytes 4 7906445 ++ [1], [0, 0, 0]) ∧
    (match (decode testPolyvar).run (leBytes 4 1234567) with | .ok _ => false | .error _ => true) = true := by
  decide +kernel

/-! ## Amounts (`base/tests/numbers.rs:16-44`) -/

example : Base.Amount.display 0 = "0.000000000".toList ∧ Base.Amount.display 3 = "0.000000003".toList ∧
    Base.Amount.display 1000000003 = "1.000000003".toList ∧ Base.Amount.display 1000000030 = "1.000000030".toList ∧
    Base.Amount.display 1300000000 = "1.300000000".toList ∧ Base.Amount.display 1000000000 = "1.000000000".toList := by
  decide +kernel

/-- The amount of a text, where there is one (`base/tests/numbers.rs:27-44`). -/
def amount (s : String) : Option Nat := match Base.Amount.fromStr true s.toList with | .ok n => some n | .error _ => none

example : amount "0.000000000" = some 0 ∧ amount "0.000000003" = some 3 ∧ amount "1.000000003" = some 1000000003 ∧
    amount "1.000000030" = some 1000000030 ∧ amount "1.00000003" = some 1000000030 ∧
    amount "1.300000000" = some 1300000000 ∧ amount "1.000000000" = some 1000000000 ∧
    amount "0.000000000.0" = none ∧ amount "000000000" = some 0 := by decide +kernel

/-! ## Texts with checksums -/

open Json.StrConv (fromStr toStr Named)

/-- A text is read and written as itself (`crypto/src/hash/types.rs:468-547`). -/
def same (t : Named) (s : String) : Bool :=
  match fromStr (Genesis.env true) t s with
  | .error _ => false
  | .ok v => match toStr (Genesis.env true) t v with | .ok s' => s == s' | .error _ => false

set_option maxRecDepth 20000 in
example : same .ledgerHash "jxV4SS44wHUVrGEucCsfxLisZyUC5QddsiokGH3kz5xm2hJWZ25" = true ∧
    same .coinbaseHash "2n1tLdP2gkifmyVmrmzYXTS4ohPbZPJn6Qq4x55ywrbRWB4543cC" = true ∧
    same .epochSeed "2va9BGv9JrLTtrzZttiEMDYw1Zj6a6EHzXjmP9evHDTG3oEquURA" = true ∧
    same .ledgerHash "jx7buQVWFLsXTtzRgSxbYcT8EYLS8KCZbLrfDcJxMtyy4thw2Ee" = true ∧
    same .stateHash "3NKaBJsN1SehD6iJwRwJSFmVzJg5DXSUQVgnMxtH4eer4aF5BrDK" = true ∧
    same .stateHash "jx7buQVWFLsXTtzRgSxbYcT8EYLS8KCZbLrfDcJxMtyy4thw2Ee" = false ∧
    same .stateHash "3NKaBJsN1SehD6iJwRwJSFmVzJg5DXSUQVgnMxtH4eer4aF5BrDL" = false := by
  decide +kernel

-- `protocol/serialization-types/tests/public_key.rs:8-27`
set_option maxRecDepth 20000 in
example : same .curvePoint "B62qjCuPisQjLW7YkB22BR9KieSmUZTyApftqxsAuB3U21r3vj1YnaG" = true ∧
    same .curvePoint "B62qr1Nx2tDVE2dtq87HCbCRcCEN87gdRLLK5nU2JgammUqbHgB8B2f" = true ∧
    same .curvePoint "B62qr1Nx2tDVE2dtq87HCbCRcCEN87gdRLLK5nU2JgammUqbHgB8B2g" = false := by
  decide +kernel

-- `base/src/user_commands/memo.rs:62-73`
set_option maxRecDepth 20000 in
example : same .memo "E4Yd7qwaRCHR6t7i6ToM98eSUy5eKKadQUPZX7Vpw4CWBvWyd8fzK" = true ∧
    (match fromStr (Genesis.env true) .memo "E4Yd7qwaRCHR6t7i6ToM98eSUy5eKKadQUPZX7Vpw4CWBvWyd8fzK",
        Hash.tryFromText (utf8 "FPayment") with
      | .ok m, .ok m' => decide ((show Bytes from m) = m') | _, _ => false) = true ∧
    (match Hash.tryFromText (utf8 "FPayment") with
      | .ok m => (match Hash.toText (fun _ => "") m with | .ok s => s == "FPayment" | .error _ => false)
      | .error _ => false) = true := by
  decide +kernel

-- `secrets/src/secret_box/utils.rs:29-45`
set_option maxRecDepth 20000 in
example : (match Secrets.base58Decode (Genesis.env true)
        "C6akiMy3NarEYxkQ2ta4AweAz67Cq1Qn81VxdX5SQKUXebAEcrY97DRb5AdWxQdG9msbXWUqr".toList with
      | .ok bs => some (String.ofList (Codec.hexEncode bs)) | .error _ => none) =
    some "5f742829b76350de2f965cb432967076e3fe8ee8d103cc8e4fd947e8ad09e9123a88c19e482810b034fc47f5a038864351" := by
  decide +kernel

/-! ## Chain selection -/

open Consensus (ConsensusState GlobalSlot)

/-- A block is its consensus state and its hash (`consensus/tests/density.rs:16-66`); the digest is the identity. -/
def hdr : Consensus.Header (ConsensusState × Nat) := ⟨fun b => b.1, fun b => b.2, id⟩

/-- `ConsensusState::default()` with the fields of the tests (`consensus/tests/density.rs:17-38`). -/
def state (len epoch density : Nat) (subs : List Nat) (slot perEpoch : Nat) : ConsensusState :=
  ⟨len, epoch, density, subs, [], ⟨slot, perEpoch⟩, ⟨[]⟩, ⟨[]⟩⟩

/-- `chain_a` (`consensus/tests/density.rs:17-43`) -/
def chainA : List (ConsensusState × Nat) := [(state 0 0 77 [1, 7, 7, 7, 7, 7, 7, 7, 7, 7, 7] 0 7140, 0)]

/-- `chain_c` (`consensus/tests/density.rs:46-69`) -/
def chainC : List (ConsensusState × Nat) := [(state 0 0 48 [2, 7, 4, 5, 5, 4, 1, 5, 6, 3, 6] 2121 7140, 0)]

-- `consensus/tests/density.rs:71-77`
example : Consensus.relativeMinWindowDensity hdr chainA chainC = .ok 0 ∧
    Consensus.relativeMinWindowDensity hdr chainC chainA = .ok 47 := by decide +kernel

-- `consensus/tests/density.rs:82-138`
example : Consensus.relativeMinWindowDensity hdr chainA
    [(state 0 0 75 [6, 6, 2, 3, 5, 3, 5, 5, 5, 6, 7] 1402 7140, 0)] = .ok 77 := by decide +kernel

-- `consensus/tests/common.rs:13-48`
example : (Consensus.push hdr [] (state 1 0 0 [] 0 0, 0)).1.length = 1 ∧
    (Consensus.push hdr [(state 3 0 0 [] 0 0, 0)] (state 1 0 0 [] 0 0, 0)).2 = .error .invalidHeight := by decide +kernel

-- `consensus/tests/common.rs:76-115`
example : Consensus.epochSlot hdr [(state 0 0 0 [] 0 1000, 0)] = .ok (some 0) ∧
    Consensus.epochSlot hdr [(state 2 0 0 [] 1002 1000, 0)] = .ok (some 2) := by decide +kernel

-- `consensus/tests/common.rs:249-284`: a short-range fork, the current chain is longer
example : Consensus.selectSecureChain hdr [(state 11 5 0 [] 0 0, 0)] [[(state 10 5 0 [] 0 0, 0)]] =
    ([(state 11 5 0 [] 0 0, 0)], .ok ()) := by decide +kernel

end MinaRs.Vectors
