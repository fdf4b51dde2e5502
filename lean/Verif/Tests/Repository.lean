import Verif.Model.Standard
import Verif.Model.Wild
import Verif.Model.Passwords

/-!
# The repository's own tests

The unit tests of `pfp/src/*.rs`, on the model with the published algorithms.  They say nothing for all inputs; they are
here because their expected values come from the program itself, so that they show the model to be faithful.

Evaluating scrypt in the kernel would take too long, so that its outputs are looked up in a table here.  (The outputs have
been computed with another implementation of scrypt.)  For the same reason only some of the tests are here.
-/

namespace Pfp.Tests

open Lean in
/-- `x!"0a1b"` is the list of the bytes given in hexadecimal digits. -/
macro "x!" s:str : term => do
  let rec go : List Char → List (TSyntax `term)
    | a :: b :: rest => ⟨Syntax.mkNumLit ("0x".push a |>.push b)⟩ :: go rest
    | _ => []
  `(([$((go s.getString.toList).toArray),*] : List UInt8))

/-- Outputs of scrypt with N = 2^15, r = 8, p = 1. -/
def scryptTable : List ((Bytes × Bytes × Nat) × Bytes) := [
  ((x!"666f6f626172", x!"636261", 32), x!"9b4f2d1737b6c257f75049518c844987b5de401b3a87048b262d9b40aef8b0e2"),
  ((x!"666f6f626172", x!"6162636465666768696a6b6c6d6e6f70", 32), x!"2e0b2fdbc5344b4dcbed97d96840f47deae2dcf0d78cc3227a4217f5f79285ef"),
  ((x!"666f6f626172", x!"c394c2a725c29dc2860140c292c3a5c38903c397c3bfc390214a", 32), x!"12c0934bebe42ce01845c20d589c4877cb04b69c2ac94dd7889c50c5b70863df"),
  ((x!"6173646679786376", x!"636261", 32), x!"0890cfe027b6a51b11a25898236209f7c092ab1dfcf9c8607cc628d396a05151"),
  ((x!"666f6f626172", x!"6578616d706c652e636f6d00626c7562626572", 16), x!"78286c1f5a0b8c8b43af6afaa2a6601e"),
  ((x!"666f6f626172", x!"6578616d706c652e696e666f00746573740079657420616e6f74686572", 8), x!"a965e905ce2c814a")]

/-- The published algorithms, with scrypt looked up. -/
def prims : Prims := { Standard.prims with
  scryptWith := fun _ _ _ password salt size => (scryptTable.lookup (password, salt, size)).getD [] }

/-- The random generator of the tests (`crypto.rs:102-105`) begins anew with each use: at `a`.  `cuts` are the numbers of
bytes drawn at a time, followed by nonces. -/
def stepRng : List Nat → Nat → UInt8
  | [], n => UInt8.ofNat (97 + n % 12)
  | k :: cuts, n => if n < k then UInt8.ofNat (97 + n) else stepRng cuts (n - k)

/-- The environment of the tests. -/
def env (cuts : List Nat := []) : Env where
  prims := prims
  rand := stepRng cuts
  fs _ := .ok
  order _ d := d
  wild := wildMatch
  overflowChecks := false

/-- `MemoryIO::new` (`memory.rs`). -/
def world (data : Data) : World := { data, epoch := 0, disk := none, rpos := 0, fpos := 0 }

/-- `storage.rs:351-384` (`default_data`). -/
def storageData : Data := [
  (c!"salt",
    c!"Y2Jh"),
  (c!"hmac-secret",
    c!"YWJjZGVmZ2hpamts_IjTSu0kFnBz6wSrzs73IKmBRi8zn9w=="),
  (c!"site:fRTOldDD+lTwIBS8G+eUkrIzvNsfdGRSWQXrXqszDHM=",
    c!"YWJjZGVmZ2hpamts_e0/2mFdCrXFftagc/uRqX1zVWlVX2CndVHow98vMbf1CEoCMinc="),
  (c!"site:fRTOldDD+lTwIBS8G+eUkrIzvNsfdGRSWQXrXqszDHM=:/uudghlPp4TDZPtfZFPj6nJs/zMDAE2AqVfz6Hu8N9I=",
    c!"YWJjZGVmZ2hpamts_e0/xiFNCrXFft7UT9uZnThfSBxpZh7InA7TxwRchhB8xNUCP8AQBt60o0dplkj0d85WabgV46VFsKYTYFREBpwu0V2UXOYtfLQs57L0+RhGX8DLb6mfNMvwdeQ6tYPZdSNhdrqVOBlYbdeOA1HTq+OcNoPb4MDZ+TJeVX2kK+88Hj0mn4QSrloOrHS7WRBuHsAJM4DOPrxOLF00="),
  (c!"site:fRTOldDD+lTwIBS8G+eUkrIzvNsfdGRSWQXrXqszDHM=:h2pnx6RFyNbAUBLcuQYz9w79/vnf4fgJlY/c+EP44d8=",
    c!"YWJjZGVmZ2hpamts_e0/xiFNCrXFfo6QS4fFiGF6URlEBwON0VbSrmlg0kBtyJkOH/EtMtO5plpY+3TpTqNWaZwI4pxZsbt6TFB0YoFrnGjkXL4sNYFom/rwrVluP6GKeoiODcakWZFjyZ6YSD5wW+6FWBlZcbrWPk+fjsf0XL5/BV5QzwcVsSA=="),
  (c!"site:Gd2Cx/SbNs6BWf2KlmHZrOY7SNi5GnjBLG58eJdgqdc=",
    c!"YWJjZGVmZ2hpamts_e0/2mFdCrXFftagc/uRqX1zfW14ah7y+PC4vvSZR2oUnodSsOmi/"),
  (c!"site:Gd2Cx/SbNs6BWf2KlmHZrOY7SNi5GnjBLG58eJdgqdc=:BSjLwWY3MLEPQdG1f/jwKOtJRKCxwXpRH5qkMrUnVsI=",
    c!"YWJjZGVmZ2hpamts_e0/xiFNCrXFft7UT9uZnThfSBxpZh7InA7TxwRchhB8xNUCP8A4AvOAm35ZqnjVa643adhVp/xYyKdqfER0EpxezGjEXeswJIUg75qcxVwuX5iGBoyvGKeNaMRS7NuhHWpEN+e9KEVFcY7WH0WGjqKtCq/XxMXFoGouVVydN+pRQmVS+phL9l4+jAu/UlX6+yWgvwY0cwJrMJPhEFv7deuVtWnHNzEuJ22zSEY0cYQ9Q6M7GC7W4pP5Uiww="),
  (c!"site:5IS/IdH3aaMwyzRv0fwy+2oh5OsXZ2emV8991dFWrko=",
    c!"YWJjZGVmZ2hpamts_e0/2mFdCrXFftagc/uRqX1zZR19XieMvG7iyiBd+3hskJEGasgJAueBp0cngww8j0ruPmOiqFSkDcdc0")]

/-- `passwords.rs:492-525` (`default_data`). -/
def passwordsData : Data := [
  (c!"salt",
    c!"Y2Jh"),
  (c!"hmac-secret",
    c!"YWJjZGVmZ2hpamts_Nosk0g9vPYtLPn9QzyFXLQ/1ZuAHVw=="),
  (c!"site:fRTOldDD+lTwIBS8G+eUkrIzvNsfdGRSWQXrXqszDHM=",
    c!"YWJjZGVmZ2hpamts_b/AA8REorsFjuwlGDYB+KVw/fqoHPv2Ehc7sBIYqhR+ygcsd/t4="),
  (c!"site:fRTOldDD+lTwIBS8G+eUkrIzvNsfdGRSWQXrXqszDHM=:/uudghlPp4TDZPtfZFPj6nJs/zMDAE2AqVfz6Hu8N9I=",
    c!"YWJjZGVmZ2hpamts_b/AH4RUorsFjuRRJBYJzOBc4I+UJYXWhqhFXbEC9Aw5pRRO/Q31d6d/+RQhdj8wH0SWpEXk/ZkVXSAjSqpbqKsEek2JzzOetQNutMR4tblZGzTsPxWZogaKazYGFvg+J43L9ugBf7PjDfk+Rx3QbGdWaScEdCdciXlv6z/drMjyK0b8+kKgrdjdaIT7NuJwpEiZxzMngRiqPqZI="),
  (c!"site:fRTOldDD+lTwIBS8G+eUkrIzvNsfdGRSWQXrXqszDHM=:h2pnx6RFyNbAUBLcuQYz9w79/vnf4fgJlY/c+EP44d8=",
    c!"YWJjZGVmZ2hpamts_b/AH4RUorsFjrQVIEpV2bl5+Yq5RJiTy/BENNw+oFwoqVhC3TzIQ6py/AkQGwMtJimWpGH5/KAJXD1KZq5rzLZBN3j5z2uf/DYqyIx84fhxe1WtKjSImwveR0NfauV/GpDa27wRH7PiEZRmeoJNQ8MV3Bopr61xNEWK0ew=="),
  (c!"site:Gd2Cx/SbNs6BWf2KlmHZrOY7SNi5GnjBLG58eJdgqdc=",
    c!"YWJjZGVmZ2hpamts_b/AA8REorsFjuwlGDYB+KVw1f6FKYXsPR37ZtYXddpCecTwncBIM"),
  (c!"site:Gd2Cx/SbNs6BWf2KlmHZrOY7SNi5GnjBLG58eJdgqdc=:BSjLwWY3MLEPQdG1f/jwKOtJRKCxwXpRH5qkMrUnVsI=",
    c!"YWJjZGVmZ2hpamts_b/AH4RUorsFjuRRJBYJzOBc4I+UJYXWhqhFXbEC9Aw5pRRO/Q3dc4pLwS0RSg8RAyT3pCWkucAIJSFaVrprvKt0Z3jZzj6D7TJivOwQif0xG2yhVjCpjmr3dhZuT6BGT8Tut7Upb+/+EaBmWwmFSSZnVQsIUCJA0CEf6x7ksM2fdx6In1759dztSPv4LAx+oMQrVG2lMD14TzIctWTOQysV+9JdUWXZRkyZDOtnHHTfVanjSaON/wEY2P5w="),
  (c!"site:5IS/IdH3aaMwyzRv0fwy+2oh5OsXZ2emV8991dFWrko=",
    c!"YWJjZGVmZ2hpamts_b/AA8REorsFjuwlGDYB+KVwzY6AHbySpsh0UJUDiWQp8VBKqAXsc55K/RRsY3NAIQzDdtK+4TrjLOu3X")]


/-- `storage.rs:325`. -/
def hmacSecret : Bytes := b!"abc"
/-- `storage.rs:326`, `recovery_codes.rs:284`. -/
def encryptionKey : Bytes := b!"abcdefghijklmnopqrstuvwxyz123456"

/-! ## `storage.rs` -/

/-- `storage.rs:462-477` (`read_success`). -/
example : Storage.initialized (world storageData) = true ∧ Storage.getSalt (world storageData) = .ok (b!"cba") ∧
    Storage.getHmacSecret env (world storageData) encryptionKey = .ok hmacSecret := by decide +kernel

/-- `storage.rs:484-499` (`clear_uninitialized`): the very bytes of the expected data. -/
example : ((do Storage.clear env (b!"cba") hmacSecret encryptionKey; Storage.flush env : M World Unit) (world [])).2.data =
    [(c!"hmac-secret", c!"YWJjZGVmZ2hpamts_IjTSu0kFnBz6wSrzs73IKmBRi8zn9w=="), (c!"salt", c!"Y2Jh")] := by decide +kernel

/-- `storage.rs:586-607` (`get_password`): sites. -/
example : Storage.getSite env (world storageData) (c!"example.com") hmacSecret encryptionKey =
      .ok ⟨c!"example.com", none⟩ ∧
    Storage.getSite env (world storageData) (c!"example.org") hmacSecret encryptionKey =
      .ok ⟨c!"example.org", some (c!"example.com")⟩ ∧
    Storage.getSite env (world storageData) (c!"example.net") hmacSecret encryptionKey = .err .keyMissing := by
  decide +kernel

/-- `storage.rs:626-648` (`get_password`): a stored password. -/
example : Storage.getPassword env (world storageData) (.new (c!"example.com") (c!"blabber") (c!"2")) hmacSecret
    encryptionKey = .ok (.stored ⟨⟨c!"example.com", c!"blabber", c!"2"⟩, c!"asdf", c!"hi there!"⟩) := by decide +kernel

/-- `storage.rs:785-830` (`add_passwords`), the first site: the very bytes of the expected entry. -/
example : (Storage.ensureSiteData env (c!"example.com") hmacSecret encryptionKey (world [])).2.data =
    [storageData.getD 2 ([], [])] := by decide +kernel

/-! ## `passwords.rs` -/

/-- The state after unlocking. -/
def unlocked : PState := (Passwords.unlock env (c!"foobar") (Passwords.new (world passwordsData))).2

/-- `passwords.rs:556-570` (`unlock`). -/
example : (Passwords.unlock env (c!"asdfyxcv") (Passwords.new (world passwordsData))).1 = .err .decryptionFailure ∧
    (Passwords.unlock env (c!"foobar") (Passwords.new (world passwordsData))).1 = .ok () := by decide +kernel

/-- `passwords.rs:880-888` (`get`): the password generated for an alias. -/
example : Passwords.get env unlocked (c!"example.com") (c!"blubber") [] = .ok (c!"SUDJjn&%:nBe}cr8") := by decide +kernel

/-! ## `recovery_codes.rs` -/

/-- `recovery_codes.rs:318-333` (`generation`). -/
example : RecoveryCodes.generate prims false (b!"abcdefghijkl") (c!"asdf") (b!"abcdefghijklmnop") encryptionKey =
    .ok (b!"AFSY-E25E-NXVG:Q4DK-PKXY-25KP\nP3ZZ-A2MC-NPUG:L3VH-PBWY-W48F\nPTST-72NZ-ENV2:8U57-4DJQ-XDFB\nGK6N-MXKF-GTMT:MKLU-CNZE-ES85") := by
  decide +kernel

/-- `recovery_codes.rs:335-349` (`recovery`). -/
example : RecoveryCodes.decode prims false (b!"AHLL-QKN7-S2AW:BEZF-3EB7-R923\n4ASW-WSGA-2YMR:TMB7-5WZ5-MRZJ\n2VCY-FK9C-5BUX:NH86-RDC6-QYMY\nELVM-RQ44-VB8T:VGPW-AW6K-DUQD\n")
    (c!"foobar") = .ok (c!"asdf") := by
  decide +kernel

end Pfp.Tests
