import Verif.Spec.Forgiving
import Verif.Spec.Uuid
/-
The test vectors of the standards, evaluated on the specifications (not on the model). They test the specifications; they are not claims about the code.
-/
namespace Simd.Spec

/-- RFC 4648, section 10: BASE64. -/
example : (["", "f", "fo", "foo", "foob", "fooba", "foobar"].map fun s => base64 false true (ascii s)) =
    ["", "Zg==", "Zm8=", "Zm9v", "Zm9vYg==", "Zm9vYmE=", "Zm9vYmFy"].map ascii := by decide +kernel
/-- RFC 4648, section 10: BASE32. -/
example : (["", "f", "fo", "foo", "foob", "fooba", "foobar"].map fun s => base32 false true (ascii s)) =
    ["", "MY======", "MZXQ====", "MZXW6===", "MZXW6YQ=", "MZXW6YTB", "MZXW6YTBOI======"].map ascii := by decide +kernel
/-- RFC 4648, section 10: BASE32-HEX. -/
example : (["", "f", "fo", "foo", "foob", "fooba", "foobar"].map fun s => base32 true true (ascii s)) =
    ["", "CO======", "CPNG====", "CPNMU===", "CPNMUOG=", "CPNMUOJ1", "CPNMUOJ1E8======"].map ascii := by decide +kernel
/-- RFC 4648, section 10: BASE16. -/
example : (["", "f", "fo", "foo", "foob", "fooba", "foobar"].map fun s => hexEncode true (ascii s)) =
    ["", "66", "666F", "666F6F", "666F6F62", "666F6F6261", "666F6F626172"].map ascii := by decide +kernel
/-- RFC 4648, section 9: 0x14fb9c03d97e, 0x14fb9c03d9 and 0x14fb9c03. -/
example : base64 false true [0x14, 0xfb, 0x9c, 0x03, 0xd9, 0x7e] = ascii "FPucA9l+" ∧ base64 false true [0x14, 0xfb, 0x9c, 0x03, 0xd9] = ascii "FPucA9k=" ∧
    base64 false true [0x14, 0xfb, 0x9c, 0x03] = ascii "FPucAw==" ∧ base64 true false [0x14, 0xfb, 0x9c, 0x03, 0xd9, 0x7e] = ascii "FPucA9l-" := by decide +kernel

/-- forgiving-base64 decode: white space, missing padding and discarded bits are accepted. -/
example : (["", " ", "Zg==", "Zg", " Z g = = ", "Zh==", "Zm8=", "Zm8", "Zm9v\t\n"].map fun s => forgivingDecode (ascii s)) =
    ["", "", "f", "f", "f", "f", "fo", "fo", "foo"].map fun s => some (ascii s) := by decide +kernel
/-- forgiving-base64 decode: incomplete padding, padding in the middle, single characters, url-safe characters and vertical tabs are not. -/
example : (["=", "Zg=", "Z", "Zm9vZ", "Z===", "====", "Zg==Zg==", "Zm8==", "-_==", "Zg\x0b=="].map fun s => forgivingDecode (ascii s)) =
    List.replicate 10 none := by decide +kernel

/-- RFC 4122, section 3. -/
example : uuidHyphenated false [0xf8, 0x1d, 0x4f, 0xae, 0x7d, 0xec, 0x11, 0xd0, 0xa7, 0x65, 0x00, 0xa0, 0xc9, 0x1e, 0x6b, 0xf6] =
    ascii "f81d4fae-7dec-11d0-a765-00a0c91e6bf6" := by decide +kernel

end Simd.Spec
