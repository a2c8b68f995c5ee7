import Verif.Model.Uuid
/-
Formatting: the `Display`, `LowerHex`, `UpperHex` and `Debug` implementations of the crates, on a model of `core::fmt`.
-/
namespace Simd.Fmt

/-- `core::fmt::Alignment`. -/
inductive Align where
  | left | right | center
deriving DecidableEq, Repr

/-- The options of a `core::fmt::Formatter` that `str` looks at: `{:*^40.8}` has fill `*`, centred, width 40, precision 8. -/
structure Options where
  fill : Char := ' '
  align : Option Align := none
  width : Option Nat := none
  precision : Option Nat := none

/-- Where a formatter writes: what has been written, and how many further characters fit (`none`: any number, as in a `String`).
Simplification: a sink takes a string completely or fails. -/
structure Sink where
  out : List Char
  room : Option Nat

/-- `Write::write_str`; `false` is `fmt::Error`. -/
def Sink.write_str (k : Sink) (s : List Char) : Sink × Bool :=
  match k.room with
  | none => (⟨k.out ++ s, none⟩, true)
  | some n => if s.length ≤ n then (⟨k.out ++ s, some (n - s.length)⟩, true) else (k, false)

/-- The operator `?` between two writes. -/
def andThen (r : Sink × Bool) (f : Sink → Sink × Bool) : Sink × Bool := if r.2 then f r.1 else r

/-- A character written `n` times. -/
def fill (c : Char) : Nat → Sink → Sink × Bool
  | 0, k => (k, true)
  | n + 1, k => andThen (k.write_str [c]) (fill c n)

/-- The precision of a string is the maximal number of characters (part of `Formatter::pad`). -/
def truncate (o : Options) (s : List Char) : List Char :=
  match o.precision with
  | some max => s.take max
  | none => s

/-- How many of the fill characters go before and after the text (`Formatter::padding`, called with the default alignment `Left`). -/
def sides (o : Options) (padding : Nat) : Nat × Nat :=
  match o.align with
  | none => (0, padding)
  | some .left => (0, padding)
  | some .right => (padding, 0)
  | some .center => (padding / 2, (padding + 1) / 2)

/-- `Formatter::pad` of the standard library, which is `<str as Display>::fmt`. -/
def pad (o : Options) (s : List Char) (k : Sink) : Sink × Bool :=
  match o.width with
  | none => k.write_str (truncate o s)
  | some width =>
    if width ≤ (truncate o s).length then k.write_str (truncate o s)
    else
      let n := sides o (width - (truncate o s).length)
      andThen (fill o.fill n.1 k) fun k => andThen (k.write_str (truncate o s)) (fill o.fill n.2)

/-- `<str as Debug>::fmt` of the standard library on a string without characters that have to be escaped; it ignores width and precision. -/
def str_debug (s : List Char) (k : Sink) : Sink × Bool :=
  andThen (k.write_str ['"']) fun k => andThen (k.write_str s) fun k => k.write_str ['"']

/-- ASCII bytes as characters: `core::str::from_utf8_unchecked`. -/
def chars (bs : List Byte) : List Char := bs.map fun b => Char.ofNat b.toNat

/-- `LowerHex::fmt` and `UpperHex::fmt` of `Simple` (uuid-simd ext.rs:112-118, 132-138). -/
def simple_hex (i : Option Isa) (src : Ptr) (case : AsciiCase) (o : Options) (f : Sink) : Prog (Sink × Bool) := do
  let s ← Uuid.fmt_simple i src case
  pure (pad o (chars s) f)
/-- `LowerHex::fmt` and `UpperHex::fmt` of `Hyphenated` (uuid-simd ext.rs:120-130, 140-150). -/
def hyphenated_hex (i : Option Isa) (src : Ptr) (case : AsciiCase) (o : Options) (f : Sink) : Prog (Sink × Bool) := do
  let s ← Uuid.fmt_hyphenated i src case
  pure (pad o (chars s) f)
/-- `Display::fmt` of `Simple` (uuid-simd ext.rs:152-157). -/
def simple_display (i : Option Isa) (src : Ptr) (o : Options) (f : Sink) : Prog (Sink × Bool) := simple_hex i src .lower o f
/-- `Display::fmt` of `Hyphenated` (uuid-simd ext.rs:159-164). -/
def hyphenated_display (i : Option Isa) (src : Ptr) (o : Options) (f : Sink) : Prog (Sink × Bool) := hyphenated_hex i src .lower o f

/-- `x.to_string()` of the standard library: no options, a sink without limit. -/
def to_string (x : Options → Sink → Prog (Sink × Bool)) : Prog (List Char) := do
  let (k, ok) ← x {} ⟨[], none⟩
  assert ok
  pure k.out

/-- The crates that have an `Error`. -/
inductive Crate where
  | base64 | base32 | hex | uuid
deriving DecidableEq, Repr

/-- `Display::fmt` of `Error` (error.rs:20-25 of the four crates). -/
def error_display (c : Crate) (o : Options) (f : Sink) : Sink × Bool :=
  match c with
  | .base64 => pad o "Base64Error".toList f
  | .base32 => pad o "Base32Error".toList f
  | .hex => pad o "HexError".toList f
  | .uuid => pad o "UUIDError".toList f

/-- `Debug::fmt` of `Error` (error.rs:13-18 of the four crates). -/
def error_debug (c : Crate) (f : Sink) : Sink × Bool :=
  match c with
  | .base64 => str_debug "Base64Error".toList f
  | .base32 => str_debug "Base32Error".toList f
  | .hex => str_debug "HexError".toList f
  | .uuid => str_debug "UUIDError".toList f

end Simd.Fmt
