import Verif.Header.Line
/-!
# `gen/src/include.rs`: the include section

Text is a list of code points.
-/
namespace Verif.Preamble

abbrev Text := List Nat

/-- gen/src/include.rs:24-44: the headers with a flag. -/
inductive Std
  | algorithm | array | cassert | cstddef | cstdint | cstring | exception | functional | initializerList | iterator
  | memory | new | ranges | stdexcept | string | stringView | typeTraits | utility | vector | basetsd | sysTypes
  deriving DecidableEq

/-- syntax/mod.rs:77-82 `IncludeKind`. -/
inductive Kind
  | quoted | bracketed
  deriving DecidableEq

/-- gen/src/include.rs:13-19 `Include`. -/
structure Include where
  path : Text
  kind : Kind
  deriving DecidableEq

/-- gen/src/include.rs:22-46 `Includes`, without the text written so far. -/
structure Includes where
  custom : List Include
  flag : Std → Bool

/-- A line of the include section: the format strings of gen/src/include.rs:71-187. -/
inductive Line
  | pragmaOnce
  | quoted (path : Text)
  | bracketed (path : Text)
  | std (h : Std)
  | ifWin32
  | ifNotWin32
  | ifCplusplus (version : Nat)
  | otherwise
  | endif
  deriving DecidableEq

/-- gen/src/include.rs:57-61 `has_cxx_header`: `rust/cxx.h` or `rust\cxx.h`. -/
def Includes.hasCxxHeader (i : Includes) : Bool :=
  i.custom.any fun h => decide (h.path = [114, 117, 115, 116, 47, 99, 120, 120, 46, 104]) ||
    decide (h.path = [114, 117, 115, 116, 92, 99, 120, 120, 46, 104])

/-- gen/src/include.rs:53-55 `insert`. -/
def Includes.insert (i : Includes) (h : Include) : Includes := { i with custom := i.custom ++ [h] }

/-- gen/src/include.rs:192-194 `extend`. -/
def Includes.extend (i : Includes) (hs : List Include) : Includes := { i with custom := i.custom ++ hs }

/-- Hexadecimal digits, lowercase, most significant first; a code point has six of them at most. -/
def hex : Nat → Nat → Text
  | 0, _ => []
  | fuel + 1, n =>
    let d := n % 16
    (if n / 16 = 0 then [] else hex fuel (n / 16)) ++ [if d < 10 then 48 + d else 87 + d]

/-- `char::escape_default`. -/
def escapeChar (c : Nat) : Text :=
  if c = 9 then [92, 116]
  else if c = 13 then [92, 114]
  else if c = 10 then [92, 110]
  else if c = 39 ∨ c = 34 ∨ c = 92 then [92, c]
  else if 32 ≤ c ∧ c ≤ 126 then [c]
  else [92, 117, 123] ++ hex 6 c ++ [125]

/-- `str::escape_default`. -/
def escape (s : Text) : Text := s.flatMap escapeChar

/-- gen/src/include.rs:74-83: the line for an include of the user. -/
def customLine (h : Include) : Line :=
  match h.kind with
  | .quoted => .quoted (escape h.path)
  | .bracketed => .bracketed h.path

/-- gen/src/include.rs:64-189 `write`. -/
def write (header : Bool) (i : Includes) : List Line :=
  let cxxHeader := i.hasCxxHeader
  (if header then [.pragmaOnce] else []) ++
  i.custom.map customLine ++
  (if i.flag .algorithm && !cxxHeader then [.std .algorithm] else []) ++
  (if i.flag .array && !cxxHeader then [.std .array] else []) ++
  (if i.flag .cassert && !cxxHeader then [.std .cassert] else []) ++
  (if i.flag .cstddef && !cxxHeader then [.std .cstddef] else []) ++
  (if i.flag .cstdint && !cxxHeader then [.std .cstdint] else []) ++
  (if i.flag .cstring then [.std .cstring] else []) ++
  (if i.flag .exception && !cxxHeader then [.std .exception] else []) ++
  (if i.flag .functional then [.std .functional] else []) ++
  (if i.flag .initializerList && !cxxHeader then [.std .initializerList] else []) ++
  (if i.flag .iterator && !cxxHeader then [.std .iterator] else []) ++
  (if i.flag .memory then [.std .memory] else []) ++
  (if i.flag .new && !cxxHeader then [.std .new] else []) ++
  (if i.flag .stdexcept && !cxxHeader then [.std .stdexcept] else []) ++
  (if i.flag .string && !cxxHeader then [.std .string] else []) ++
  (if i.flag .typeTraits && !cxxHeader then [.std .typeTraits] else []) ++
  (if i.flag .utility && !cxxHeader then [.std .utility] else []) ++
  (if i.flag .vector && !cxxHeader then [.std .vector] else []) ++
  (if i.flag .basetsd && !cxxHeader then [.ifWin32, .std .basetsd] else []) ++
  (if i.flag .sysTypes && !cxxHeader then (if i.flag .basetsd then [.otherwise] else [.ifNotWin32]) else []) ++
  (if i.flag .sysTypes && !cxxHeader then [.std .sysTypes] else []) ++
  (if (i.flag .basetsd || i.flag .sysTypes) && !cxxHeader then [.endif] else []) ++
  (if i.flag .stringView && !cxxHeader then [.ifCplusplus 201703, .std .stringView, .endif] else []) ++
  (if i.flag .ranges && !cxxHeader then [.ifCplusplus 202002, .std .ranges, .endif] else [])

/-- gen/src/include.rs:112-186: the names of the headers. -/
noncomputable def Std.name : Std → Text
  | .algorithm => b!"algorithm" | .array => b!"array" | .cassert => b!"cassert" | .cstddef => b!"cstddef"
  | .cstdint => b!"cstdint" | .cstring => b!"cstring" | .exception => b!"exception" | .functional => b!"functional"
  | .initializerList => b!"initializer_list" | .iterator => b!"iterator" | .memory => b!"memory" | .new => b!"new"
  | .ranges => b!"ranges" | .stdexcept => b!"stdexcept" | .string => b!"string" | .stringView => b!"string_view"
  | .typeTraits => b!"type_traits" | .utility => b!"utility" | .vector => b!"vector" | .basetsd => b!"basetsd.h"
  | .sysTypes => b!"sys/types.h"

/-- A number in decimal. -/
def decimal : Nat → Nat → Text
  | 0, _ => []
  | fuel + 1, n => (if n / 10 = 0 then [] else decimal fuel (n / 10)) ++ [48 + n % 10]

/-- gen/src/include.rs:71-187: the text of a line. -/
noncomputable def render : Line → Text
  | .pragmaOnce => b!"#pragma once"
  | .quoted path => b!"#include \"" ++ path ++ b!"\""
  | .bracketed path => b!"#include <" ++ path ++ b!">"
  | .std h => b!"#include <" ++ h.name ++ b!">"
  | .ifWin32 => b!"#if defined(_WIN32)"
  | .ifNotWin32 => b!"#if not defined(_WIN32)"
  | .ifCplusplus v => b!"#if __cplusplus >= " ++ decimal 6 v ++ b!"L"
  | .otherwise => b!"#else"
  | .endif => b!"#endif"

/-- gen/cmd/src/app.rs:76-91: an argument of `--include`. -/
def fromArg (arg : Text) : Include :=
  if arg.head? = some 60 ∧ arg.getLast? = some 62 then ⟨(arg.drop 1).dropLast, .bracketed⟩ else ⟨arg, .quoted⟩

end Verif.Preamble
