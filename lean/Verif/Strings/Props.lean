import Verif.Strings.Model
import Verif.Strings.Spec
import Verif.Thunk.Spec
/-!
# C102: the functions for strings and slices fit, and reach what they are meant to reach
-/
namespace Verif.Strings
open Verif.Thunk
variable {W : Type}

/-! ### Linking -/

/-- A number for every symbol. -/
def code (s : Symbol) : Nat := s.foldl (fun n c => n * 128 + c.toNat) 1

theorem nodup_of_map {α β : Type} (f : α → β) : ∀ {l : List α}, (l.map f).Nodup → l.Nodup
  | [], _ => List.nodup_nil
  | a :: l, h => by
    rw [List.map_cons, List.nodup_cons] at h
    exact List.nodup_cons.2 ⟨fun ha => h.1 (List.mem_map_of_mem ha), nodup_of_map f h.2⟩

/-- In a list without repeated keys the entry of a key is the one that has it. -/
theorem find_at {α : Type} (key : α → Symbol) {k : Symbol} : ∀ {l : List α}, (l.map key).Nodup → ∀ {a : α} (i : Nat), l[i]? = some a →
    key a = k → l.find? (fun x => key x == k) = some a
  | [], _, a, i, hi, _ => by cases i <;> cases hi
  | b :: l, h, a, i, hi, hk => by
    rw [List.map_cons, List.nodup_cons] at h
    cases i with
    | zero =>
      simp only [List.getElem?_cons_zero, Option.some.injEq] at hi
      subst hi; rw [List.find?_cons_of_pos]; simpa using hk
    | succ i =>
      rw [List.getElem?_cons_succ] at hi
      have hne : ¬ (key b == k) = true := fun hb => h.1 (by
        rw [show key b = key a by rw [hk]; simpa using hb]
        exact List.mem_map_of_mem (List.mem_of_getElem? hi))
      rw [List.find?_cons_of_neg (p := fun x => key x == k) hne]
      exact find_at key h.2 i hi hk

theorem own {α : Type} (key : α → Symbol) : ∀ {l : List α}, (l.map key).Nodup → ∀ a ∈ l, ∀ b ∈ l, key b = key a → b = a
  | [], _, a, ha, _, _, _ => by cases ha
  | f :: fs, h, a, ha, b, hb, he => by
    rw [List.map_cons, List.nodup_cons] at h
    rcases List.mem_cons.1 ha with rfl | ha1
    · rcases List.mem_cons.1 hb with rfl | hb1
      · rfl
      · exact absurd (List.mem_map.2 ⟨b, hb1, he⟩) h.1
    · rcases List.mem_cons.1 hb with rfl | hb1
      · exact absurd (List.mem_map.2 ⟨a, ha1, he.symm⟩) h.1
      · exact own key h.2 a ha1 b hb1 he

/-- The symbols that Rust exports: the same for every library. -/
def rustSyms : List Symbol := (rustFns (W := Unit) (fun _ w => (0, w)) true).map (·.sym)
/-- The symbols that C++ exports. -/
def cxxSyms : List Symbol := (cxxFns (W := Unit) (fun _ w => (0, w))).map (·.sym)

theorem rustSyms_eq (lib : Lib W) : (rustFns lib true).map (·.sym) = rustSyms := rfl
theorem cxxSyms_eq (lib : Lib W) : (cxxFns lib).map (·.sym) = cxxSyms := rfl
set_option maxRecDepth 10000 in
theorem rustSyms_nodup : rustSyms.Nodup := nodup_of_map code (by decide +kernel)
set_option maxRecDepth 10000 in
theorem cxxSyms_nodup : cxxSyms.Nodup := nodup_of_map code (by decide +kernel)
set_option maxRecDepth 10000 in
theorem cxxDecls_nodup : (cxxDecls.map (·.name)).Nodup := nodup_of_map code (by decide +kernel)
set_option maxRecDepth 10000 in
theorem rustDecls_nodup : (rustDecls.map (·.name)).Nodup := nodup_of_map code (by decide +kernel)
theorem rustFns_nodup (lib : Lib W) : ((rustFns lib true).map (·.sym)).Nodup := rustSyms_nodup
theorem cxxFns_nodup (lib : Lib W) : ((cxxFns lib).map (·.sym)).Nodup := cxxSyms_nodup

theorem call_at {P Q : Type} {decls : List (Decl P)} {fns : List (Fn Q W)} (hd : (decls.map (·.name)).Nodup)
    (hf : (fns.map (·.sym)).Nodup) {name : Symbol} {args : List Nat} {d : Decl P} {f : Fn Q W} (i j : Nat)
    (hi : decls[i]? = some d) (hj : fns[j]? = some f) (hn : d.name = name) (hs : f.sym = d.sym)
    (ha : args.length = d.params.length) : call decls fns name args = f.body args := by
  simp only [call, find, find_at (·.name) hd i hi hn, find_at (·.sym) hf j hj hs, ha, if_true]

theorem cpp_at {lib : Lib W} {name : String} {args : List Nat} {d : Decl CText} {f : Fn RText W} (i j : Nat)
    (hi : cxxDecls[i]? = some d) (hj : (rustFns lib true)[j]? = some f) (hn : d.name = name.toList ∧ f.sym = d.sym)
    (ha : args.length = d.params.length) : cpp lib name args = f.body args :=
  call_at cxxDecls_nodup (rustFns_nodup lib) i j hi hj hn.1 hn.2 ha

theorem rust_at {lib : Lib W} {name : String} {args : List Nat} {d : Decl RText} {f : Fn CText W} (i j : Nat)
    (hi : rustDecls[i]? = some d) (hj : (cxxFns lib)[j]? = some f) (hn : d.name = name.toList ∧ f.sym = d.sym)
    (ha : args.length = d.params.length) : rust lib name args = f.body args :=
  call_at rustDecls_nodup (cxxFns_nodup lib) i j hi hj hn.1 hn.2 ha

theorem cpp_string_new (lib : Lib W) (t : Nat) : cpp lib "cxxbridge1$string$new" [t] =
    lib.do_ (.stringEmpty t) :=
  cpp_at 0 2 rfl rfl ⟨rfl, rfl⟩ rfl
theorem cpp_string_clone (lib : Lib W) (t s : Nat) : cpp lib "cxxbridge1$string$clone" [t, s] =
    lib.do_ (.stringClone t s) :=
  cpp_at 1 3 rfl rfl ⟨rfl, rfl⟩ rfl
theorem cpp_string_from_utf8 (lib : Lib W) (t s len : Nat) : cpp lib "cxxbridge1$string$from_utf8" [t, s, len] =
    (do let ok ← lib.run (.isUtf8 s len); if ok = 1 then (do let _ ← lib.run (.stringOfBytes t s len); pure [1]) else pure [0]) :=
  cpp_at 2 4 rfl rfl ⟨rfl, rfl⟩ rfl
theorem cpp_string_from_utf8_lossy (lib : Lib W) (t s len : Nat) : cpp lib "cxxbridge1$string$from_utf8_lossy" [t, s, len] =
    lib.do_ (.stringLossy t s len) :=
  cpp_at 3 5 rfl rfl ⟨rfl, rfl⟩ rfl
theorem cpp_string_from_utf16 (lib : Lib W) (t s len : Nat) : cpp lib "cxxbridge1$string$from_utf16" [t, s, len] =
    (do let ok ← lib.run (.isUtf16 s len); if ok = 1 then (do let _ ← lib.run (.stringOfUnits t s len); pure [1]) else pure [0]) :=
  cpp_at 4 6 rfl rfl ⟨rfl, rfl⟩ rfl
theorem cpp_string_from_utf16_lossy (lib : Lib W) (t s len : Nat) : cpp lib "cxxbridge1$string$from_utf16_lossy" [t, s, len] =
    lib.do_ (.stringLossy16 t s len) :=
  cpp_at 5 7 rfl rfl ⟨rfl, rfl⟩ rfl
theorem cpp_string_drop (lib : Lib W) (t : Nat) : cpp lib "cxxbridge1$string$drop" [t] =
    lib.do_ (.stringDrop t) :=
  cpp_at 6 8 rfl rfl ⟨rfl, rfl⟩ rfl
theorem cpp_string_ptr (lib : Lib W) (t : Nat) : cpp lib "cxxbridge1$string$ptr" [t] =
    lib.word (.stringPtr t) :=
  cpp_at 7 9 rfl rfl ⟨rfl, rfl⟩ rfl
theorem cpp_string_len (lib : Lib W) (t : Nat) : cpp lib "cxxbridge1$string$len" [t] =
    lib.word (.stringLen t) :=
  cpp_at 8 10 rfl rfl ⟨rfl, rfl⟩ rfl
theorem cpp_string_capacity (lib : Lib W) (t : Nat) : cpp lib "cxxbridge1$string$capacity" [t] =
    lib.word (.stringCapacity t) :=
  cpp_at 9 11 rfl rfl ⟨rfl, rfl⟩ rfl
theorem cpp_string_reserve_additional (lib : Lib W) (t n : Nat) : cpp lib "cxxbridge1$string$reserve_additional" [t, n] =
    lib.do_ (.stringReserve t n) :=
  cpp_at 10 12 rfl rfl ⟨rfl, rfl⟩ rfl
theorem cpp_string_reserve_total (lib : Lib W) (t n : Nat) : cpp lib "cxxbridge1$string$reserve_total" [t, n] =
    (do let cap ← lib.run (.stringCapacity t); if n > cap then (do let len ← lib.run (.stringLen t); lib.do_ (.stringReserve t (n - len))) else pure []) :=
  cpp_at 11 13 rfl rfl ⟨rfl, rfl⟩ rfl
theorem cpp_str_new (lib : Lib W) (t : Nat) : cpp lib "cxxbridge1$str$new" [t] =
    lib.do_ (.strEmpty t) :=
  cpp_at 12 14 rfl rfl ⟨rfl, rfl⟩ rfl
theorem cpp_str_ref (lib : Lib W) (t s : Nat) : cpp lib "cxxbridge1$str$ref" [t, s] =
    lib.do_ (.strOfString t s) :=
  cpp_at 13 1 rfl rfl ⟨rfl, rfl⟩ rfl
theorem cpp_str_from (lib : Lib W) (t s len : Nat) : cpp lib "cxxbridge1$str$from" [t, s, len] =
    (do let ok ← lib.run (.isUtf8 s len); if ok = 1 then (do let _ ← lib.run (.strOfBytes t s len); pure [1]) else pure [0]) :=
  cpp_at 14 15 rfl rfl ⟨rfl, rfl⟩ rfl
theorem cpp_str_ptr (lib : Lib W) (t : Nat) : cpp lib "cxxbridge1$str$ptr" [t] =
    lib.word (.strPtr t) :=
  cpp_at 15 16 rfl rfl ⟨rfl, rfl⟩ rfl
theorem cpp_str_len (lib : Lib W) (t : Nat) : cpp lib "cxxbridge1$str$len" [t] =
    lib.word (.strLen t) :=
  cpp_at 16 17 rfl rfl ⟨rfl, rfl⟩ rfl
theorem cpp_slice_new (lib : Lib W) (t s len : Nat) : cpp lib "cxxbridge1$slice$new" [t, s, len] =
    lib.do_ (.sliceOf t s len) :=
  cpp_at 17 18 rfl rfl ⟨rfl, rfl⟩ rfl
theorem cpp_slice_ptr (lib : Lib W) (t : Nat) : cpp lib "cxxbridge1$slice$ptr" [t] =
    lib.word (.slicePtr t) :=
  cpp_at 18 19 rfl rfl ⟨rfl, rfl⟩ rfl
theorem cpp_slice_len (lib : Lib W) (t : Nat) : cpp lib "cxxbridge1$slice$len" [t] =
    lib.word (.sliceLen t) :=
  cpp_at 19 20 rfl rfl ⟨rfl, rfl⟩ rfl
theorem cpp_exception (lib : Lib W) (s len : Nat) : cpp lib "cxxbridge1$exception" [s, len] =
    (do let b ← lib.run (.boxedLossy s len); let n ← lib.run (.boxedLen b); pure [b, n]) :=
  cpp_at 20 0 rfl rfl ⟨rfl, rfl⟩ rfl
theorem rust_string_init (lib : Lib W) (s p len : Nat) : rust lib "string_init" [s, p, len] =
    lib.do_ (.stdInit s p len) :=
  rust_at 0 0 rfl rfl ⟨rfl, rfl⟩ rfl
theorem rust_string_destroy (lib : Lib W) (s : Nat) : rust lib "string_destroy" [s] =
    lib.do_ (.stdDestroy s) :=
  rust_at 1 1 rfl rfl ⟨rfl, rfl⟩ rfl
theorem rust_string_data (lib : Lib W) (s : Nat) : rust lib "string_data" [s] =
    lib.word (.stdData s) :=
  rust_at 2 2 rfl rfl ⟨rfl, rfl⟩ rfl
theorem rust_string_length (lib : Lib W) (s : Nat) : rust lib "string_length" [s] =
    lib.word (.stdLength s) :=
  rust_at 3 3 rfl rfl ⟨rfl, rfl⟩ rfl
theorem rust_string_clear (lib : Lib W) (s : Nat) : rust lib "string_clear" [s] =
    lib.do_ (.stdClear s) :=
  rust_at 4 4 rfl rfl ⟨rfl, rfl⟩ rfl
theorem rust_string_reserve_total (lib : Lib W) (s n : Nat) : rust lib "string_reserve_total" [s, n] =
    lib.do_ (.stdReserve s n) :=
  rust_at 5 5 rfl rfl ⟨rfl, rfl⟩ rfl
theorem rust_string_push (lib : Lib W) (s p len : Nat) : rust lib "string_push" [s, p, len] =
    lib.do_ (.stdAppend s p len) :=
  rust_at 6 6 rfl rfl ⟨rfl, rfl⟩ rfl
theorem rust_error (lib : Lib W) (p len : Nat) : rust lib "error" [p, len] =
    (do let copy ← lib.run (.newChars len); let _ ← lib.run (.memcpy copy p len); pure [copy]) :=
  rust_at 7 7 rfl rfl ⟨rfl, rfl⟩ rfl

/-! ### The declarations -/

/-- Exactly one function has the symbol, and its declarations fit. -/
def Links {P Q : Type} (A : P → Q → Prop) (R : P → Q → Prop) (fns : List (Fn Q W)) (d : Decl P) : Prop :=
  ∃ f ∈ fns, f.sym = d.sym ∧ (∀ g ∈ fns, g.sym = d.sym → g = f) ∧ f.noexcept = true ∧ Each A d.params f.params ∧ R d.ret f.ret

theorem links_at {P Q : Type} {A R : P → Q → Prop} {fns : List (Fn Q W)} (hf : (fns.map (·.sym)).Nodup) {d : Decl P}
    {f : Fn Q W} (j : Nat) (hj : fns[j]? = some f) (hs : f.sym = d.sym) (hn : f.noexcept = true) (ha : Each A d.params f.params)
    (hr : R d.ret f.ret) : Links A R fns d :=
  ⟨f, List.mem_of_getElem? hj, hs, fun g hg he =>
    own (·.sym) hf f (List.mem_of_getElem? hj) g hg (he.trans hs.symm), hn, ha, hr⟩

/-- **C102**, declarations in C++.  Every Rust function that `cxx.cc` declares is exported exactly once by the crate, with as
many parameters, each of a type that takes what C++ passes, and gives back what C++ expects; and every function that is
exported for strings and slices is declared. -/
theorem rust_functions_fit (lib : Lib W) :
    (∀ d ∈ cxxDecls, ∃ f ∈ rustFns lib true, f.sym = d.sym ∧ (∀ g ∈ rustFns lib true, g.sym = d.sym → g = f) ∧
      Each Given d.params f.params ∧ Received d.ret f.ret) ∧
    ∀ f ∈ rustFns lib true, ∃ d ∈ cxxDecls, d.sym = f.sym := by
  constructor
  · intro d hd
    suffices h : Links Given Received (rustFns lib true) d from
      let ⟨f, h1, h2, h3, _, h5⟩ := h; ⟨f, h1, h2, h3, h5⟩
    have hn := rustFns_nodup lib
    have T : ∀ {o o' ps qs}, Same o o' → Each Given ps qs → Each Given (.obj o false :: ps) (.uninit o' :: qs) :=
      fun h h' => .cons (.uninit h) h'
    simp only [cxxDecls, List.mem_cons, List.not_mem_nil, or_false] at hd
    rcases hd with rfl | rfl | rfl | rfl | rfl | rfl | rfl | rfl | rfl | rfl | rfl | rfl | rfl | rfl | rfl | rfl | rfl | rfl |
      rfl | rfl | rfl
    · exact links_at hn 2 rfl rfl rfl (T .string .nil) .void
    · exact links_at hn 3 rfl rfl rfl (T .string (.cons (.read .string) .nil)) .void
    · exact links_at hn 4 rfl rfl rfl (T .string (.cons .chars (.cons .size .nil))) .bool
    · exact links_at hn 5 rfl rfl rfl (T .string (.cons .chars (.cons .size .nil))) .void
    · exact links_at hn 6 rfl rfl rfl (T .string (.cons .units (.cons .size .nil))) .bool
    · exact links_at hn 7 rfl rfl rfl (T .string (.cons .units (.cons .size .nil))) .void
    · exact links_at hn 8 rfl rfl rfl (.cons (.last .string) .nil) .void
    · exact links_at hn 9 rfl rfl rfl (.cons (.read .string) .nil) .chars
    · exact links_at hn 10 rfl rfl rfl (.cons (.read .string) .nil) .size
    · exact links_at hn 11 rfl rfl rfl (.cons (.read .string) .nil) .size
    · exact links_at hn 12 rfl rfl rfl (.cons (.write .string) (.cons .size .nil)) .void
    · exact links_at hn 13 rfl rfl rfl (.cons (.write .string) (.cons .size .nil)) .void
    · exact links_at hn 14 rfl rfl rfl (T .str .nil) .void
    · exact links_at hn 1 rfl rfl rfl (T .str (.cons (.read .string) .nil)) .void
    · exact links_at hn 15 rfl rfl rfl (T .str (.cons .chars (.cons .size .nil))) .bool
    · exact links_at hn 16 rfl rfl rfl (.cons (.read .str) .nil) .chars
    · exact links_at hn 17 rfl rfl rfl (.cons (.read .str) .nil) .size
    · exact links_at hn 18 rfl rfl rfl (T .slice (.cons .place (.cons .size .nil))) .void
    · exact links_at hn 19 rfl rfl rfl (.cons (.read .slice) .nil) .place
    · exact links_at hn 20 rfl rfl rfl (.cons (.read .slice) .nil) .size
    · exact links_at hn 0 rfl rfl rfl (.cons .chars (.cons .size .nil)) .ptrLen
  · have hs : ∀ s ∈ rustSyms, ∃ d ∈ cxxDecls, d.sym = s := by
      have h : ∀ s ∈ rustSyms, s ∈ cxxDecls.map (·.sym) := by decide +kernel
      exact fun s hs' => List.mem_map.1 (h s hs')
    exact fun f hf => hs f.sym (by rw [← rustSyms_eq lib]; exact List.mem_map_of_mem hf)

/-- **C102**, declarations in Rust.  Every C++ function for strings and errors that the crate declares is defined exactly once
in `cxx.cc`, does not let an exception out, and takes and gives what Rust passes and expects; and all that are defined are
declared. -/
theorem cxx_functions_fit (lib : Lib W) :
    (∀ d ∈ rustDecls, ∃ f ∈ cxxFns lib, f.sym = d.sym ∧ (∀ g ∈ cxxFns lib, g.sym = d.sym → g = f) ∧ f.noexcept = true ∧
      Each Passed d.params f.params ∧ Returned d.ret f.ret) ∧
    ∀ f ∈ cxxFns lib, ∃ d ∈ rustDecls, d.sym = f.sym := by
  constructor
  · intro d hd
    suffices h : Links Passed Returned (cxxFns lib) d from h
    have hn := cxxFns_nodup lib
    simp only [rustDecls, List.mem_cons, List.not_mem_nil, or_false] at hd
    rcases hd with rfl | rfl | rfl | rfl | rfl | rfl | rfl | rfl
    · exact links_at hn 0 rfl rfl rfl (.cons (.uninit .cxxString) (.cons .bytes (.cons .usize .nil))) .unit
    · exact links_at hn 1 rfl rfl rfl (.cons (.uninit .cxxString) .nil) .unit
    · exact links_at hn 2 rfl rfl rfl (.cons (.ref .cxxString) .nil) .bytes
    · exact links_at hn 3 rfl rfl rfl (.cons (.ref .cxxString) .nil) .usize
    · exact links_at hn 4 rfl rfl rfl (.cons (.refMut .cxxString) .nil) .unit
    · exact links_at hn 5 rfl rfl rfl (.cons (.refMut .cxxString) (.cons .usize .nil)) .unit
    · exact links_at hn 6 rfl rfl rfl (.cons (.refMut .cxxString) (.cons .bytes (.cons .usize .nil))) .unit
    · exact links_at hn 7 rfl rfl rfl (.cons .chars (.cons .usize .nil)) .owned
  · have hs : ∀ s ∈ cxxSyms, ∃ d ∈ rustDecls, d.sym = s := by
      have h : ∀ s ∈ cxxSyms, s ∈ rustDecls.map (·.sym) := by decide +kernel
      exact fun s hs' => List.mem_map.1 (h s hs')
    exact fun f hf => hs f.sym (by rw [← cxxSyms_eq lib]; exact List.mem_map_of_mem hf)

/-! ### The members -/

/-- Text from C++: it is taken if it is valid, and otherwise there is an exception and nothing is written. -/
def Takes (lib : Lib W) (check build : TextOp) : Run W (List Nat) := do
  let ok ← lib.run check
  if ok = 1 then lib.do_ build else lib.do_ .throwInvalid

theorem initText_eq {lib : Lib W} {name : String} {t s len : Nat} {check build : TextOp}
    (h : cpp lib name [t, s, len] =
      (do let ok ← lib.run check; if ok = 1 then (do let _ ← lib.run build; pure [1]) else pure [0])) :
    initText lib name t s len = Takes lib check build := by
  unfold initText Takes
  rw [h]
  funext w
  simp only [bind, StateT.bind, Lib.run, Lib.do_, Option.bind, pure, StateT.pure]
  by_cases ho : (lib check w).1 = 1
  · simp only [ho, if_true]; rfl
  · simp only [ho, if_false]; rfl

/-- **C102**, `rust::String`.  Whatever the Rust library does, each member does with its arguments what its name says, and
nothing else. -/
theorem string_members (lib : Lib W) (this other s len n : Nat) :
    member lib .stringNew [this] = lib.do_ (.stringEmpty this) ∧
    member lib .stringCopy [this, other] = lib.do_ (.stringClone this other) ∧
    member lib .stringMove [this, other] = (do let _ ← lib.run (.copyRepr this other); lib.do_ (.stringEmpty other)) ∧
    member lib .stringDrop [this] = lib.do_ (.stringDrop this) ∧
    member lib .stringAssign [this, this] = pure [this] ∧
    (this ≠ other → member lib .stringAssign [this, other] = do
      let _ ← lib.run (.stringDrop this)
      let _ ← lib.run (.stringClone this other)
      pure [this]) ∧
    member lib .stringMoveAssign [this, other] = (do
      let _ ← lib.run (.stringDrop this)
      let _ ← lib.run (.copyRepr this other)
      let _ ← lib.run (.stringEmpty other)
      pure [this]) ∧
    member lib .stringData [this] = lib.word (.stringPtr this) ∧
    member lib .stringSize [this] = lib.word (.stringLen this) ∧
    member lib .stringLength [this] = lib.word (.stringLen this) ∧
    member lib .stringCapacity [this] = lib.word (.stringCapacity this) ∧
    member lib .stringReserve [this, n] = (do
      let cap ← lib.run (.stringCapacity this)
      if n ≤ cap then pure []
      else
        let size ← lib.run (.stringLen this)
        lib.do_ (.stringReserve this (n - size))) ∧
    member lib .stringCStr [this] = (do
      let size ← lib.run (.stringLen this)
      let _ ← lib.run (.stringReserve this 1)
      let ptr ← lib.run (.stringPtr this)
      let _ ← lib.run (.storeByte (ptr + size) 0)
      pure [ptr]) := by
  refine ⟨?_, ?_, ?_, ?_, ?_, ?_, ?_, ?_, ?_, ?_, ?_, ?_, ?_⟩
  · exact cpp_string_new lib this
  · exact cpp_string_clone lib this other
  · simp only [member, cpp_string_new]
  · exact cpp_string_drop lib this
  · simp only [member, ne_eq, not_true_eq_false, if_false]
  · intro h
    simp only [member, ne_eq, h, not_false_eq_true, if_true, cpp_string_drop, cpp_string_clone]; rfl
  · simp only [member, cpp_string_drop, cpp_string_new]; rfl
  · exact cpp_string_ptr lib this
  · exact cpp_string_len lib this
  · exact cpp_string_len lib this
  · exact cpp_string_capacity lib this
  · simp only [member, cpp_string_reserve_total]
    congr 1; funext cap
    by_cases h : n ≤ cap
    · rw [if_pos h, if_neg (by omega)]
    · rw [if_neg h, if_pos (by omega)]
  · simp only [member, cpp_string_len, cpp_string_reserve_additional, cpp_string_ptr]; rfl

/-- **C102**, text from C++.  A pointer that is null is passed on only with a length that is not zero. -/
theorem text_members (lib : Lib W) (this s len : Nat) :
    (∃ p, (s ≠ 0 ∨ len ≠ 0 → p = s) ∧ (s = 0 → len = 0 → p = 1) ∧
      member lib .stringChars [this, s, len] = Takes lib (.isUtf8 p len) (.stringOfBytes this p len) ∧
      member lib .strChars [this, s, len] = Takes lib (.isUtf8 p len) (.strOfBytes this p len) ∧
      member lib .lossyChars [this, s, len] = lib.do_ (.stringLossy this p len)) ∧
    (∃ p, (s ≠ 0 ∨ len ≠ 0 → p = s) ∧ (s = 0 → len = 0 → p = 2) ∧
      member lib .stringUnits [this, s, len] = Takes lib (.isUtf16 p len) (.stringOfUnits this p len) ∧
      member lib .lossyUnits [this, s, len] = lib.do_ (.stringLossy16 this p len)) ∧
    member lib .stringCstr [this, s] = (do
      let len ← lib.run (.strlen s)
      Takes lib (.isUtf8 s len) (.stringOfBytes this s len)) := by
  have hd : ∀ a, (s ≠ 0 ∨ len ≠ 0 → orDangling a s len = s) ∧ (s = 0 → len = 0 → orDangling a s len = a) := fun a => by
    unfold orDangling
    constructor
    · intro h; rw [if_neg (by omega)]
    · intro h h'; rw [if_pos ⟨h, h'⟩]
  refine ⟨⟨_, (hd 1).1, (hd 1).2, ?_, ?_, ?_⟩, ⟨_, (hd 2).1, (hd 2).2, ?_, ?_⟩, ?_⟩
  · exact initText_eq (cpp_string_from_utf8 lib _ _ _)
  · exact initText_eq (cpp_str_from lib _ _ _)
  · exact cpp_string_from_utf8_lossy lib _ _ _
  · exact initText_eq (cpp_string_from_utf16 lib _ _ _)
  · exact cpp_string_from_utf16_lossy lib _ _ _
  · simp only [member, initText_eq (cpp_string_from_utf8 lib _ _ _)]

/-- **C102**, `rust::Str`, `rust::Slice` and the messages of exceptions. -/
theorem view_members (lib : Lib W) (this s ptr len : Nat) :
    member lib .strNew [this] = lib.do_ (.strEmpty this) ∧
    member lib .strOfString [this, s] = lib.do_ (.strOfString this s) ∧
    member lib .strData [this] = lib.word (.strPtr this) ∧
    member lib .strSize [this] = lib.word (.strLen this) ∧
    member lib .sliceInit [this, ptr, len] = lib.do_ (.sliceOf this ptr len) ∧
    member lib .slicePtr [this] = lib.word (.slicePtr this) ∧
    member lib .sliceLen [this] = lib.word (.sliceLen this) ∧
    member lib .failCstr [s] = (do
      let len ← lib.run (.strlen s)
      let box ← lib.run (.boxedLossy s len)
      let n ← lib.run (.boxedLen box)
      pure [box, n]) ∧
    member lib .failString [s] = (do
      let data ← lib.run (.stdData s)
      let len ← lib.run (.stdLength s)
      let box ← lib.run (.boxedLossy data len)
      let n ← lib.run (.boxedLen box)
      pure [box, n]) := by
  refine ⟨cpp_str_new lib this, cpp_str_ref lib this s, cpp_str_ptr lib this, cpp_str_len lib this,
    cpp_slice_new lib this ptr len, cpp_slice_ptr lib this, cpp_slice_len lib this, ?_, ?_⟩
  · simp only [member, cpp_exception]
  · simp only [member, cpp_exception]

/-- **C102**, `CxxString`, strings on the stack, and the messages of Rust errors. -/
theorem cxx_string_methods (lib : Lib W) (max this ptr len : Nat) :
    method lib max .len [this] = lib.word (.stdLength this) ∧
    method lib max .asPtr [this] = lib.word (.stdData this) ∧
    method lib max .clear [this] = lib.do_ (.stdClear this) ∧
    method lib max .reserve [this, len] = (do
      let size ← lib.run (.stdLength this)
      if max < size + len then lib.do_ .panic else lib.do_ (.stdReserve this (size + len))) ∧
    method lib max .pushBytes [this, ptr, len] = lib.do_ (.stdAppend this ptr len) ∧
    method lib max .init [this, ptr, len] = (do let _ ← lib.run (.stdInit this ptr len); pure [this]) ∧
    method lib max .drop [this] = lib.do_ (.stdDestroy this) ∧
    method lib max .toCError [this] = (do
      let _ ← lib.run (.pushNul this)
      let ptr ← lib.run (.stringPtr this)
      let len ← lib.run (.stringLen this)
      let copy ← lib.run (.newChars len)
      let _ ← lib.run (.memcpy copy ptr len)
      pure [copy, len]) := by
  refine ⟨rust_string_length lib this, rust_string_data lib this, rust_string_clear lib this, ?_,
    rust_string_push lib this ptr len, ?_, rust_string_destroy lib this, ?_⟩
  · simp only [method, rust_string_length, rust_string_reserve_total]
    funext w
    simp only [Lib.word, bind, StateT.bind, Lib.run, Option.bind, pure, StateT.pure]
    by_cases h : (lib (.stdLength this) w).1 + len ≤ max
    · rw [if_pos h, if_neg (by omega)]
    · rw [if_neg h, if_pos (by omega)]
  · simp only [method, rust_string_init]; rfl
  · simp only [method, rust_error]; rfl

/-! ### Without `alloc` -/

/-- Finding: `cxx.cc` is the same with and without the feature `alloc` (build.rs:12-18), but without it the crate exports no
function for `rust::String`, none for messages of exceptions, and not the conversion of a `rust::String` to a
`rust::Str`.  All others are there. -/
theorem missing_without_alloc (lib : Lib W) :
    ∀ d ∈ cxxDecls, find (rustFns lib false) d.sym = none ↔
      "cxxbridge1$string$".toList <+: d.sym ∨ d.sym = "cxxbridge1$str$ref".toList ∨ d.sym = "cxxbridge1$exception".toList := by
  have hf : ∀ s : Symbol, find (rustFns lib false) s = none ↔ s ∉ (rustFns (W := Unit) (fun _ w => (0, w)) false).map (·.sym) := by
    intro s
    rw [show (rustFns (W := Unit) (fun _ w => (0, w)) false).map (·.sym) = (rustFns lib false).map (·.sym) from rfl]
    simp [find, List.find?_eq_none]
  have h : ∀ s ∈ cxxDecls.map (·.sym), s ∉ (rustFns (W := Unit) (fun _ w => (0, w)) false).map (·.sym) ↔
      "cxxbridge1$string$".toList <+: s ∨ s = "cxxbridge1$str$ref".toList ∨ s = "cxxbridge1$exception".toList := by
    decide +kernel
  exact fun d hd => (hf d.sym).trans (h d.sym (List.mem_map_of_mem hd))

/-! ### Concrete cases -/

/-- A library that writes down what is done; every text is valid. -/
def log : Lib (List TextOp) := fun o w => (1, w ++ [o])

/-- `String("…", 5)` at address 100 from address 40, and from a null pointer with length 0. -/
example : (member log .stringChars [100, 40, 5] []).map (·.2) = some [.isUtf8 40 5, .stringOfBytes 100 40 5] ∧
    (member log .stringChars [100, 0, 0] []).map (·.2) = some [.isUtf8 1 0, .stringOfBytes 100 1 0] := by
  obtain ⟨⟨p, h1, _, h3, _⟩, _⟩ := text_members log 100 40 5
  obtain ⟨⟨q, _, h2, h4, _⟩, _⟩ := text_members log 100 0 0
  rw [h3, h4, h1 (by omega), h2 rfl rfl]
  exact ⟨rfl, rfl⟩

/-- An assignment of a string to another, and to itself. -/
example : (member log .stringAssign [100, 200] []).map (·.2) = some [.stringDrop 100, .stringClone 100 200] ∧
    (member log .stringAssign [100, 100] []).map (·.2) = some [] := by
  obtain ⟨_, _, _, _, h1, h2, _⟩ := string_members log 100 200 0 0 0
  rw [h1, h2 (by decide)]
  exact ⟨rfl, rfl⟩

/-- There are declarations to which the theorems apply. -/
example : cxxDecls.length = 21 ∧ rustDecls.length = 8 := ⟨rfl, rfl⟩

end Verif.Strings
