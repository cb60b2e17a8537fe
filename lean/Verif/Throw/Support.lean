import Verif.Throw.Props
/-!
# The C++ functions that Rust calls, other than those of the bridge

Their heads, as the generator writes them and as they stand in the runtime library.
-/
namespace Verif.Throw

open Lean in
/-- `c!"abc"` is the list of characters `['a', 'b', 'c']`. -/
macro:max "c!" s:str : term => do
  let cs := s.getString.toList.map fun c => Syntax.mkCharLit c
  `([$(cs.toArray),*])

/-- A piece of the head of a function: text, the name of the instance, or the type. -/
inductive Piece
  | lit (s : List Char)
  | inst
  | inner

abbrev Head := List Piece

/-- The text of a piece, for a name of the instance and for a type. -/
def Piece.text (inst inner : List Char) : Piece → List Char
  | .lit s => s
  | .inst => inst
  | .inner => inner

/-- The text of a head. -/
def Head.text (h : Head) (inst inner : List Char) : List Char := h.flatMap (Piece.text inst inner)

/-- gen/src/write.rs:1664-1780 `write_unique_ptr_common`, 1809-1860 `write_shared_ptr`, 1883-1929 `write_weak_ptr`, 1942-1987
`write_cxx_vector`: the heads of the functions that are written for an instance. -/
def generatedHeads : List Head :=
  [
   [.lit c!"void cxxbridge1$unique_ptr$", .inst, .lit c!"$null(::std::unique_ptr<", .inner, .lit c!"> *ptr) noexcept {"],
   [.inner, .lit c!" *cxxbridge1$unique_ptr$", .inst, .lit c!"$uninit(::std::unique_ptr<", .inner, .lit c!"> *ptr) noexcept {"],
   [.lit c!"void cxxbridge1$unique_ptr$", .inst, .lit c!"$raw(::std::unique_ptr<", .inner, .lit c!"> *ptr, ", .inner, .lit c!" *raw) noexcept {"],
   [.inner, .lit c!" const *cxxbridge1$unique_ptr$", .inst, .lit c!"$get(::std::unique_ptr<", .inner, .lit c!"> const &ptr) noexcept {"],
   [.inner, .lit c!" *cxxbridge1$unique_ptr$", .inst, .lit c!"$release(::std::unique_ptr<", .inner, .lit c!"> &ptr) noexcept {"],
   [.lit c!"void cxxbridge1$unique_ptr$", .inst, .lit c!"$drop(::std::unique_ptr<", .inner, .lit c!"> *ptr) noexcept {"],
   [.lit c!"void cxxbridge1$shared_ptr$", .inst, .lit c!"$null(::std::shared_ptr<", .inner, .lit c!"> *ptr) noexcept {"],
   [.inner, .lit c!" *cxxbridge1$shared_ptr$", .inst, .lit c!"$uninit(::std::shared_ptr<", .inner, .lit c!"> *ptr) noexcept {"],
   [.lit c!"void cxxbridge1$shared_ptr$", .inst, .lit c!"$clone(::std::shared_ptr<", .inner, .lit c!"> const &self, ::std::shared_ptr<", .inner, .lit c!"> *ptr) noexcept {"],
   [.inner, .lit c!" const *cxxbridge1$shared_ptr$", .inst, .lit c!"$get(::std::shared_ptr<", .inner, .lit c!"> const &self) noexcept {"],
   [.lit c!"void cxxbridge1$shared_ptr$", .inst, .lit c!"$drop(::std::shared_ptr<", .inner, .lit c!"> *self) noexcept {"],
   [.lit c!"void cxxbridge1$weak_ptr$", .inst, .lit c!"$null(::std::weak_ptr<", .inner, .lit c!"> *ptr) noexcept {"],
   [.lit c!"void cxxbridge1$weak_ptr$", .inst, .lit c!"$clone(::std::weak_ptr<", .inner, .lit c!"> const &self, ::std::weak_ptr<", .inner, .lit c!"> *ptr) noexcept {"],
   [.lit c!"void cxxbridge1$weak_ptr$", .inst, .lit c!"$downgrade(::std::shared_ptr<", .inner, .lit c!"> const &shared, ::std::weak_ptr<", .inner, .lit c!"> *weak) noexcept {"],
   [.lit c!"void cxxbridge1$weak_ptr$", .inst, .lit c!"$upgrade(::std::weak_ptr<", .inner, .lit c!"> const &weak, ::std::shared_ptr<", .inner, .lit c!"> *shared) noexcept {"],
   [.lit c!"void cxxbridge1$weak_ptr$", .inst, .lit c!"$drop(::std::weak_ptr<", .inner, .lit c!"> *self) noexcept {"],
   [.lit c!"::std::vector<", .inner, .lit c!"> *cxxbridge1$std$vector$", .inst, .lit c!"$new() noexcept {"],
   [.lit c!"::std::size_t cxxbridge1$std$vector$", .inst, .lit c!"$size(::std::vector<", .inner, .lit c!"> const &s) noexcept {"],
   [.inner, .lit c!" *cxxbridge1$std$vector$", .inst, .lit c!"$get_unchecked(::std::vector<", .inner, .lit c!"> *s, ::std::size_t pos) noexcept {"],
   [.lit c!"void cxxbridge1$std$vector$", .inst, .lit c!"$push_back(::std::vector<", .inner, .lit c!"> *v, ", .inner, .lit c!" *value) noexcept {"],
   [.lit c!"void cxxbridge1$std$vector$", .inst, .lit c!"$pop_back(::std::vector<", .inner, .lit c!"> *v, ", .inner, .lit c!" *out) noexcept {"]]

/-- src/cxx.cc:8-36 (strings), 472 (`cxxbridge1$error`), 583-602 (`UniquePtr<CxxString>`), 613-660 (vectors and their unique
pointers), 713-765 (shared and weak pointers).  Line breaks are written as single spaces, `RUST_TYPE` and `CXX_TYPE` are the
arguments of the macros. -/
def runtimeHeads : List Head :=
  [
   [.lit c!"void cxxbridge1$cxx_string$init(std::string *s, const std::uint8_t *ptr, std::size_t len) noexcept {"],
   [.lit c!"void cxxbridge1$cxx_string$destroy(std::string *s) noexcept {"],
   [.lit c!"const char *cxxbridge1$cxx_string$data(const std::string &s) noexcept {"],
   [.lit c!"std::size_t cxxbridge1$cxx_string$length(const std::string &s) noexcept {"],
   [.lit c!"void cxxbridge1$cxx_string$clear(std::string &s) noexcept {"],
   [.lit c!"void cxxbridge1$cxx_string$reserve_total(std::string &s, size_t new_cap) noexcept {"],
   [.lit c!"void cxxbridge1$cxx_string$push(std::string &s, const std::uint8_t *ptr, std::size_t len) noexcept {"],
   [.lit c!"const char *cxxbridge1$error(const char *ptr, std::size_t len) noexcept {"],
   [.lit c!"void cxxbridge1$unique_ptr$std$string$null(std::unique_ptr<std::string> *ptr) noexcept {"],
   [.lit c!"void cxxbridge1$unique_ptr$std$string$raw(std::unique_ptr<std::string> *ptr, std::string *raw) noexcept {"],
   [.lit c!"const std::string *cxxbridge1$unique_ptr$std$string$get(const std::unique_ptr<std::string> &ptr) noexcept {"],
   [.lit c!"std::string *cxxbridge1$unique_ptr$std$string$release(std::unique_ptr<std::string> &ptr) noexcept {"],
   [.lit c!"void cxxbridge1$unique_ptr$std$string$drop(std::unique_ptr<std::string> *ptr) noexcept {"],
   [.lit c!"std::vector<", .inner, .lit c!"> *cxxbridge1$std$vector$", .inst, .lit c!"$new() noexcept {"],
   [.lit c!"std::size_t cxxbridge1$std$vector$", .inst, .lit c!"$size(const std::vector<", .inner, .lit c!"> &s) noexcept {"],
   [.inner, .lit c!" *cxxbridge1$std$vector$", .inst, .lit c!"$get_unchecked(std::vector<", .inner, .lit c!"> *s, std::size_t pos) noexcept {"],
   [.lit c!"void cxxbridge1$unique_ptr$std$vector$", .inst, .lit c!"$null(std::unique_ptr<std::vector<", .inner, .lit c!">> *ptr) noexcept {"],
   [.lit c!"void cxxbridge1$unique_ptr$std$vector$", .inst, .lit c!"$raw(std::unique_ptr<std::vector<", .inner, .lit c!">> *ptr, std::vector<", .inner, .lit c!"> *raw) noexcept {"],
   [.lit c!"const std::vector<", .inner, .lit c!"> *cxxbridge1$unique_ptr$std$vector$", .inst, .lit c!"$get(const std::unique_ptr<std::vector<", .inner, .lit c!">> &ptr) noexcept {"],
   [.lit c!"std::vector<", .inner, .lit c!"> *cxxbridge1$unique_ptr$std$vector$", .inst, .lit c!"$release(std::unique_ptr<std::vector<", .inner, .lit c!">> &ptr) noexcept {"],
   [.lit c!"void cxxbridge1$unique_ptr$std$vector$", .inst, .lit c!"$drop(std::unique_ptr<std::vector<", .inner, .lit c!">> *ptr) noexcept {"],
   [.lit c!"void cxxbridge1$std$vector$", .inst, .lit c!"$push_back(std::vector<", .inner, .lit c!"> *v, ", .inner, .lit c!" *value) noexcept {"],
   [.lit c!"void cxxbridge1$std$vector$", .inst, .lit c!"$pop_back(std::vector<", .inner, .lit c!"> *v, ", .inner, .lit c!" *out) noexcept {"],
   [.lit c!"void cxxbridge1$std$shared_ptr$", .inst, .lit c!"$null(std::shared_ptr<", .inner, .lit c!"> *ptr) noexcept {"],
   [.inner, .lit c!" *cxxbridge1$std$shared_ptr$", .inst, .lit c!"$uninit(std::shared_ptr<", .inner, .lit c!"> *ptr) noexcept {"],
   [.lit c!"void cxxbridge1$std$shared_ptr$", .inst, .lit c!"$clone(const std::shared_ptr<", .inner, .lit c!"> &self, std::shared_ptr<", .inner, .lit c!"> *ptr) noexcept {"],
   [.lit c!"const ", .inner, .lit c!" *cxxbridge1$std$shared_ptr$", .inst, .lit c!"$get(const std::shared_ptr<", .inner, .lit c!"> &self) noexcept {"],
   [.lit c!"void cxxbridge1$std$shared_ptr$", .inst, .lit c!"$drop(const std::shared_ptr<", .inner, .lit c!"> *self) noexcept {"],
   [.lit c!"void cxxbridge1$std$weak_ptr$", .inst, .lit c!"$null(std::weak_ptr<", .inner, .lit c!"> *ptr) noexcept {"],
   [.lit c!"void cxxbridge1$std$weak_ptr$", .inst, .lit c!"$clone(const std::weak_ptr<", .inner, .lit c!"> &self, std::weak_ptr<", .inner, .lit c!"> *ptr) noexcept {"],
   [.lit c!"void cxxbridge1$std$weak_ptr$", .inst, .lit c!"$downgrade(const std::shared_ptr<", .inner, .lit c!"> &shared, std::weak_ptr<", .inner, .lit c!"> *weak) noexcept {"],
   [.lit c!"void cxxbridge1$std$weak_ptr$", .inst, .lit c!"$upgrade(const std::weak_ptr<", .inner, .lit c!"> &weak, std::shared_ptr<", .inner, .lit c!"> *shared) noexcept {"],
   [.lit c!"void cxxbridge1$std$weak_ptr$", .inst, .lit c!"$drop(const std::weak_ptr<", .inner, .lit c!"> *self) noexcept {"]]

def heads : List Head := generatedHeads ++ runtimeHeads

/-- The names of the C++ functions that Rust imports, before and behind the name of the instance: macro/src/expand.rs:1454-1460
(unique pointers), 1551-1556 (shared pointers), 1630-1635 (weak pointers), 1706-1720 (vectors); src/cxx_string.rs:18-30,
src/cxx_vector.rs:395-475, src/result.rs:46, src/shared_ptr.rs:259-287, src/unique_ptr.rs:408-416, src/weak_ptr.rs:122-150. -/
def imports : List (List Char × Option (List Char)) :=
  [(c!"cxxbridge1$unique_ptr$", some c!"$null"), (c!"cxxbridge1$unique_ptr$", some c!"$uninit"),
   (c!"cxxbridge1$unique_ptr$", some c!"$raw"), (c!"cxxbridge1$unique_ptr$", some c!"$get"),
   (c!"cxxbridge1$unique_ptr$", some c!"$release"), (c!"cxxbridge1$unique_ptr$", some c!"$drop"),
   (c!"cxxbridge1$shared_ptr$", some c!"$null"), (c!"cxxbridge1$shared_ptr$", some c!"$uninit"),
   (c!"cxxbridge1$shared_ptr$", some c!"$clone"), (c!"cxxbridge1$shared_ptr$", some c!"$get"),
   (c!"cxxbridge1$shared_ptr$", some c!"$drop"), (c!"cxxbridge1$weak_ptr$", some c!"$null"),
   (c!"cxxbridge1$weak_ptr$", some c!"$clone"), (c!"cxxbridge1$weak_ptr$", some c!"$downgrade"),
   (c!"cxxbridge1$weak_ptr$", some c!"$upgrade"), (c!"cxxbridge1$weak_ptr$", some c!"$drop"),
   (c!"cxxbridge1$std$vector$", some c!"$new"), (c!"cxxbridge1$std$vector$", some c!"$size"),
   (c!"cxxbridge1$std$vector$", some c!"$get_unchecked"), (c!"cxxbridge1$std$vector$", some c!"$push_back"),
   (c!"cxxbridge1$std$vector$", some c!"$pop_back"), (c!"cxxbridge1$unique_ptr$std$vector$", some c!"$null"),
   (c!"cxxbridge1$unique_ptr$std$vector$", some c!"$raw"), (c!"cxxbridge1$unique_ptr$std$vector$", some c!"$get"),
   (c!"cxxbridge1$unique_ptr$std$vector$", some c!"$release"), (c!"cxxbridge1$unique_ptr$std$vector$", some c!"$drop"),
   (c!"cxxbridge1$cxx_string$init", none), (c!"cxxbridge1$cxx_string$destroy", none), (c!"cxxbridge1$cxx_string$data", none),
   (c!"cxxbridge1$cxx_string$length", none), (c!"cxxbridge1$cxx_string$clear", none),
   (c!"cxxbridge1$cxx_string$reserve_total", none), (c!"cxxbridge1$cxx_string$push", none),
   (c!"cxxbridge1$std$vector$", some c!"$push_back"), (c!"cxxbridge1$std$vector$", some c!"$pop_back"),
   (c!"cxxbridge1$std$vector$", some c!"$new"), (c!"cxxbridge1$std$vector$", some c!"$size"),
   (c!"cxxbridge1$std$vector$", some c!"$get_unchecked"), (c!"cxxbridge1$unique_ptr$std$vector$", some c!"$null"),
   (c!"cxxbridge1$unique_ptr$std$vector$", some c!"$raw"), (c!"cxxbridge1$unique_ptr$std$vector$", some c!"$get"),
   (c!"cxxbridge1$unique_ptr$std$vector$", some c!"$release"), (c!"cxxbridge1$unique_ptr$std$vector$", some c!"$drop"),
   (c!"cxxbridge1$error", none), (c!"cxxbridge1$std$shared_ptr$", some c!"$null"), (c!"cxxbridge1$std$shared_ptr$", some c!"$uninit"),
   (c!"cxxbridge1$std$shared_ptr$", some c!"$clone"), (c!"cxxbridge1$std$shared_ptr$", some c!"$get"),
   (c!"cxxbridge1$std$shared_ptr$", some c!"$drop"), (c!"cxxbridge1$unique_ptr$std$string$null", none),
   (c!"cxxbridge1$unique_ptr$std$string$raw", none), (c!"cxxbridge1$unique_ptr$std$string$get", none),
   (c!"cxxbridge1$unique_ptr$std$string$release", none), (c!"cxxbridge1$unique_ptr$std$string$drop", none),
   (c!"cxxbridge1$std$weak_ptr$", some c!"$null"), (c!"cxxbridge1$std$weak_ptr$", some c!"$clone"),
   (c!"cxxbridge1$std$weak_ptr$", some c!"$downgrade"), (c!"cxxbridge1$std$weak_ptr$", some c!"$upgrade"),
   (c!"cxxbridge1$std$weak_ptr$", some c!"$drop")]

/-- The name of an import for an instance. -/
def importName (i : List Char × Option (List Char)) (inst : List Char) : List Char :=
  match i.2 with
  | some q => i.1 ++ inst ++ q
  | none => i.1

/-- Whether a function with this head is declared `noexcept`. -/
def isNoexcept (text : List Char) : Bool := c!") noexcept {".isSuffixOf text

/-! ### All of them are `noexcept`, and every import is one of them -/

/-- The last piece of a head is a text that ends so. -/
def endsSo (h : Head) : Bool :=
  match h.getLast? with
  | some (.lit s) => isNoexcept s
  | _ => false

theorem heads_end : heads.all endsSo = true := by decide +kernel

/-- **C89**.  Every C++ function that the runtime library has, or that is written for an instance, for Rust to call is declared
`noexcept`, whatever the type is. -/
theorem support_noexcept {h : Head} (hh : h ∈ heads) (inst inner : List Char) :
    ∃ pre, h.text inst inner = pre ++ c!") noexcept {" := by
  have := List.all_eq_true.1 heads_end h hh
  unfold endsSo at this
  split at this
  · next s hs =>
    obtain ⟨l, rfl⟩ := List.getLast?_eq_some_iff.1 hs
    simp only [isNoexcept, List.isSuffixOf_iff_suffix] at this
    obtain ⟨p, hp⟩ := this
    refine ⟨l.flatMap (Piece.text inst inner) ++ p, ?_⟩
    simp only [Head.text, List.flatMap_append, List.flatMap_cons, List.flatMap_nil, List.append_nil, Piece.text, ← hp,
      List.append_assoc]
  · cases this

/-- The name of the function is `name` there, in front of the parameters. -/
def Declares (text name : List Char) : Prop :=
  ∃ pre c post, text = pre ++ c :: name ++ '(' :: post ∧ (c = ' ' ∨ c = '*')

/-- Whether `w` is part of a text. -/
def isPart (w : List Char) : List Char → Bool
  | [] => w.isEmpty
  | x :: l => w.isPrefixOf (x :: l) || isPart w l

theorem isPart_of {w : List Char} : ∀ {l : List Char}, isPart w l = true → ∃ pre post, l = pre ++ w ++ post
  | [], h => ⟨[], [], by simpa [isPart] using Eq.symm (List.isEmpty_iff.1 h)⟩
  | x :: l, h => by
    simp only [isPart, Bool.or_eq_true, List.isPrefixOf_iff_prefix] at h
    rcases h with ⟨post, h⟩ | h
    · exact ⟨[], post, by simpa using h.symm⟩
    · obtain ⟨pre, post, h⟩ := isPart_of h
      exact ⟨x :: pre, post, by rw [h]; rfl⟩

/-- The head, or what is left of it, has the name. -/
def namedSo (i : List Char × Option (List Char)) : Head → Bool
  | [] => false
  | p :: rest =>
    (match p, rest, i.2 with
    | .lit a, .inst :: .lit b :: _, some q =>
      ((' ' :: i.1).isSuffixOf a || ('*' :: i.1).isSuffixOf a) &&
        (q ++ ['(']).isPrefixOf b
    | .lit a, _, none => isPart (' ' :: i.1 ++ ['(']) a || isPart ('*' :: i.1 ++ ['(']) a
    | _, _, _ => false) || namedSo i rest

theorem Declares.push {t name : List Char} (h : Declares t name) (pre : List Char) : Declares (pre ++ t) name := by
  obtain ⟨p, c, q, rfl, h⟩ := h
  exact ⟨pre ++ p, c, q, by simp [List.append_assoc], h⟩

theorem named_declares {i : List Char × Option (List Char)} (inst inner : List Char) : ∀ {h : Head}, namedSo i h = true →
    Declares (h.text inst inner) (importName i inst)
  | [], h => by simp [namedSo] at h
  | p :: rest, h => by
    simp only [namedSo, Bool.or_eq_true] at h
    rcases h with h | h
    · split at h
      · next a b l q hq =>
        simp only [Bool.and_eq_true, Bool.or_eq_true, List.isSuffixOf_iff_suffix, List.isPrefixOf_iff_prefix] at h
        obtain ⟨h, z, hz⟩ := h
        have key (c : Char) (hc : c = ' ' ∨ c = '*') (h : c :: i.1 <:+ a) :
            Declares (Head.text (.lit a :: .inst :: .lit b :: l) inst inner) (importName i inst) := by
          obtain ⟨y, hy⟩ := h
          refine ⟨y, c, z ++ l.flatMap (Piece.text inst inner), ?_, hc⟩
          simp only [Head.text, List.flatMap_cons, Piece.text, ← hy, ← hz, importName, hq]
          simp [List.append_assoc]
        rcases h with h | h
        · exact key _ (.inl rfl) h
        · exact key _ (.inr rfl) h
      · next hq =>
        simp only [Bool.or_eq_true] at h
        have key (a : List Char) (l : Head) (c : Char) (hc : c = ' ' ∨ c = '*') (h : isPart (c :: i.1 ++ ['(']) a = true) :
            Declares (Head.text (.lit a :: l) inst inner) (importName i inst) := by
          obtain ⟨y, z, hy⟩ := isPart_of h
          refine ⟨y, c, z ++ l.flatMap (Piece.text inst inner), ?_, hc⟩
          simp only [Head.text, List.flatMap_cons, Piece.text, hy, importName, hq]
          simp [List.append_assoc]
        rcases h with h | h
        · exact key _ _ _ (.inl rfl) h
        · exact key _ _ _ (.inr rfl) h
      · cases h
    · exact (named_declares inst inner h).push _

theorem imports_named : (imports.all fun i => heads.any (namedSo i)) = true := by decide +kernel

/-- **C89**.  Every function of C++ that Rust imports, for any instance, is one of them: a function of that name is written or is
in the runtime library. -/
theorem imports_declared {i : List Char × Option (List Char)} (hi : i ∈ imports) (inst inner : List Char) :
    ∃ h ∈ heads, Declares (h.text inst inner) (importName i inst) := by
  obtain ⟨h, hh, hn⟩ := List.any_eq_true.1 (List.all_eq_true.1 imports_named i hi)
  exact ⟨h, hh, named_declares inst inner hn⟩

end Verif.Throw
