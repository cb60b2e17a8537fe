import Verif.Header.Line
/-!
# include/cxx.h

Written by tools/header.py.  The text of the file is `textOf layout`.
-/
namespace Verif.Header.Cxx

open Verif.Header

/-- include/cxx.h:1-40. -/
noncomputable def text0 : List Chunk :=
  [.text b!"#pragma once",
   .text b!"#include <algorithm>",
   .text b!"#include <array>",
   .text b!"#include <cassert>",
   .text b!"#include <cstddef>",
   .text b!"#include <cstdint>",
   .text b!"#include <exception>",
   .text b!"#include <initializer_list>",
   .text b!"#include <iosfwd>",
   .text b!"#include <iterator>",
   .text b!"#include <new>",
   .text b!"#include <stdexcept>",
   .text b!"#include <string>",
   .text b!"#include <type_traits>",
   .text b!"#include <utility>",
   .text b!"#include <vector>",
   .text b!"#if defined(_WIN32)",
   .text b!"#include <basetsd.h>",
   .text b!"#else",
   .text b!"#include <sys/types.h>",
   .text b!"#endif",
   .text b!"",
   .text b!"#if __cplusplus >= 201703L",
   .text b!"#include <string_view>",
   .text b!"#endif",
   .text b!"",
   .text b!"#if __cplusplus >= 202002L",
   .text b!"#include <ranges>",
   .text b!"#endif",
   .text b!"",
   .text b!"namespace rust {",
   .text b!"inline namespace cxxbridge1 {",
   .text b!"",
   .text b!"struct unsafe_bitcopy_t;",
   .text b!"",
   .text b!"namespace {",
   .text b!"template <typename T>",
   .text b!"class impl;",
   .text b!"}",
   .text b!""]

/-- include/cxx.h:41-115. -/
noncomputable def section1 : Chunk :=
  .guarded b!"CXXBRIDGE1_RUST_STRING"
  [b!"#define CXXBRIDGE1_RUST_STRING",
   b!"// https://cxx.rs/binding/string.html",
   b!"class String final {",
   b!"public:",
   b!"  String() noexcept;",
   b!"  String(const String &) noexcept;",
   b!"  String(String &&) noexcept;",
   b!"  ~String() noexcept;",
   b!"",
   b!"  String(const std::string &);",
   b!"  String(const char *);",
   b!"  String(const char *, std::size_t);",
   b!"  String(const char16_t *);",
   b!"  String(const char16_t *, std::size_t);",
   b!"#ifdef __cpp_char8_t",
   b!"  String(const char8_t *s);",
   b!"  String(const char8_t *s, std::size_t len);",
   b!"#endif",
   b!"",
   b!"  // Replace invalid Unicode data with the replacement character (U+FFFD).",
   b!"  static String lossy(const std::string &) noexcept;",
   b!"  static String lossy(const char *) noexcept;",
   b!"  static String lossy(const char *, std::size_t) noexcept;",
   b!"  static String lossy(const char16_t *) noexcept;",
   b!"  static String lossy(const char16_t *, std::size_t) noexcept;",
   b!"",
   b!"  String &operator=(const String &) & noexcept;",
   b!"  String &operator=(String &&) & noexcept;",
   b!"",
   b!"  explicit operator std::string() const;",
   b!"",
   b!"  // Note: no null terminator.",
   b!"  const char *data() const noexcept;",
   b!"  std::size_t size() const noexcept;",
   b!"  std::size_t length() const noexcept;",
   b!"  bool empty() const noexcept;",
   b!"",
   b!"  const char *c_str() noexcept;",
   b!"",
   b!"  std::size_t capacity() const noexcept;",
   b!"  void reserve(size_t new_cap) noexcept;",
   b!"",
   b!"  using iterator = char *;",
   b!"  iterator begin() noexcept;",
   b!"  iterator end() noexcept;",
   b!"",
   b!"  using const_iterator = const char *;",
   b!"  const_iterator begin() const noexcept;",
   b!"  const_iterator end() const noexcept;",
   b!"  const_iterator cbegin() const noexcept;",
   b!"  const_iterator cend() const noexcept;",
   b!"",
   b!"  bool operator==(const String &) const noexcept;",
   b!"  bool operator!=(const String &) const noexcept;",
   b!"  bool operator<(const String &) const noexcept;",
   b!"  bool operator<=(const String &) const noexcept;",
   b!"  bool operator>(const String &) const noexcept;",
   b!"  bool operator>=(const String &) const noexcept;",
   b!"",
   b!"  void swap(String &) noexcept;",
   b!"",
   b!"  // Internal API only intended for the cxxbridge code generator.",
   b!"  String(unsafe_bitcopy_t, const String &) noexcept;",
   b!"",
   b!"private:",
   b!"  struct lossy_t;",
   b!"  String(lossy_t, const char *, std::size_t) noexcept;",
   b!"  String(lossy_t, const char16_t *, std::size_t) noexcept;",
   b!"  friend void swap(String &lhs, String &rhs) noexcept { lhs.swap(rhs); }",
   b!"",
   b!"  // Size and alignment statically verified by rust_string.rs.",
   b!"  std::array<std::uintptr_t, 3> repr;",
   b!"};"]

/-- include/cxx.h:116-116. -/
noncomputable def text2 : List Chunk :=
  [.text b!""]

/-- include/cxx.h:117-168. -/
noncomputable def section3 : Chunk :=
  .guarded b!"CXXBRIDGE1_RUST_STR"
  [b!"#define CXXBRIDGE1_RUST_STR",
   b!"// https://cxx.rs/binding/str.html",
   b!"class Str final {",
   b!"public:",
   b!"  Str() noexcept;",
   b!"  Str(const String &) noexcept;",
   b!"  Str(const std::string &);",
   b!"  Str(const char *);",
   b!"  Str(const char *, std::size_t);",
   b!"",
   b!"  Str &operator=(const Str &) & noexcept = default;",
   b!"",
   b!"  explicit operator std::string() const;",
   b!"#if __cplusplus >= 201703L",
   b!"  explicit operator std::string_view() const;",
   b!"#endif",
   b!"",
   b!"  // Note: no null terminator.",
   b!"  const char *data() const noexcept;",
   b!"  std::size_t size() const noexcept;",
   b!"  std::size_t length() const noexcept;",
   b!"  bool empty() const noexcept;",
   b!"",
   b!"  // Important in order for System V ABI to pass in registers.",
   b!"  Str(const Str &) noexcept = default;",
   b!"  ~Str() noexcept = default;",
   b!"",
   b!"  using iterator = const char *;",
   b!"  using const_iterator = const char *;",
   b!"  const_iterator begin() const noexcept;",
   b!"  const_iterator end() const noexcept;",
   b!"  const_iterator cbegin() const noexcept;",
   b!"  const_iterator cend() const noexcept;",
   b!"",
   b!"  bool operator==(const Str &) const noexcept;",
   b!"  bool operator!=(const Str &) const noexcept;",
   b!"  bool operator<(const Str &) const noexcept;",
   b!"  bool operator<=(const Str &) const noexcept;",
   b!"  bool operator>(const Str &) const noexcept;",
   b!"  bool operator>=(const Str &) const noexcept;",
   b!"",
   b!"  void swap(Str &) noexcept;",
   b!"",
   b!"private:",
   b!"  class uninit;",
   b!"  Str(uninit) noexcept;",
   b!"  friend impl<Str>;",
   b!"",
   b!"  std::array<std::uintptr_t, 2> repr;",
   b!"};"]

/-- include/cxx.h:169-169. -/
noncomputable def text4 : List Chunk :=
  [.text b!""]

/-- include/cxx.h:170-286. -/
noncomputable def section5 : Chunk :=
  .guarded b!"CXXBRIDGE1_RUST_SLICE"
  [b!"namespace detail {",
   b!"template <bool>",
   b!"struct copy_assignable_if {};",
   b!"",
   b!"template <>",
   b!"struct copy_assignable_if<false> {",
   b!"  copy_assignable_if() noexcept = default;",
   b!"  copy_assignable_if(const copy_assignable_if &) noexcept = default;",
   b!"  copy_assignable_if &operator=(const copy_assignable_if &) & noexcept = delete;",
   b!"  copy_assignable_if &operator=(copy_assignable_if &&) & noexcept = default;",
   b!"};",
   b!"} // namespace detail",
   b!"",
   b!"// https://cxx.rs/binding/slice.html",
   b!"template <typename T>",
   b!"class Slice final",
   b!"    : private detail::copy_assignable_if<std::is_const<T>::value> {",
   b!"public:",
   b!"  using value_type = T;",
   b!"",
   b!"  Slice() noexcept;",
   b!"  Slice(T *, std::size_t count) noexcept;",
   b!"",
   b!"  template <typename C>",
   b!"  explicit Slice(C &c) : Slice(c.data(), c.size()) {}",
   b!"",
   b!"  Slice &operator=(const Slice<T> &) & noexcept = default;",
   b!"  Slice &operator=(Slice<T> &&) & noexcept = default;",
   b!"",
   b!"  T *data() const noexcept;",
   b!"  std::size_t size() const noexcept;",
   b!"  std::size_t length() const noexcept;",
   b!"  bool empty() const noexcept;",
   b!"",
   b!"  T &operator[](std::size_t n) const noexcept;",
   b!"  T &at(std::size_t n) const;",
   b!"  T &front() const noexcept;",
   b!"  T &back() const noexcept;",
   b!"",
   b!"  // Important in order for System V ABI to pass in registers.",
   b!"  Slice(const Slice<T> &) noexcept = default;",
   b!"  ~Slice() noexcept = default;",
   b!"",
   b!"  class iterator;",
   b!"  iterator begin() const noexcept;",
   b!"  iterator end() const noexcept;",
   b!"",
   b!"  void swap(Slice &) noexcept;",
   b!"",
   b!"private:",
   b!"  class uninit;",
   b!"  Slice(uninit) noexcept;",
   b!"  friend impl<Slice>;",
   b!"  friend void sliceInit(void *, const void *, std::size_t) noexcept;",
   b!"  friend void *slicePtr(const void *) noexcept;",
   b!"  friend std::size_t sliceLen(const void *) noexcept;",
   b!"",
   b!"  std::array<std::uintptr_t, 2> repr;",
   b!"};",
   b!"",
   b!"#ifdef __cpp_deduction_guides",
   b!"template <typename C>",
   b!"explicit Slice(C &c)",
   b!"    -> Slice<std::remove_reference_t<decltype(*std::declval<C>().data())>>;",
   b!"#endif // __cpp_deduction_guides",
   b!"",
   b!"template <typename T>",
   b!"class Slice<T>::iterator final {",
   b!"public:",
   b!"#if __cplusplus >= 202002L",
   b!"  using iterator_category = std::contiguous_iterator_tag;",
   b!"#else",
   b!"  using iterator_category = std::random_access_iterator_tag;",
   b!"#endif",
   b!"  using value_type = T;",
   b!"  using difference_type = std::ptrdiff_t;",
   b!"  using pointer = typename std::add_pointer<T>::type;",
   b!"  using reference = typename std::add_lvalue_reference<T>::type;",
   b!"",
   b!"  reference operator*() const noexcept;",
   b!"  pointer operator->() const noexcept;",
   b!"  reference operator[](difference_type) const noexcept;",
   b!"",
   b!"  iterator &operator++() noexcept;",
   b!"  iterator operator++(int) noexcept;",
   b!"  iterator &operator--() noexcept;",
   b!"  iterator operator--(int) noexcept;",
   b!"",
   b!"  iterator &operator+=(difference_type) noexcept;",
   b!"  iterator &operator-=(difference_type) noexcept;",
   b!"  iterator operator+(difference_type) const noexcept;",
   b!"  friend inline iterator operator+(difference_type lhs, iterator rhs) noexcept {",
   b!"    return rhs + lhs;",
   b!"  }",
   b!"  iterator operator-(difference_type) const noexcept;",
   b!"  difference_type operator-(const iterator &) const noexcept;",
   b!"",
   b!"  bool operator==(const iterator &) const noexcept;",
   b!"  bool operator!=(const iterator &) const noexcept;",
   b!"  bool operator<(const iterator &) const noexcept;",
   b!"  bool operator<=(const iterator &) const noexcept;",
   b!"  bool operator>(const iterator &) const noexcept;",
   b!"  bool operator>=(const iterator &) const noexcept;",
   b!"",
   b!"private:",
   b!"  friend class Slice;",
   b!"  void *pos;",
   b!"  std::size_t stride;",
   b!"};",
   b!"",
   b!"#if __cplusplus >= 202002L",
   b!"static_assert(std::ranges::contiguous_range<rust::Slice<const uint8_t>>);",
   b!"static_assert(std::contiguous_iterator<rust::Slice<const uint8_t>::iterator>);",
   b!"#endif",
   b!""]

/-- include/cxx.h:287-287. -/
noncomputable def text6 : List Chunk :=
  [.text b!""]

/-- include/cxx.h:288-335. -/
noncomputable def section7 : Chunk :=
  .guarded b!"CXXBRIDGE1_RUST_BOX"
  [b!"// https://cxx.rs/binding/box.html",
   b!"template <typename T>",
   b!"class Box final {",
   b!"public:",
   b!"  using element_type = T;",
   b!"  using const_pointer =",
   b!"      typename std::add_pointer<typename std::add_const<T>::type>::type;",
   b!"  using pointer = typename std::add_pointer<T>::type;",
   b!"",
   b!"  Box() = delete;",
   b!"  Box(Box &&) noexcept;",
   b!"  ~Box() noexcept;",
   b!"",
   b!"  explicit Box(const T &);",
   b!"  explicit Box(T &&);",
   b!"",
   b!"  Box &operator=(Box &&) & noexcept;",
   b!"",
   b!"  const T *operator->() const noexcept;",
   b!"  const T &operator*() const noexcept;",
   b!"  T *operator->() noexcept;",
   b!"  T &operator*() noexcept;",
   b!"",
   b!"  template <typename... Fields>",
   b!"  static Box in_place(Fields &&...);",
   b!"",
   b!"  void swap(Box &) noexcept;",
   b!"",
   b!"  // Important: requires that `raw` came from an into_raw call. Do not pass a",
   b!"  // pointer from `new` or any other source.",
   b!"  static Box from_raw(T *) noexcept;",
   b!"",
   b!"  T *into_raw() noexcept;",
   b!"",
   b!"  /* Deprecated */ using value_type = element_type;",
   b!"",
   b!"private:",
   b!"  class uninit;",
   b!"  class allocation;",
   b!"  Box(uninit) noexcept;",
   b!"  void drop() noexcept;",
   b!"",
   b!"  friend void swap(Box &lhs, Box &rhs) noexcept { lhs.swap(rhs); }",
   b!"",
   b!"  T *ptr;",
   b!"};"]

/-- include/cxx.h:336-336. -/
noncomputable def text8 : List Chunk :=
  [.text b!""]

/-- include/cxx.h:337-402. -/
noncomputable def section9 : Chunk :=
  .guarded b!"CXXBRIDGE1_RUST_VEC"
  [b!"// https://cxx.rs/binding/vec.html",
   b!"template <typename T>",
   b!"class Vec final {",
   b!"public:",
   b!"  using value_type = T;",
   b!"",
   b!"  Vec() noexcept;",
   b!"  Vec(std::initializer_list<T>);",
   b!"  Vec(const Vec &);",
   b!"  Vec(Vec &&) noexcept;",
   b!"  ~Vec() noexcept;",
   b!"",
   b!"  Vec &operator=(Vec &&) & noexcept;",
   b!"  Vec &operator=(const Vec &) &;",
   b!"",
   b!"  std::size_t size() const noexcept;",
   b!"  bool empty() const noexcept;",
   b!"  const T *data() const noexcept;",
   b!"  T *data() noexcept;",
   b!"  std::size_t capacity() const noexcept;",
   b!"",
   b!"  const T &operator[](std::size_t n) const noexcept;",
   b!"  const T &at(std::size_t n) const;",
   b!"  const T &front() const noexcept;",
   b!"  const T &back() const noexcept;",
   b!"",
   b!"  T &operator[](std::size_t n) noexcept;",
   b!"  T &at(std::size_t n);",
   b!"  T &front() noexcept;",
   b!"  T &back() noexcept;",
   b!"",
   b!"  void reserve(std::size_t new_cap);",
   b!"  void push_back(const T &value);",
   b!"  void push_back(T &&value);",
   b!"  template <typename... Args>",
   b!"  void emplace_back(Args &&...args);",
   b!"  void truncate(std::size_t len);",
   b!"  void clear();",
   b!"",
   b!"  using iterator = typename Slice<T>::iterator;",
   b!"  iterator begin() noexcept;",
   b!"  iterator end() noexcept;",
   b!"",
   b!"  using const_iterator = typename Slice<const T>::iterator;",
   b!"  const_iterator begin() const noexcept;",
   b!"  const_iterator end() const noexcept;",
   b!"  const_iterator cbegin() const noexcept;",
   b!"  const_iterator cend() const noexcept;",
   b!"",
   b!"  void swap(Vec &) noexcept;",
   b!"",
   b!"  // Internal API only intended for the cxxbridge code generator.",
   b!"  Vec(unsafe_bitcopy_t, const Vec &) noexcept;",
   b!"",
   b!"private:",
   b!"  void reserve_total(std::size_t new_cap) noexcept;",
   b!"  void set_len(std::size_t len) noexcept;",
   b!"  void drop() noexcept;",
   b!"",
   b!"  friend void swap(Vec &lhs, Vec &rhs) noexcept { lhs.swap(rhs); }",
   b!"",
   b!"  // Size and alignment statically verified by rust_vec.rs.",
   b!"  std::array<std::uintptr_t, 3> repr;",
   b!"};"]

/-- include/cxx.h:403-403. -/
noncomputable def text10 : List Chunk :=
  [.text b!""]

/-- include/cxx.h:404-419. -/
noncomputable def section11 : Chunk :=
  .guarded b!"CXXBRIDGE1_RUST_FN"
  [b!"// https://cxx.rs/binding/fn.html",
   b!"template <typename Signature>",
   b!"class Fn;",
   b!"",
   b!"template <typename Ret, typename... Args>",
   b!"class Fn<Ret(Args...)> final {",
   b!"public:",
   b!"  Ret operator()(Args... args) const noexcept;",
   b!"  Fn operator*() const noexcept;",
   b!"",
   b!"private:",
   b!"  Ret (*trampoline)(Args..., void *fn) noexcept;",
   b!"  void *fn;",
   b!"};"]

/-- include/cxx.h:420-420. -/
noncomputable def text12 : List Chunk :=
  [.text b!""]

/-- include/cxx.h:421-441. -/
noncomputable def section13 : Chunk :=
  .guarded b!"CXXBRIDGE1_RUST_ERROR"
  [b!"#define CXXBRIDGE1_RUST_ERROR",
   b!"// https://cxx.rs/binding/result.html",
   b!"class Error final : public std::exception {",
   b!"public:",
   b!"  Error(const Error &);",
   b!"  Error(Error &&) noexcept;",
   b!"  ~Error() noexcept override;",
   b!"",
   b!"  Error &operator=(const Error &) &;",
   b!"  Error &operator=(Error &&) & noexcept;",
   b!"",
   b!"  const char *what() const noexcept override;",
   b!"",
   b!"private:",
   b!"  Error() noexcept = default;",
   b!"  friend impl<Error>;",
   b!"  const char *msg;",
   b!"  std::size_t len;",
   b!"};"]

/-- include/cxx.h:442-442. -/
noncomputable def text14 : List Chunk :=
  [.text b!""]

/-- include/cxx.h:443-450. -/
noncomputable def section15 : Chunk :=
  .guarded b!"CXXBRIDGE1_RUST_ISIZE"
  [b!"#define CXXBRIDGE1_RUST_ISIZE",
   b!"#if defined(_WIN32)",
   b!"using isize = SSIZE_T;",
   b!"#else",
   b!"using isize = ssize_t;",
   b!"#endif"]

/-- include/cxx.h:451-454. -/
noncomputable def text16 : List Chunk :=
  [.text b!"",
   .text b!"std::ostream &operator<<(std::ostream &, const String &);",
   .text b!"std::ostream &operator<<(std::ostream &, const Str &);",
   .text b!""]

/-- include/cxx.h:455-464. -/
noncomputable def section17 : Chunk :=
  .guarded b!"CXXBRIDGE1_RUST_OPAQUE"
  [b!"#define CXXBRIDGE1_RUST_OPAQUE",
   b!"// Base class of generated opaque Rust types.",
   b!"class Opaque {",
   b!"public:",
   b!"  Opaque() = delete;",
   b!"  Opaque(const Opaque &) = delete;",
   b!"  ~Opaque() = delete;",
   b!"};"]

/-- include/cxx.h:465-523. -/
noncomputable def text18 : List Chunk :=
  [.text b!"",
   .text b!"template <typename T>",
   .text b!"std::size_t size_of();",
   .text b!"template <typename T>",
   .text b!"std::size_t align_of();",
   .text b!"",
   .text b!"// IsRelocatable<T> is used in assertions that a C++ type passed by value",
   .text b!"// between Rust and C++ is soundly relocatable by Rust.",
   .text b!"//",
   .text b!"// There may be legitimate reasons to opt out of the check for support of types",
   .text b!"// that the programmer knows are soundly Rust-movable despite not being",
   .text b!"// recognized as such by the C++ type system due to a move constructor or",
   .text b!"// destructor. To opt out of the relocatability check, do either of the",
   .text b!"// following things in any header used by `include!` in the bridge.",
   .text b!"//",
   .text b!"//      --- if you define the type:",
   .text b!"//      struct MyType {",
   .text b!"//        ...",
   .text b!"//    +   using IsRelocatable = std::true_type;",
   .text b!"//      };",
   .text b!"//",
   .text b!"//      --- otherwise:",
   .text b!"//    + template <>",
   .text b!"//    + struct rust::IsRelocatable<MyType> : std::true_type {};",
   .text b!"template <typename T>",
   .text b!"struct IsRelocatable;",
   .text b!"",
   .text b!"using u8 = std::uint8_t;",
   .text b!"using u16 = std::uint16_t;",
   .text b!"using u32 = std::uint32_t;",
   .text b!"using u64 = std::uint64_t;",
   .text b!"using usize = std::size_t; // see static asserts in cxx.cc",
   .text b!"using i8 = std::int8_t;",
   .text b!"using i16 = std::int16_t;",
   .text b!"using i32 = std::int32_t;",
   .text b!"using i64 = std::int64_t;",
   .text b!"using f32 = float;",
   .text b!"using f64 = double;",
   .text b!"",
   .text b!"// Snake case aliases for use in code that uses this style for type names.",
   .text b!"using string = String;",
   .text b!"using str = Str;",
   .text b!"template <typename T>",
   .text b!"using slice = Slice<T>;",
   .text b!"template <typename T>",
   .text b!"using box = Box<T>;",
   .text b!"template <typename T>",
   .text b!"using vec = Vec<T>;",
   .text b!"using error = Error;",
   .text b!"template <typename Signature>",
   .text b!"using fn = Fn<Signature>;",
   .text b!"template <typename T>",
   .text b!"using is_relocatable = IsRelocatable<T>;",
   .text b!"",
   .text b!"",
   .text b!"",
   .text b!"////////////////////////////////////////////////////////////////////////////////",
   .text b!"/// end public API, begin implementation details",
   .text b!""]

/-- include/cxx.h:524-528. -/
noncomputable def section19 : Chunk :=
  .guarded b!"CXXBRIDGE1_PANIC"
  [b!"#define CXXBRIDGE1_PANIC",
   b!"template <typename Exception>",
   b!"void panic [[noreturn]] (const char *msg);"]

/-- include/cxx.h:529-529. -/
noncomputable def text20 : List Chunk :=
  [.text b!""]

/-- include/cxx.h:530-541. -/
noncomputable def section21 : Chunk :=
  .guarded b!"CXXBRIDGE1_RUST_FN"
  [b!"#define CXXBRIDGE1_RUST_FN",
   b!"template <typename Ret, typename... Args>",
   b!"Ret Fn<Ret(Args...)>::operator()(Args... args) const noexcept {",
   b!"  return (*this->trampoline)(std::forward<Args>(args)..., this->fn);",
   b!"}",
   b!"",
   b!"template <typename Ret, typename... Args>",
   b!"Fn<Ret(Args...)> Fn<Ret(Args...)>::operator*() const noexcept {",
   b!"  return *this;",
   b!"}"]

/-- include/cxx.h:542-542. -/
noncomputable def text22 : List Chunk :=
  [.text b!""]

/-- include/cxx.h:543-548. -/
noncomputable def section23 : Chunk :=
  .guarded b!"CXXBRIDGE1_RUST_BITCOPY_T"
  [b!"#define CXXBRIDGE1_RUST_BITCOPY_T",
   b!"struct unsafe_bitcopy_t final {",
   b!"  explicit unsafe_bitcopy_t() = default;",
   b!"};"]

/-- include/cxx.h:549-549. -/
noncomputable def text24 : List Chunk :=
  [.text b!""]

/-- include/cxx.h:550-553. -/
noncomputable def section25 : Chunk :=
  .guarded b!"CXXBRIDGE1_RUST_BITCOPY"
  [b!"#define CXXBRIDGE1_RUST_BITCOPY",
   b!"constexpr unsafe_bitcopy_t unsafe_bitcopy{};"]

/-- include/cxx.h:554-554. -/
noncomputable def text26 : List Chunk :=
  [.text b!""]

/-- include/cxx.h:555-752. -/
noncomputable def section27 : Chunk :=
  .guarded b!"CXXBRIDGE1_RUST_SLICE"
  [b!"#define CXXBRIDGE1_RUST_SLICE",
   b!"template <typename T>",
   b!"Slice<T>::Slice() noexcept {",
   b!"  sliceInit(this, reinterpret_cast<void *>(align_of<T>()), 0);",
   b!"}",
   b!"",
   b!"template <typename T>",
   b!"Slice<T>::Slice(T *s, std::size_t count) noexcept {",
   b!"  assert(s != nullptr || count == 0);",
   b!"  sliceInit(this,",
   b!"            s == nullptr && count == 0",
   b!"                ? reinterpret_cast<void *>(align_of<T>())",
   b!"                : const_cast<typename std::remove_const<T>::type *>(s),",
   b!"            count);",
   b!"}",
   b!"",
   b!"template <typename T>",
   b!"T *Slice<T>::data() const noexcept {",
   b!"  return reinterpret_cast<T *>(slicePtr(this));",
   b!"}",
   b!"",
   b!"template <typename T>",
   b!"std::size_t Slice<T>::size() const noexcept {",
   b!"  return sliceLen(this);",
   b!"}",
   b!"",
   b!"template <typename T>",
   b!"std::size_t Slice<T>::length() const noexcept {",
   b!"  return this->size();",
   b!"}",
   b!"",
   b!"template <typename T>",
   b!"bool Slice<T>::empty() const noexcept {",
   b!"  return this->size() == 0;",
   b!"}",
   b!"",
   b!"template <typename T>",
   b!"T &Slice<T>::operator[](std::size_t n) const noexcept {",
   b!"  assert(n < this->size());",
   b!"  auto ptr = static_cast<char *>(slicePtr(this)) + size_of<T>() * n;",
   b!"  return *reinterpret_cast<T *>(ptr);",
   b!"}",
   b!"",
   b!"template <typename T>",
   b!"T &Slice<T>::at(std::size_t n) const {",
   b!"  if (n >= this->size()) {",
   b!"    panic<std::out_of_range>(\"rust::Slice index out of range\");",
   b!"  }",
   b!"  return (*this)[n];",
   b!"}",
   b!"",
   b!"template <typename T>",
   b!"T &Slice<T>::front() const noexcept {",
   b!"  assert(!this->empty());",
   b!"  return (*this)[0];",
   b!"}",
   b!"",
   b!"template <typename T>",
   b!"T &Slice<T>::back() const noexcept {",
   b!"  assert(!this->empty());",
   b!"  return (*this)[this->size() - 1];",
   b!"}",
   b!"",
   b!"template <typename T>",
   b!"typename Slice<T>::iterator::reference",
   b!"Slice<T>::iterator::operator*() const noexcept {",
   b!"  return *static_cast<T *>(this->pos);",
   b!"}",
   b!"",
   b!"template <typename T>",
   b!"typename Slice<T>::iterator::pointer",
   b!"Slice<T>::iterator::operator->() const noexcept {",
   b!"  return static_cast<T *>(this->pos);",
   b!"}",
   b!"",
   b!"template <typename T>",
   b!"typename Slice<T>::iterator::reference Slice<T>::iterator::operator[](",
   b!"    typename Slice<T>::iterator::difference_type n) const noexcept {",
   b!"  auto ptr = static_cast<char *>(this->pos) + this->stride * n;",
   b!"  return *reinterpret_cast<T *>(ptr);",
   b!"}",
   b!"",
   b!"template <typename T>",
   b!"typename Slice<T>::iterator &Slice<T>::iterator::operator++() noexcept {",
   b!"  this->pos = static_cast<char *>(this->pos) + this->stride;",
   b!"  return *this;",
   b!"}",
   b!"",
   b!"template <typename T>",
   b!"typename Slice<T>::iterator Slice<T>::iterator::operator++(int) noexcept {",
   b!"  auto ret = iterator(*this);",
   b!"  this->pos = static_cast<char *>(this->pos) + this->stride;",
   b!"  return ret;",
   b!"}",
   b!"",
   b!"template <typename T>",
   b!"typename Slice<T>::iterator &Slice<T>::iterator::operator--() noexcept {",
   b!"  this->pos = static_cast<char *>(this->pos) - this->stride;",
   b!"  return *this;",
   b!"}",
   b!"",
   b!"template <typename T>",
   b!"typename Slice<T>::iterator Slice<T>::iterator::operator--(int) noexcept {",
   b!"  auto ret = iterator(*this);",
   b!"  this->pos = static_cast<char *>(this->pos) - this->stride;",
   b!"  return ret;",
   b!"}",
   b!"",
   b!"template <typename T>",
   b!"typename Slice<T>::iterator &Slice<T>::iterator::operator+=(",
   b!"    typename Slice<T>::iterator::difference_type n) noexcept {",
   b!"  this->pos = static_cast<char *>(this->pos) + this->stride * n;",
   b!"  return *this;",
   b!"}",
   b!"",
   b!"template <typename T>",
   b!"typename Slice<T>::iterator &Slice<T>::iterator::operator-=(",
   b!"    typename Slice<T>::iterator::difference_type n) noexcept {",
   b!"  this->pos = static_cast<char *>(this->pos) - this->stride * n;",
   b!"  return *this;",
   b!"}",
   b!"",
   b!"template <typename T>",
   b!"typename Slice<T>::iterator Slice<T>::iterator::operator+(",
   b!"    typename Slice<T>::iterator::difference_type n) const noexcept {",
   b!"  auto ret = iterator(*this);",
   b!"  ret.pos = static_cast<char *>(this->pos) + this->stride * n;",
   b!"  return ret;",
   b!"}",
   b!"",
   b!"template <typename T>",
   b!"typename Slice<T>::iterator Slice<T>::iterator::operator-(",
   b!"    typename Slice<T>::iterator::difference_type n) const noexcept {",
   b!"  auto ret = iterator(*this);",
   b!"  ret.pos = static_cast<char *>(this->pos) - this->stride * n;",
   b!"  return ret;",
   b!"}",
   b!"",
   b!"template <typename T>",
   b!"typename Slice<T>::iterator::difference_type",
   b!"Slice<T>::iterator::operator-(const iterator &other) const noexcept {",
   b!"  auto diff = std::distance(static_cast<char *>(other.pos),",
   b!"                            static_cast<char *>(this->pos));",
   b!"  return diff / static_cast<typename Slice<T>::iterator::difference_type>(",
   b!"                    this->stride);",
   b!"}",
   b!"",
   b!"template <typename T>",
   b!"bool Slice<T>::iterator::operator==(const iterator &other) const noexcept {",
   b!"  return this->pos == other.pos;",
   b!"}",
   b!"",
   b!"template <typename T>",
   b!"bool Slice<T>::iterator::operator!=(const iterator &other) const noexcept {",
   b!"  return this->pos != other.pos;",
   b!"}",
   b!"",
   b!"template <typename T>",
   b!"bool Slice<T>::iterator::operator<(const iterator &other) const noexcept {",
   b!"  return this->pos < other.pos;",
   b!"}",
   b!"",
   b!"template <typename T>",
   b!"bool Slice<T>::iterator::operator<=(const iterator &other) const noexcept {",
   b!"  return this->pos <= other.pos;",
   b!"}",
   b!"",
   b!"template <typename T>",
   b!"bool Slice<T>::iterator::operator>(const iterator &other) const noexcept {",
   b!"  return this->pos > other.pos;",
   b!"}",
   b!"",
   b!"template <typename T>",
   b!"bool Slice<T>::iterator::operator>=(const iterator &other) const noexcept {",
   b!"  return this->pos >= other.pos;",
   b!"}",
   b!"",
   b!"template <typename T>",
   b!"typename Slice<T>::iterator Slice<T>::begin() const noexcept {",
   b!"  iterator it;",
   b!"  it.pos = slicePtr(this);",
   b!"  it.stride = size_of<T>();",
   b!"  return it;",
   b!"}",
   b!"",
   b!"template <typename T>",
   b!"typename Slice<T>::iterator Slice<T>::end() const noexcept {",
   b!"  iterator it = this->begin();",
   b!"  it.pos = static_cast<char *>(it.pos) + it.stride * this->size();",
   b!"  return it;",
   b!"}",
   b!"",
   b!"template <typename T>",
   b!"void Slice<T>::swap(Slice &rhs) noexcept {",
   b!"  std::swap(*this, rhs);",
   b!"}"]

/-- include/cxx.h:753-753. -/
noncomputable def text28 : List Chunk :=
  [.text b!""]

/-- include/cxx.h:754-864. -/
noncomputable def section29 : Chunk :=
  .guarded b!"CXXBRIDGE1_RUST_BOX"
  [b!"#define CXXBRIDGE1_RUST_BOX",
   b!"template <typename T>",
   b!"class Box<T>::uninit {};",
   b!"",
   b!"template <typename T>",
   b!"class Box<T>::allocation {",
   b!"  static T *alloc() noexcept;",
   b!"  static void dealloc(T *) noexcept;",
   b!"",
   b!"public:",
   b!"  allocation() noexcept : ptr(alloc()) {}",
   b!"  ~allocation() noexcept {",
   b!"    if (this->ptr) {",
   b!"      dealloc(this->ptr);",
   b!"    }",
   b!"  }",
   b!"  T *ptr;",
   b!"};",
   b!"",
   b!"template <typename T>",
   b!"Box<T>::Box(Box &&other) noexcept : ptr(other.ptr) {",
   b!"  other.ptr = nullptr;",
   b!"}",
   b!"",
   b!"template <typename T>",
   b!"Box<T>::Box(const T &val) {",
   b!"  allocation alloc;",
   b!"  ::new (alloc.ptr) T(val);",
   b!"  this->ptr = alloc.ptr;",
   b!"  alloc.ptr = nullptr;",
   b!"}",
   b!"",
   b!"template <typename T>",
   b!"Box<T>::Box(T &&val) {",
   b!"  allocation alloc;",
   b!"  ::new (alloc.ptr) T(std::move(val));",
   b!"  this->ptr = alloc.ptr;",
   b!"  alloc.ptr = nullptr;",
   b!"}",
   b!"",
   b!"template <typename T>",
   b!"Box<T>::~Box() noexcept {",
   b!"  if (this->ptr) {",
   b!"    this->drop();",
   b!"  }",
   b!"}",
   b!"",
   b!"template <typename T>",
   b!"Box<T> &Box<T>::operator=(Box &&other) & noexcept {",
   b!"  if (this->ptr) {",
   b!"    this->drop();",
   b!"  }",
   b!"  this->ptr = other.ptr;",
   b!"  other.ptr = nullptr;",
   b!"  return *this;",
   b!"}",
   b!"",
   b!"template <typename T>",
   b!"const T *Box<T>::operator->() const noexcept {",
   b!"  return this->ptr;",
   b!"}",
   b!"",
   b!"template <typename T>",
   b!"const T &Box<T>::operator*() const noexcept {",
   b!"  return *this->ptr;",
   b!"}",
   b!"",
   b!"template <typename T>",
   b!"T *Box<T>::operator->() noexcept {",
   b!"  return this->ptr;",
   b!"}",
   b!"",
   b!"template <typename T>",
   b!"T &Box<T>::operator*() noexcept {",
   b!"  return *this->ptr;",
   b!"}",
   b!"",
   b!"template <typename T>",
   b!"template <typename... Fields>",
   b!"Box<T> Box<T>::in_place(Fields &&...fields) {",
   b!"  allocation alloc;",
   b!"  auto ptr = alloc.ptr;",
   b!"  ::new (ptr) T{std::forward<Fields>(fields)...};",
   b!"  alloc.ptr = nullptr;",
   b!"  return from_raw(ptr);",
   b!"}",
   b!"",
   b!"template <typename T>",
   b!"void Box<T>::swap(Box &rhs) noexcept {",
   b!"  using std::swap;",
   b!"  swap(this->ptr, rhs.ptr);",
   b!"}",
   b!"",
   b!"template <typename T>",
   b!"Box<T> Box<T>::from_raw(T *raw) noexcept {",
   b!"  Box box = uninit{};",
   b!"  box.ptr = raw;",
   b!"  return box;",
   b!"}",
   b!"",
   b!"template <typename T>",
   b!"T *Box<T>::into_raw() noexcept {",
   b!"  T *raw = this->ptr;",
   b!"  this->ptr = nullptr;",
   b!"  return raw;",
   b!"}",
   b!"",
   b!"template <typename T>",
   b!"Box<T>::Box(uninit) noexcept {}"]

/-- include/cxx.h:865-865. -/
noncomputable def text30 : List Chunk :=
  [.text b!""]

/-- include/cxx.h:866-1041. -/
noncomputable def section31 : Chunk :=
  .guarded b!"CXXBRIDGE1_RUST_VEC"
  [b!"#define CXXBRIDGE1_RUST_VEC",
   b!"template <typename T>",
   b!"Vec<T>::Vec(std::initializer_list<T> init) : Vec{} {",
   b!"  this->reserve_total(init.size());",
   b!"  std::move(init.begin(), init.end(), std::back_inserter(*this));",
   b!"}",
   b!"",
   b!"template <typename T>",
   b!"Vec<T>::Vec(const Vec &other) : Vec() {",
   b!"  this->reserve_total(other.size());",
   b!"  std::copy(other.begin(), other.end(), std::back_inserter(*this));",
   b!"}",
   b!"",
   b!"template <typename T>",
   b!"Vec<T>::Vec(Vec &&other) noexcept : repr(other.repr) {",
   b!"  new (&other) Vec();",
   b!"}",
   b!"",
   b!"template <typename T>",
   b!"Vec<T>::~Vec() noexcept {",
   b!"  this->drop();",
   b!"}",
   b!"",
   b!"template <typename T>",
   b!"Vec<T> &Vec<T>::operator=(Vec &&other) & noexcept {",
   b!"  this->drop();",
   b!"  this->repr = other.repr;",
   b!"  new (&other) Vec();",
   b!"  return *this;",
   b!"}",
   b!"",
   b!"template <typename T>",
   b!"Vec<T> &Vec<T>::operator=(const Vec &other) & {",
   b!"  if (this != &other) {",
   b!"    this->drop();",
   b!"    new (this) Vec(other);",
   b!"  }",
   b!"  return *this;",
   b!"}",
   b!"",
   b!"template <typename T>",
   b!"bool Vec<T>::empty() const noexcept {",
   b!"  return this->size() == 0;",
   b!"}",
   b!"",
   b!"template <typename T>",
   b!"T *Vec<T>::data() noexcept {",
   b!"  return const_cast<T *>(const_cast<const Vec<T> *>(this)->data());",
   b!"}",
   b!"",
   b!"template <typename T>",
   b!"const T &Vec<T>::operator[](std::size_t n) const noexcept {",
   b!"  assert(n < this->size());",
   b!"  auto data = reinterpret_cast<const char *>(this->data());",
   b!"  return *reinterpret_cast<const T *>(data + n * size_of<T>());",
   b!"}",
   b!"",
   b!"template <typename T>",
   b!"const T &Vec<T>::at(std::size_t n) const {",
   b!"  if (n >= this->size()) {",
   b!"    panic<std::out_of_range>(\"rust::Vec index out of range\");",
   b!"  }",
   b!"  return (*this)[n];",
   b!"}",
   b!"",
   b!"template <typename T>",
   b!"const T &Vec<T>::front() const noexcept {",
   b!"  assert(!this->empty());",
   b!"  return (*this)[0];",
   b!"}",
   b!"",
   b!"template <typename T>",
   b!"const T &Vec<T>::back() const noexcept {",
   b!"  assert(!this->empty());",
   b!"  return (*this)[this->size() - 1];",
   b!"}",
   b!"",
   b!"template <typename T>",
   b!"T &Vec<T>::operator[](std::size_t n) noexcept {",
   b!"  assert(n < this->size());",
   b!"  auto data = reinterpret_cast<char *>(this->data());",
   b!"  return *reinterpret_cast<T *>(data + n * size_of<T>());",
   b!"}",
   b!"",
   b!"template <typename T>",
   b!"T &Vec<T>::at(std::size_t n) {",
   b!"  if (n >= this->size()) {",
   b!"    panic<std::out_of_range>(\"rust::Vec index out of range\");",
   b!"  }",
   b!"  return (*this)[n];",
   b!"}",
   b!"",
   b!"template <typename T>",
   b!"T &Vec<T>::front() noexcept {",
   b!"  assert(!this->empty());",
   b!"  return (*this)[0];",
   b!"}",
   b!"",
   b!"template <typename T>",
   b!"T &Vec<T>::back() noexcept {",
   b!"  assert(!this->empty());",
   b!"  return (*this)[this->size() - 1];",
   b!"}",
   b!"",
   b!"template <typename T>",
   b!"void Vec<T>::reserve(std::size_t new_cap) {",
   b!"  this->reserve_total(new_cap);",
   b!"}",
   b!"",
   b!"template <typename T>",
   b!"void Vec<T>::push_back(const T &value) {",
   b!"  this->emplace_back(value);",
   b!"}",
   b!"",
   b!"template <typename T>",
   b!"void Vec<T>::push_back(T &&value) {",
   b!"  this->emplace_back(std::move(value));",
   b!"}",
   b!"",
   b!"template <typename T>",
   b!"template <typename... Args>",
   b!"void Vec<T>::emplace_back(Args &&...args) {",
   b!"  auto size = this->size();",
   b!"  this->reserve_total(size + 1);",
   b!"  ::new (reinterpret_cast<T *>(reinterpret_cast<char *>(this->data()) +",
   b!"                               size * size_of<T>()))",
   b!"      T(std::forward<Args>(args)...);",
   b!"  this->set_len(size + 1);",
   b!"}",
   b!"",
   b!"template <typename T>",
   b!"void Vec<T>::clear() {",
   b!"  this->truncate(0);",
   b!"}",
   b!"",
   b!"template <typename T>",
   b!"typename Vec<T>::iterator Vec<T>::begin() noexcept {",
   b!"  return Slice<T>(this->data(), this->size()).begin();",
   b!"}",
   b!"",
   b!"template <typename T>",
   b!"typename Vec<T>::iterator Vec<T>::end() noexcept {",
   b!"  return Slice<T>(this->data(), this->size()).end();",
   b!"}",
   b!"",
   b!"template <typename T>",
   b!"typename Vec<T>::const_iterator Vec<T>::begin() const noexcept {",
   b!"  return this->cbegin();",
   b!"}",
   b!"",
   b!"template <typename T>",
   b!"typename Vec<T>::const_iterator Vec<T>::end() const noexcept {",
   b!"  return this->cend();",
   b!"}",
   b!"",
   b!"template <typename T>",
   b!"typename Vec<T>::const_iterator Vec<T>::cbegin() const noexcept {",
   b!"  return Slice<const T>(this->data(), this->size()).begin();",
   b!"}",
   b!"",
   b!"template <typename T>",
   b!"typename Vec<T>::const_iterator Vec<T>::cend() const noexcept {",
   b!"  return Slice<const T>(this->data(), this->size()).end();",
   b!"}",
   b!"",
   b!"template <typename T>",
   b!"void Vec<T>::swap(Vec &rhs) noexcept {",
   b!"  using std::swap;",
   b!"  swap(this->repr, rhs.repr);",
   b!"}",
   b!"",
   b!"// Internal API only intended for the cxxbridge code generator.",
   b!"template <typename T>",
   b!"Vec<T>::Vec(unsafe_bitcopy_t, const Vec &bits) noexcept : repr(bits.repr) {}"]

/-- include/cxx.h:1042-1042. -/
noncomputable def text32 : List Chunk :=
  [.text b!""]

/-- include/cxx.h:1043-1053. -/
noncomputable def section33 : Chunk :=
  .guarded b!"CXXBRIDGE1_IS_COMPLETE"
  [b!"#define CXXBRIDGE1_IS_COMPLETE",
   b!"namespace detail {",
   b!"namespace {",
   b!"template <typename T, typename = std::size_t>",
   b!"struct is_complete : std::false_type {};",
   b!"template <typename T>",
   b!"struct is_complete<T, decltype(sizeof(T))> : std::true_type {};",
   b!"} // namespace",
   b!"} // namespace detail"]

/-- include/cxx.h:1054-1054. -/
noncomputable def text34 : List Chunk :=
  [.text b!""]

/-- include/cxx.h:1055-1109. -/
noncomputable def section35 : Chunk :=
  .guarded b!"CXXBRIDGE1_LAYOUT"
  [b!"#define CXXBRIDGE1_LAYOUT",
   b!"class layout {",
   b!"  template <typename T>",
   b!"  friend std::size_t size_of();",
   b!"  template <typename T>",
   b!"  friend std::size_t align_of();",
   b!"  template <typename T>",
   b!"  static typename std::enable_if<std::is_base_of<Opaque, T>::value,",
   b!"                                 std::size_t>::type",
   b!"  do_size_of() {",
   b!"    return T::layout::size();",
   b!"  }",
   b!"  template <typename T>",
   b!"  static typename std::enable_if<!std::is_base_of<Opaque, T>::value,",
   b!"                                 std::size_t>::type",
   b!"  do_size_of() {",
   b!"    return sizeof(T);",
   b!"  }",
   b!"  template <typename T>",
   b!"  static",
   b!"      typename std::enable_if<detail::is_complete<T>::value, std::size_t>::type",
   b!"      size_of() {",
   b!"    return do_size_of<T>();",
   b!"  }",
   b!"  template <typename T>",
   b!"  static typename std::enable_if<std::is_base_of<Opaque, T>::value,",
   b!"                                 std::size_t>::type",
   b!"  do_align_of() {",
   b!"    return T::layout::align();",
   b!"  }",
   b!"  template <typename T>",
   b!"  static typename std::enable_if<!std::is_base_of<Opaque, T>::value,",
   b!"                                 std::size_t>::type",
   b!"  do_align_of() {",
   b!"    return alignof(T);",
   b!"  }",
   b!"  template <typename T>",
   b!"  static",
   b!"      typename std::enable_if<detail::is_complete<T>::value, std::size_t>::type",
   b!"      align_of() {",
   b!"    return do_align_of<T>();",
   b!"  }",
   b!"};",
   b!"",
   b!"template <typename T>",
   b!"std::size_t size_of() {",
   b!"  return layout::size_of<T>();",
   b!"}",
   b!"",
   b!"template <typename T>",
   b!"std::size_t align_of() {",
   b!"  return layout::align_of<T>();",
   b!"}"]

/-- include/cxx.h:1110-1110. -/
noncomputable def text36 : List Chunk :=
  [.text b!""]

/-- include/cxx.h:1111-1146. -/
noncomputable def section37 : Chunk :=
  .guarded b!"CXXBRIDGE1_RELOCATABLE"
  [b!"#define CXXBRIDGE1_RELOCATABLE",
   b!"namespace detail {",
   b!"template <typename... Ts>",
   b!"struct make_void {",
   b!"  using type = void;",
   b!"};",
   b!"",
   b!"template <typename... Ts>",
   b!"using void_t = typename make_void<Ts...>::type;",
   b!"",
   b!"template <typename Void, template <typename...> class, typename...>",
   b!"struct detect : std::false_type {};",
   b!"template <template <typename...> class T, typename... A>",
   b!"struct detect<void_t<T<A...>>, T, A...> : std::true_type {};",
   b!"",
   b!"template <template <typename...> class T, typename... A>",
   b!"using is_detected = detect<void, T, A...>;",
   b!"",
   b!"template <typename T>",
   b!"using detect_IsRelocatable = typename T::IsRelocatable;",
   b!"",
   b!"template <typename T>",
   b!"struct get_IsRelocatable",
   b!"    : std::is_same<typename T::IsRelocatable, std::true_type> {};",
   b!"} // namespace detail",
   b!"",
   b!"template <typename T>",
   b!"struct IsRelocatable",
   b!"    : std::conditional<",
   b!"          detail::is_detected<detail::detect_IsRelocatable, T>::value,",
   b!"          detail::get_IsRelocatable<T>,",
   b!"          std::integral_constant<",
   b!"              bool, std::is_trivially_move_constructible<T>::value &&",
   b!"                        std::is_trivially_destructible<T>::value>>::type {};"]

/-- include/cxx.h:1147-1149. -/
noncomputable def text38 : List Chunk :=
  [.text b!"",
   .text b!"} // namespace cxxbridge1",
   .text b!"} // namespace rust"]

/-- include/cxx.h:1-1149, the whole file. -/
noncomputable def layout : List Chunk :=
  text0 ++ [section1] ++ text2 ++ [section3] ++ text4 ++ [section5] ++ text6 ++ [section7] ++ text8 ++ [section9] ++ text10 ++ [section11] ++ text12 ++ [section13] ++ text14 ++ [section15] ++ text16 ++ [section17] ++ text18 ++ [section19] ++ text20 ++ [section21] ++ text22 ++ [section23] ++ text24 ++ [section25] ++ text26 ++ [section27] ++ text28 ++ [section29] ++ text30 ++ [section31] ++ text32 ++ [section33] ++ text34 ++ [section35] ++ text36 ++ [section37] ++ text38

end Verif.Header.Cxx
