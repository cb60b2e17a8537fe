import Verif.Thunk.Machine
import Verif.Mangle.Model
/-!
# Both halves of the generated instantiations

`macro/src/expand.rs` writes the Rust half of every instantiation and `gen/src/write.rs` the C++ half.
-/
namespace Verif.Thunk
open Verif.Syntax Verif.Types Verif.Mangle

variable {W : Type}

/-- A function with a linker symbol, defined in the language whose types are `P`. -/
structure Thunk (P W : Type) where
  sym : Symbol
  params : List P
  ret : P
  body : List Nat → Run W Nat

/-- A method or member function that declares one function of the other language and calls it. -/
structure Caller (P W : Type) where
  name : String
  sym : Symbol
  params : List P
  ret : P
  body : (List Nat → Run W Nat) → List Nat → Run W Nat

/-- The fully qualified name printed for a resolved type (syntax/names.rs:21-25, gen/src/write.rs:1360-1425). -/
def cname (p : Pair) : CName := ⟨p.ns, p.cxx⟩

/-! ### The C++ functions -/

/-- gen/src/write.rs:1664-1780 `write_unique_ptr_common`: the functions of a `UniquePtr`, for a pointee
`t` whose mangled name is `s`.  `complete` says which types are complete where the file is compiled;
`deleter_if<false>` does nothing (gen/src/builtin.rs:372-384). -/
def uniqueFns (lib : Lib W) (complete : CTy → Bool) (t : CTy) (s : Symbol) (fromValue conditional : Bool) :
    List (Thunk CPTy W) :=
  [⟨written "cxxbridge1$unique_ptr$" s "null", [.unique t false], .void, fun
    | [ptr] => do let _ ← lib.run (.uniqueNull t ptr); unit
    | _ => fault⟩] ++
  (if fromValue then
    [⟨written "cxxbridge1$unique_ptr$" s "uninit", [.unique t false], .obj t false, fun
      | [ptr] => do
        let uninit ← lib.run (.newUninit t)
        let _ ← lib.run (.uniqueFrom t ptr uninit)
        pure uninit
      | _ => fault⟩]
  else []) ++
  [⟨written "cxxbridge1$unique_ptr$" s "raw", [.unique t false, .obj t false], .void, fun
    | [ptr, raw] => do let _ ← lib.run (.uniqueFrom t ptr raw); unit
    | _ => fault⟩,
   ⟨written "cxxbridge1$unique_ptr$" s "get", [.unique t true], .obj t true, fun
    | [ptr] => lib.run (.uniqueGet t ptr)
    | _ => fault⟩,
   ⟨written "cxxbridge1$unique_ptr$" s "release", [.unique t false], .obj t false, fun
    | [ptr] => lib.run (.uniqueRelease t ptr)
    | _ => fault⟩,
   ⟨written "cxxbridge1$unique_ptr$" s "drop", [.unique t false], .void, fun
    | [ptr] =>
      if conditional then
        if complete t then do let _ ← lib.run (.uniqueDestroy t ptr); unit else unit
      else do let _ ← lib.run (.uniqueDestroy t ptr); unit
    | _ => fault⟩]

/-- gen/src/write.rs:1676-1682, the test of `conditional_delete`. -/
def conditionalDelete (ts : Types) (r : Ident) : Bool :=
  !mapHas ts.structs r && !mapHas ts.enums r

/-- gen/src/write.rs:1782-1861 `write_shared_ptr`. -/
def sharedFns (lib : Lib W) (t : CTy) (s : Symbol) (fromValue : Bool) : List (Thunk CPTy W) :=
  [⟨written "cxxbridge1$shared_ptr$" s "null", [.shared t false], .void, fun
    | [ptr] => do let _ ← lib.run (.sharedNull t ptr); unit
    | _ => fault⟩] ++
  (if fromValue then
    [⟨written "cxxbridge1$shared_ptr$" s "uninit", [.shared t false], .obj t false, fun
      | [ptr] => do
        let uninit ← lib.run (.newUninit t)
        let _ ← lib.run (.sharedFrom t ptr uninit)
        pure uninit
      | _ => fault⟩]
  else []) ++
  [⟨written "cxxbridge1$shared_ptr$" s "clone", [.shared t true, .shared t false], .void, fun
    | [self, ptr] => do let _ ← lib.run (.sharedCopy t ptr self); unit
    | _ => fault⟩,
   ⟨written "cxxbridge1$shared_ptr$" s "get", [.shared t true], .obj t true, fun
    | [self] => lib.run (.sharedGet t self)
    | _ => fault⟩,
   ⟨written "cxxbridge1$shared_ptr$" s "drop", [.shared t false], .void, fun
    | [self] => do let _ ← lib.run (.sharedDestroy t self); unit
    | _ => fault⟩]

/-- gen/src/write.rs:1863-1930 `write_weak_ptr`. -/
def weakFns (lib : Lib W) (t : CTy) (s : Symbol) : List (Thunk CPTy W) :=
  [⟨written "cxxbridge1$weak_ptr$" s "null", [.weak t false], .void, fun
    | [ptr] => do let _ ← lib.run (.weakNull t ptr); unit
    | _ => fault⟩,
   ⟨written "cxxbridge1$weak_ptr$" s "clone", [.weak t true, .weak t false], .void, fun
    | [self, ptr] => do let _ ← lib.run (.weakCopy t ptr self); unit
    | _ => fault⟩,
   ⟨written "cxxbridge1$weak_ptr$" s "downgrade", [.shared t true, .weak t false], .void, fun
    | [shared, weak] => do let _ ← lib.run (.weakOf t weak shared); unit
    | _ => fault⟩,
   ⟨written "cxxbridge1$weak_ptr$" s "upgrade", [.weak t true, .shared t false], .void, fun
    | [weak, shared] => do let _ ← lib.run (.sharedLock t shared weak); unit
    | _ => fault⟩,
   ⟨written "cxxbridge1$weak_ptr$" s "drop", [.weak t false], .void, fun
    | [self] => do let _ ← lib.run (.weakDestroy t self); unit
    | _ => fault⟩]

/-- gen/src/write.rs:1932-1992 `write_cxx_vector`: the functions of the vector itself. -/
def vectorFns (lib : Lib W) (t : CName) (s : Symbol) (byValue : Bool) : List (Thunk CPTy W) :=
  [⟨written "cxxbridge1$std$vector$" s "new", [], .obj (.vector t) false, fun
    | [] => lib.run (.vectorNew t)
    | _ => fault⟩,
   ⟨written "cxxbridge1$std$vector$" s "size", [.obj (.vector t) true], .size, fun
    | [v] => lib.run (.vectorSize t v)
    | _ => fault⟩,
   ⟨written "cxxbridge1$std$vector$" s "get_unchecked", [.obj (.vector t) false, .size], .obj (.named t) false, fun
    | [v, pos] => lib.run (.vectorAt t v pos)
    | _ => fault⟩] ++
  (if byValue then
    [⟨written "cxxbridge1$std$vector$" s "push_back", [.obj (.vector t) false, .obj (.named t) false], .void, fun
      | [v, value] => do
        let _ ← lib.run (.vectorPush t v value)
        let _ ← lib.run (.destroy t value)
        unit
      | _ => fault⟩,
     ⟨written "cxxbridge1$std$vector$" s "pop_back", [.obj (.vector t) false, .obj (.named t) false], .void, fun
      | [v, out] => do
        let _ ← lib.run (.moveBack t out v)
        let _ ← lib.run (.vectorPop t v)
        unit
      | _ => fault⟩]
  else [])

/-- gen/src/write.rs:1433-1452 `write_generic_instantiations`: the `extern "C"` functions defined for an
instantiation.  Those of `Box` and `Vec` are only declared. -/
def cxxFns (lib : Lib W) (complete : CTy → Bool) (ts : Types) (k : ImplKey) : Option (List (Thunk CPTy W)) := do
  let p ← resolve ts k.rust
  let s ← toSymbol p
  let trivial := isMaybeTrivial ts k.rust
  match k with
  | .rustBox _ | .rustVec _ => some []
  | .uniquePtr _ =>
    some (uniqueFns lib complete (.named (cname p)) s trivial (conditionalDelete ts k.rust))
  | .sharedPtr _ => some (sharedFns lib (.named (cname p)) s trivial)
  | .weakPtr _ => some (weakFns lib (.named (cname p)) s)
  | .cxxVector _ => do
    let m ← vectorMangled s
    some (vectorFns lib (cname p) s trivial ++ uniqueFns lib complete (.vector (cname p)) m false false)

/-- gen/src/write.rs:1684-1696: the types an instantiation asserts to be complete. -/
def cxxAsserts (ts : Types) : ImplKey → Option (List CTy)
  | .uniquePtr r => do
    let p ← resolve ts r
    some (if conditionalDelete ts r then [.named (cname p)] else [])
  | _ => some []

/-! ### The Rust callers -/

/-- The link names at macro/src/expand.rs:1301-1304, 1350-1358, 1446-1452, 1550-1555, 1629-1634,
1702-1718: a prefix with the symbol of the type, then the member. -/
def linkName (prefix_ : String) (s : Symbol) (member : String) : Symbol :=
  (prefix_.toList ++ s ++ ['$']) ++ member.toList

/-- macro/src/expand.rs:1446-1541 `expand_unique_ptr`. -/
def uniqueMethods (lib : Lib W) (p : Pair) (r : Ident) (fromValue : Bool) : Option (List (Caller RPTy W)) := do
  let s ← toSymbol p
  let link := linkName "cxxbridge1$unique_ptr$" s
  some ([⟨"__null", link "null", [.repr true], .unit, fun f => fun
      | [] => do
        let repr ← lib.run .freshLocal
        let _ ← f [repr]
        lib.run (.bitsOf repr)
      | _ => fault⟩] ++
    (if fromValue then
      [⟨"__new", link "uninit", [.repr true], .opaque_ true, fun f => fun
        | [value] => do
          let repr ← lib.run .freshLocal
          let uninit ← f [repr]
          let _ ← lib.run (.store r uninit value)
          lib.run (.bitsOf repr)
        | _ => fault⟩]
    else []) ++
    [⟨"__raw", link "raw", [.repr true, .opaque_ true], .unit, fun f => fun
      | [raw] => do
        let repr ← lib.run .freshLocal
        let _ ← f [repr, raw]
        lib.run (.bitsOf repr)
      | _ => fault⟩,
     ⟨"__get", link "get", [.repr false], .opaque_ false, fun f => fun
      | [bits] => do
        let repr ← lib.run (.localOf bits)
        f [repr]
      | _ => fault⟩,
     ⟨"__release", link "release", [.repr true], .opaque_ true, fun f => fun
      | [bits] => do
        let repr ← lib.run (.localOf bits)
        f [repr]
      | _ => fault⟩,
     ⟨"__drop", link "drop", [.repr true], .unit, fun f => fun
      | [bits] => do
        let repr ← lib.run (.localOf bits)
        let _ ← f [repr]
        unit
      | _ => fault⟩])

/-- macro/src/expand.rs:1543-1624 `expand_shared_ptr`. -/
def sharedMethods (lib : Lib W) (p : Pair) (r : Ident) (fromValue : Bool) : Option (List (Caller RPTy W)) := do
  let s ← toSymbol p
  let link := linkName "cxxbridge1$shared_ptr$" s
  some ([⟨"__null", link "null", [.opaque_ true], .unit, fun f => fun
      | [new] => do let _ ← f [new]; unit
      | _ => fault⟩] ++
    (if fromValue then
      [⟨"__new", link "uninit", [.opaque_ true], .opaque_ true, fun f => fun
        | [value, new] => do
          let uninit ← f [new]
          let _ ← lib.run (.store r uninit value)
          unit
        | _ => fault⟩]
    else []) ++
    [⟨"__clone", link "clone", [.opaque_ false, .opaque_ true], .unit, fun f => fun
      | [this, new] => do let _ ← f [this, new]; unit
      | _ => fault⟩,
     ⟨"__get", link "get", [.opaque_ false], .opaque_ false, fun f => fun
      | [this] => f [this]
      | _ => fault⟩,
     ⟨"__drop", link "drop", [.opaque_ true], .unit, fun f => fun
      | [this] => do let _ ← f [this]; unit
      | _ => fault⟩])

/-- macro/src/expand.rs:1626-1696 `expand_weak_ptr`. -/
def weakMethods (p : Pair) : Option (List (Caller RPTy W)) := do
  let s ← toSymbol p
  let link := linkName "cxxbridge1$weak_ptr$" s
  some [⟨"__null", link "null", [.opaque_ true], .unit, fun f => fun
      | [new] => do let _ ← f [new]; unit
      | _ => fault⟩,
     ⟨"__clone", link "clone", [.opaque_ false, .opaque_ true], .unit, fun f => fun
      | [this, new] => do let _ ← f [this, new]; unit
      | _ => fault⟩,
     ⟨"__downgrade", link "downgrade", [.opaque_ false, .opaque_ true], .unit, fun f => fun
      | [shared, weak] => do let _ ← f [shared, weak]; unit
      | _ => fault⟩,
     ⟨"__upgrade", link "upgrade", [.opaque_ false, .opaque_ true], .unit, fun f => fun
      | [weak, shared] => do let _ ← f [weak, shared]; unit
      | _ => fault⟩,
     ⟨"__drop", link "drop", [.opaque_ true], .unit, fun f => fun
      | [this] => do let _ ← f [this]; unit
      | _ => fault⟩]

/-- macro/src/expand.rs:1698-1849 `expand_cxx_vector`. -/
def vectorMethods (lib : Lib W) (p : Pair) (r : Ident) (byValue : Bool) : Option (List (Caller RPTy W)) := do
  let s ← toSymbol p
  let link := linkName "cxxbridge1$std$vector$" s
  let linkUnique := linkName "cxxbridge1$unique_ptr$std$vector$" s
  some ([⟨"__vector_new", link "new", [], .cxxVector r true, fun f => fun
      | [] => f []
      | _ => fault⟩,
     ⟨"__vector_size", link "size", [.cxxVector r false], .usize, fun f => fun
      | [v] => f [v]
      | _ => fault⟩,
     ⟨"__get_unchecked", link "get_unchecked", [.cxxVector r true, .usize], .opaque_ true, fun f => fun
      | [v, pos] => f [v, pos]
      | _ => fault⟩] ++
    (if byValue then
      [⟨"__push_back", link "push_back", [.cxxVector r true, .opaque_ true], .unit, fun f => fun
        | [this, value] => do let _ ← f [this, value]; unit
        | _ => fault⟩,
       ⟨"__pop_back", link "pop_back", [.cxxVector r true, .opaque_ true], .unit, fun f => fun
        | [this, out] => do let _ ← f [this, out]; unit
        | _ => fault⟩]
    else []) ++
    [⟨"__unique_ptr_null", linkUnique "null", [.repr true], .unit, fun f => fun
      | [] => do
        let repr ← lib.run .freshLocal
        let _ ← f [repr]
        lib.run (.bitsOf repr)
      | _ => fault⟩,
     ⟨"__unique_ptr_raw", linkUnique "raw", [.repr true, .cxxVector r true], .unit, fun f => fun
      | [raw] => do
        let repr ← lib.run .freshLocal
        let _ ← f [repr, raw]
        lib.run (.bitsOf repr)
      | _ => fault⟩,
     ⟨"__unique_ptr_get", linkUnique "get", [.repr false], .cxxVector r false, fun f => fun
      | [bits] => do
        let repr ← lib.run (.localOf bits)
        f [repr]
      | _ => fault⟩,
     ⟨"__unique_ptr_release", linkUnique "release", [.repr true], .cxxVector r true, fun f => fun
      | [bits] => do
        let repr ← lib.run (.localOf bits)
        f [repr]
      | _ => fault⟩,
     ⟨"__unique_ptr_drop", linkUnique "drop", [.repr true], .unit, fun f => fun
      | [bits] => do
        let repr ← lib.run (.localOf bits)
        let _ ← f [repr]
        unit
      | _ => fault⟩])

/-- macro/src/expand.rs:95-117: the methods of the trait implemented for an instantiation.  `Box` and
`Vec` have none. -/
def rustMethods (lib : Lib W) (ts : Types) (k : ImplKey) : Option (List (Caller RPTy W)) := do
  let p ← resolve ts k.rust
  let trivial := isMaybeTrivial ts k.rust
  match k with
  | .rustBox _ | .rustVec _ => some []
  | .uniquePtr r => uniqueMethods lib p r trivial
  | .sharedPtr r => sharedMethods lib p r trivial
  | .weakPtr _ => weakMethods p
  | .cxxVector r => vectorMethods lib p r trivial

/-! ### The Rust functions -/

/-- macro/src/expand.rs:1300-1345 `expand_rust_box`. -/
def boxFns (lib : Lib W) (p : Pair) (r : Ident) : Option (List (Thunk RPTy W)) := do
  let s ← toSymbol p
  let link := linkName "cxxbridge1$box$" s
  some [⟨link "alloc", [], .obj r true, fun
      | [] => lib.run (.boxUninit r)
      | _ => fault⟩,
    ⟨link "dealloc", [.obj r true], .unit, fun
      | [ptr] => do let _ ← lib.run (.boxFree r ptr); unit
      | _ => fault⟩,
    ⟨link "drop", [.box r true], .unit, fun
      | [this] => do let _ ← lib.run (.boxDrop r this); unit
      | _ => fault⟩]

/-- macro/src/expand.rs:1349-1444 `expand_rust_vec`. -/
def vecFns (lib : Lib W) (p : Pair) (r : Ident) : Option (List (Thunk RPTy W)) := do
  let s ← toSymbol p
  let link := linkName "cxxbridge1$rust_vec$" s
  some [⟨link "new", [.vec r true], .unit, fun
      | [this] => do let _ ← lib.run (.vecNew r this); unit
      | _ => fault⟩,
    ⟨link "drop", [.vec r true], .unit, fun
      | [this] => do let _ ← lib.run (.vecDrop r this); unit
      | _ => fault⟩,
    ⟨link "len", [.vec r false], .usize, fun
      | [this] => lib.run (.vecLen r this)
      | _ => fault⟩,
    ⟨link "capacity", [.vec r false], .usize, fun
      | [this] => lib.run (.vecCapacity r this)
      | _ => fault⟩,
    ⟨link "data", [.vec r false], .obj r false, fun
      | [this] => lib.run (.vecData r this)
      | _ => fault⟩,
    ⟨link "reserve_total", [.vec r true, .usize], .unit, fun
      | [this, newCap] => do let _ ← lib.run (.vecReserveTotal r this newCap); unit
      | _ => fault⟩,
    ⟨link "set_len", [.vec r true, .usize], .unit, fun
      | [this, len] => do let _ ← lib.run (.vecSetLen r this len); unit
      | _ => fault⟩,
    ⟨link "truncate", [.vec r true, .usize], .unit, fun
      | [this, len] => do let _ ← lib.run (.vecTruncate r this len); unit
      | _ => fault⟩]

/-- macro/src/expand.rs:95-117: the functions exported for an instantiation. -/
def rustFns (lib : Lib W) (ts : Types) (k : ImplKey) : Option (List (Thunk RPTy W)) := do
  let p ← resolve ts k.rust
  match k with
  | .rustBox r => boxFns lib p r
  | .rustVec r => vecFns lib p r
  | _ => some []

/-! ### The C++ callers -/

/-- gen/src/write.rs:1467-1487 and 1538-1568 `write_rust_box_extern` and `write_rust_box_impl`.  The
first argument of a member function that is not static is `this`. -/
def boxMembers (t : CName) (s : Symbol) : List (Caller CPTy W) :=
  [⟨"allocation::alloc", written "cxxbridge1$box$" s "alloc", [], .obj (.named t) false, fun f => fun
      | [] => f []
      | _ => fault⟩,
   ⟨"allocation::dealloc", written "cxxbridge1$box$" s "dealloc", [.obj (.named t) false], .void, fun f => fun
      | [ptr] => do let _ ← f [ptr]; unit
      | _ => fault⟩,
   ⟨"drop", written "cxxbridge1$box$" s "drop", [.box t false], .void, fun f => fun
      | [this] => do let _ ← f [this]; unit
      | _ => fault⟩]

/-- gen/src/write.rs:1489-1536 and 1570-1656 `write_rust_vec_extern` and `write_rust_vec_impl`. -/
def vecMembers (t : CName) (s : Symbol) : List (Caller CPTy W) :=
  [⟨"Vec", written "cxxbridge1$rust_vec$" s "new", [.vec t true], .void, fun f => fun
      | [this] => do let _ ← f [this]; unit
      | _ => fault⟩,
   ⟨"drop", written "cxxbridge1$rust_vec$" s "drop", [.vec t false], .void, fun f => fun
      | [this] => do let _ ← f [this]; unit
      | _ => fault⟩,
   ⟨"size", written "cxxbridge1$rust_vec$" s "len", [.vec t true], .size, fun f => fun
      | [this] => f [this]
      | _ => fault⟩,
   ⟨"capacity", written "cxxbridge1$rust_vec$" s "capacity", [.vec t true], .size, fun f => fun
      | [this] => f [this]
      | _ => fault⟩,
   ⟨"data", written "cxxbridge1$rust_vec$" s "data", [.vec t true], .obj (.named t) true, fun f => fun
      | [this] => f [this]
      | _ => fault⟩,
   ⟨"reserve_total", written "cxxbridge1$rust_vec$" s "reserve_total", [.vec t false, .size], .void, fun f => fun
      | [this, newCap] => do let _ ← f [this, newCap]; unit
      | _ => fault⟩,
   ⟨"set_len", written "cxxbridge1$rust_vec$" s "set_len", [.vec t false, .size], .void, fun f => fun
      | [this, len] => do let _ ← f [this, len]; unit
      | _ => fault⟩,
   ⟨"truncate", written "cxxbridge1$rust_vec$" s "truncate", [.vec t false, .size], .void, fun f => fun
      | [this, len] => do let _ ← f [this, len]; unit
      | _ => fault⟩]

/-- gen/src/write.rs:1454-1463: the member functions specialised for an instantiation. -/
def cxxMembers (ts : Types) (k : ImplKey) : Option (List (Caller CPTy W)) := do
  let p ← resolve ts k.rust
  let s ← toSymbol p
  match k with
  | .rustBox _ => some (boxMembers (cname p) s)
  | .rustVec _ => some (vecMembers (cname p) s)
  | _ => some []

/-! ### Linking -/

/-- The functions of one half for all the instantiations of the bridge: the loops at
gen/src/write.rs:1441-1452 and macro/src/expand.rs:95-117. -/
def allFns {P : Type} (fns : ImplKey → Option (List (Thunk P W))) : List ImplKey → Option (List (Thunk P W))
  | [] => some []
  | k :: ks => do some ((← fns k) ++ (← allFns fns ks))

/-- What a symbol links to.  Not code of the repository: the linker finds the function of that name. -/
def linked {P : Type} (fns : List (Thunk P W)) (sym : Symbol) : Option (Thunk P W) :=
  fns.find? fun t => t.sym == sym

/-- A call of the method `name` of an instantiation whose other half is `fns`. -/
def callBy {P Q : Type} (callers : Option (List (Caller P W))) (fns : Option (List (Thunk Q W))) (name : String)
    (args : List Nat) : Run W Nat :=
  match callers, fns with
  | some cs, some fs =>
    match cs.find? (fun c => c.name == name) with
    | some c =>
      match linked fs c.sym with
      | some t => c.body t.body args
      | none => fault
    | none => fault
  | _, _ => fault

/-- A call of a trait method of an instantiation in Rust, with the C++ half linked in. -/
def rustCall (lib : Lib W) (complete : CTy → Bool) (apis : List Api) (k : ImplKey) (name : String) (args : List Nat) :
    Run W Nat :=
  let ts := collect apis
  callBy (rustMethods lib ts k) (allFns (cxxFns lib complete ts) (ts.impls.map (·.1))) name args

/-- A call of a member function of an instantiation in C++, with the Rust half linked in. -/
def cxxCall (lib : Lib W) (apis : List Api) (k : ImplKey) (name : String) (args : List Nat) : Run W Nat :=
  let ts := collect apis
  callBy (cxxMembers ts k) (allFns (rustFns lib ts) (ts.impls.map (·.1))) name args

end Verif.Thunk
