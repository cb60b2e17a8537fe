import Verif.Abi.Model
/-!
# Who owns what during a call: the bodies of the generated shims

`macro/src/expand.rs` and `gen/src/write.rs`.  A call runs through three functions: the shim on the side of the caller,
the shim on the side of the callee and the function of the user.  What happens to one argument on the way is a list of
statements on the places that hold it.
-/
namespace Verif.Shim
open Verif.Syntax Verif.Abi

/-! ### Objects and places -/

/-- An object.  `owns` says whether destroying it has an effect.  `residue` is what stays behind in an object of C++ when
its move constructor moves it elsewhere, if that still owns something. -/
structure Obj where
  id : Nat
  owns : Bool
  residue : Option Nat
  deriving DecidableEq

/-- The places of one argument, or of the return value. -/
inductive Slot
  /-- the variable of the shim of the caller; for the return value, the one of the shim of the callee -/
  | param
  /-- `MaybeUninit`, `ManuallyDrop` or `FatFunction` local, or the memory behind the pointer to the return value -/
  | wrap
  /-- what is passed between the two shims -/
  | ext
  /-- what the user is handed -/
  | recv
  deriving DecidableEq

/-- What a place holds. -/
inductive Cell
  /-- nothing: not initialised, or moved out of in Rust -/
  | dead
  /-- an object; `none` for one that owns nothing, such as a null pointer or the empty string -/
  | obj (o : Option Obj)
  /-- a raw pointer that stands for an object; nothing is destroyed with it -/
  | raw (o : Option Obj)
  /-- the address of a place -/
  | addr (s : Slot)
  deriving DecidableEq

/-- What becomes of the memory: the places, the ones whose destructor runs at the end of the shim, and the destructors
that have run. -/
structure State where
  cells : Slot → Cell
  scope : List Slot
  drops : List Nat

/-- One place changed. -/
def State.set (σ : State) (s : Slot) (c : Cell) : State := { σ with cells := fun t => if t = s then c else σ.cells t }

/-- What a move constructor of C++ leaves behind. -/
def leftBehind (o : Option Obj) : Option Obj := o.bind fun o => o.residue.map fun r => ⟨r, true, none⟩

/-- The destructors that run when an object is destroyed. -/
def destroyed : Option Obj → List Nat
  | some o => if o.owns then [o.id] else []
  | none => []

/-! ### Statements -/

/-- `d` is the place written, `s` the one read. -/
inductive Stmt
  /-- Rust: use of a variable, which ends it -/
  | use (d s : Slot)
  /-- C++: copy of something trivial -/
  | copy (d s : Slot)
  /-- C++: `std::move(s)` -/
  | move (d s : Slot)
  /-- Rust: `Box::into_raw(s)`, `UniquePtr::into_raw(s)` -/
  | intoRaw (d s : Slot)
  /-- C++: `s.into_raw()`, `s.release()` -/
  | release (d s : Slot)
  /-- Rust: `Box::from_raw(s)`, which must not be null -/
  | boxFromRaw (d s : Slot)
  /-- Rust: `UniquePtr::from_raw(s)`; C++: `Box<T>::from_raw(s)`, `std::unique_ptr<T>(s)` -/
  | fromRaw (d s : Slot)
  /-- `&s`, `s.as_mut_ptr()` -/
  | addrOf (d s : Slot)
  /-- C++: `T(::rust::unsafe_bitcopy, *s)`; Rust: `ptr::read(s)` -/
  | bitcopy (d s : Slot)
  /-- C++: `std::move(*s)` -/
  | moveDeref (d s : Slot)
  /-- Rust: `mem::take(&mut *s)` -/
  | take (d s : Slot)
  /-- Rust: `ptr::write(d, s)`; C++: `new (d) T(s)`, where `s` is the value just returned and is constructed in place -/
  | store (d s : Slot)
  /-- Rust: `s.assume_init()`: the memory is read bit by bit -/
  | assumeInit (d s : Slot)
  /-- C++: `std::move(s.value)` where `s` may have been written as a raw pointer: `Box` and `std::unique_ptr` are one -/
  | moveRepr (d s : Slot)
  /-- the destructor of this place runs at the end of the shim -/
  | scoped (s : Slot)

/-- One statement.  `none` for undefined behaviour or a program that does not compile. -/
def exec (σ : State) : Stmt → Option State
  | .use d s => match σ.cells s with
    | .dead => none
    | c => some ((σ.set s .dead).set d c)
  | .copy d s => match σ.cells s with
    | .dead => none
    | .obj (some o) => if o.owns then none else some (σ.set d (.obj (some o)))
    | c => some (σ.set d c)
  | .move d s => match σ.cells s with
    | .obj o => some ((σ.set s (.obj (leftBehind o))).set d (.obj o))
    | _ => none
  | .intoRaw d s => match σ.cells s with
    | .obj o => some ((σ.set s .dead).set d (.raw o))
    | _ => none
  | .release d s => match σ.cells s with
    | .obj o => some ((σ.set s (.obj none)).set d (.raw o))
    | _ => none
  | .boxFromRaw d s => match σ.cells s with
    | .raw (some o) => some (σ.set d (.obj (some o)))
    | _ => none
  | .fromRaw d s => match σ.cells s with
    | .raw o => some (σ.set d (.obj o))
    | _ => none
  | .addrOf d s => match σ.cells s with
    | .obj _ => some (σ.set d (.addr s))
    | _ => none
  | .bitcopy d s => match σ.cells s with
    | .addr p => match σ.cells p with
      | .obj o => some (σ.set d (.obj o))
      | _ => none
    | _ => none
  | .moveDeref d s => match σ.cells s with
    | .addr p => match σ.cells p with
      | .obj o => some ((σ.set p (.obj (leftBehind o))).set d (.obj o))
      | _ => none
    | _ => none
  | .take d s => match σ.cells s with
    | .addr p => match σ.cells p with
      | .obj o => some ((σ.set p (.obj none)).set d (.obj o))
      | _ => none
    | _ => none
  | .store d s => match σ.cells s with
    | .obj o => some ((σ.set s .dead).set d (.obj o))
    | .raw o => some (σ.set d (.raw o))
    | _ => none
  | .assumeInit d s => match σ.cells s with
    | .obj o => some ((σ.set s .dead).set d (.obj o))
    | .raw o => some ((σ.set s .dead).set d (.raw o))
    | _ => none
  | .moveRepr d s => match σ.cells s with
    | .obj o => some ((σ.set s (.obj (leftBehind o))).set d (.obj o))
    | .raw o => some ((σ.set s (.raw none)).set d (.obj o))
    | _ => none
  | .scoped s => some { σ with scope := s :: σ.scope }

/-- Several statements. -/
def execAll : List Stmt → State → Option State
  | [], σ => some σ
  | s :: ss, σ => (exec σ s).bind (execAll ss)

/-- The end of a shim: the destructors of its variables run. -/
def State.finish (σ : State) : List Nat :=
  σ.drops ++ σ.scope.flatMap fun s => match σ.cells s with
    | .obj o => destroyed o
    | _ => []

/-! ### Arguments from Rust to C++ -/

/-- macro/src/expand.rs:599-625: `trampolines` and `setup` in `expand_cxx_function_shim`. -/
def rustSetup (cx : Ctx) : Ty → List Stmt
  | .fn .. => [.use .wrap .param]
  | ty => if cx.needsIndirect ty then [.use .wrap .param] else []

/-- macro/src/expand.rs:529-597: `arg_vars` in `expand_cxx_function_shim`.  The casts, and the conversions of references,
strings and slices, which own nothing, are left out. -/
def rustPass (cx : Ctx) (ty : Ty) : List Stmt :=
  if isRustString ty then [.addrOf .ext .wrap] else
  match ty with
  | .rustBox _ => [.intoRaw .ext .param]
  | .uniquePtr _ => [.intoRaw .ext .param]
  | .rustVec _ => [.addrOf .ext .wrap]
  | .fn .. => [.use .ext .wrap]
  | .ref .. | .ptr .. | .str .. | .sliceRef .. => [.use .ext .param]
  | ty => if cx.needsIndirect ty then [.addrOf .ext .wrap] else [.use .ext .param]

/-- gen/src/write.rs:849-879: the arguments in `write_cxx_function_shim`. -/
def cxxReceive (cx : Ctx) (ty : Ty) : List Stmt :=
  match ty with
  | .rustBox _ => [.fromRaw .recv .ext]
  | .uniquePtr _ => [.fromRaw .recv .ext]
  | _ =>
    if isRustString ty then [.bitcopy .recv .ext] else
    match ty with
    | .rustVec _ => [.bitcopy .recv .ext]
    | _ => if cx.needsIndirect ty then [.moveDeref .recv .ext] else [.copy .recv .ext]

/-! ### Arguments from C++ to Rust -/

/-- gen/src/write.rs:1057-1065: `ManuallyDrop` in `write_rust_function_shim_impl`. -/
def cxxSetup (cx : Ctx) (ty : Ty) : List Stmt :=
  if !isRustString ty && cx.needsIndirect ty then [.move .wrap .param] else []

/-- gen/src/write.rs:1115-1130: the arguments of the call in `write_rust_function_shim_impl`: a prefix `&`, the variable
and a suffix. -/
def cxxPass (cx : Ctx) (ty : Ty) : List Stmt :=
  match ty with
  | .rustBox _ => [.release .ext .param]
  | .uniquePtr _ => [.release .ext .param]
  | ty =>
    let var := if !isRustString ty && cx.needsIndirect ty then Slot.wrap else .param
    if cx.needsIndirect ty then [.addrOf .ext var] else [.copy .ext var]

/-- macro/src/expand.rs:997-1049: `arg_vars` in `expand_rust_function_shim_impl`. -/
def rustReceive (cx : Ctx) (ty : Ty) : List Stmt :=
  if isRustString ty then [.take .recv .ext] else
  match ty with
  | .rustBox _ => [.boxFromRaw .recv .ext]
  | .rustVec _ => [.take .recv .ext]
  | .uniquePtr _ => [.fromRaw .recv .ext]
  | .ref .. | .str .. | .sliceRef .. => [.use .recv .ext]
  | ty => if cx.needsIndirect ty then [.bitcopy .recv .ext] else [.use .recv .ext]

/-! ### A call -/

/-- An argument: its type, the object passed, and whether the callee keeps it rather than destroy it. -/
structure Arg where
  ty : Ty
  val : Option Obj
  keep : Bool

/-- At the start of the shim of the caller its parameter holds the object, and its destructor will run. -/
def start (v : Option Obj) : State := ⟨fun | .param => .obj v | _ => .dead, [.param], []⟩

/-- The user's function has returned or thrown, and has destroyed the parameter or not. -/
def callee (keep : Bool) (σ : State) : Option (Option Obj × State) :=
  match σ.cells .recv with
  | .obj o => some (o, { σ.set .recv .dead with drops := σ.drops ++ (if keep then [] else destroyed o) })
  | _ => none

/-- The statements of one phase, for every argument. -/
def phase (f : Ty → List Stmt) (as : List (Arg × State)) : Option (List (Arg × State)) :=
  as.mapM fun a => (execAll (f a.1.ty) a.2).map (a.1, ·)

/-- What came of a call: what the callee was handed and what has been destroyed. -/
structure Result where
  received : List (Option Obj)
  drops : List Nat
  deriving DecidableEq

/-- The order of things in a call: set up, evaluate the arguments of one shim, evaluate those of the other, call the user,
leave the shims.  All arguments of one phase are evaluated before the next.  That an exception of C++ or an error of
Rust leaves the shims in the same way is because neither has code that depends on it (`?` after the call in
macro/src/expand.rs:637, `throw` after the call in gen/src/write.rs:1149). -/
def call (setup pass receive : Ty → List Stmt) (as : List Arg) : Option Result :=
  (phase setup (as.map fun a => (a, start a.val))).bind fun s1 =>
  (phase pass s1).bind fun s2 =>
  (phase receive s2).bind fun s3 =>
  (s3.mapM fun a => callee a.1.keep a.2).map fun done =>
  ⟨done.map (·.1), done.flatMap (·.2.finish)⟩

/-- A call of a C++ function from Rust. -/
def rustCallsCxx (cxR cxC : Ctx) (as : List Arg) : Option Result :=
  call (rustSetup cxR) (rustPass cxR) (cxxReceive cxC) as

/-- A call of a Rust function from C++, or of a Rust function pointer from C++ through a trampoline. -/
def cxxCallsRust (cxC cxR : Ctx) (as : List Arg) : Option Result :=
  call (cxxSetup cxC) (cxxPass cxC) (rustReceive cxR) as

/-! ### Return values -/

/-- gen/src/write.rs:813-889: how `write_cxx_function_shim` returns what the user returned. -/
def cxxReturn (cx : Ctx) (throws : Bool) (ty : Ty) : List Stmt :=
  if throws || cx.needsIndirect ty then
    match ty with
    | .rustBox _ => [.release .ext .param, .store .wrap .ext]
    | .uniquePtr _ => [.release .ext .param, .store .wrap .ext]
    | _ => [.store .wrap .param]
  else
    match ty with
    | .rustBox _ => [.release .ext .param]
    | .uniquePtr _ => [.release .ext .param]
    | _ => [.copy .ext .param]

/-- macro/src/expand.rs:628-735: what `expand_cxx_function_shim` makes of it. -/
def rustTakeReturn (cx : Ctx) (throws : Bool) (ty : Ty) : List Stmt :=
  let init := if throws || cx.needsIndirect ty then [Stmt.assumeInit .ext .wrap] else []
  init ++ match ty with
    | .rustBox _ => [.boxFromRaw .recv .ext]
    | .uniquePtr _ => [.fromRaw .recv .ext]
    | _ => [.use .recv .ext]

/-- macro/src/expand.rs:1070-1127: how `expand_rust_function_shim_impl` returns what the user returned. -/
def rustReturn (cx : Ctx) (throws : Bool) (ty : Ty) : List Stmt :=
  (match ty with
    | .rustBox _ => [.intoRaw .ext .param]
    | .uniquePtr _ => [.intoRaw .ext .param]
    | _ => [.use .ext .param]) ++
  if throws || cx.needsIndirect ty then [.store .wrap .ext] else []

/-- gen/src/write.rs:1067-1162: what `write_rust_function_shim_impl` makes of it. -/
def cxxTakeReturn (cx : Ctx) (throws : Bool) (ty : Ty) : List Stmt :=
  if throws || cx.needsIndirect ty then [.moveRepr .recv .wrap]
  else match ty with
    | .rustBox _ => [.fromRaw .recv .ext]
    | .uniquePtr _ => [.fromRaw .recv .ext]
    | _ => [.copy .recv .ext]

/-- The return value on its way: what the caller has in the end, and what has been destroyed. -/
def giveBack (ret take : List Stmt) (v : Option Obj) : Option (Option Obj × List Nat) :=
  (execAll ret (start v)).bind fun σ => (execAll take σ).bind fun σ => match σ.cells .recv with
    | .obj o => some (o, (σ.set .recv .dead).finish)
    | _ => none

end Verif.Shim
