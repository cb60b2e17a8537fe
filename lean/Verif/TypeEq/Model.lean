import Verif.Syntax.Ast
/-!
# `syntax/impls.rs`: equality and hashing of types
-/
namespace Verif.TypeEq
open Verif.Syntax

mutual
/-- syntax/impls.rs:66-84 `PartialEq for Type`, with `Ty1` (118-136), `Ref` (151-175),
`SliceRef` (231-253), `Signature` (307-363) inlined.  There is no arm for `Ptr` or `Array`, so
those fall to `(_, _) => false`.  `name == name2` of `Ty1` holds whenever the constructors agree. -/
def eqv : Ty → Ty → Bool
  | .ident a, .ident b => a.rust == b.rust && a.generics == b.generics
  | .rustBox a, .rustBox b => eqv a b
  | .uniquePtr a, .uniquePtr b => eqv a b
  | .sharedPtr a, .sharedPtr b => eqv a b
  | .weakPtr a, .weakPtr b => eqv a b
  | .ref p l m a, .ref p' l' m' b => p == p' && l == l' && m == m' && eqv a b
  | .str p l m a, .str p' l' m' b => p == p' && l == l' && m == m' && eqv a b
  | .rustVec a, .rustVec b => eqv a b
  | .cxxVector a, .cxxVector b => eqv a b
  | .fn u as r th, .fn u' as' r' th' =>
    u == u' && eqvOpt r r' && th == th' && as.length == as'.length && eqvZip as as'
  | .sliceRef l m a, .sliceRef l' m' b => l == l' && m == m' && eqv a b
  | .void, .void => true
  | _, _ => false
/-- `ret == ret2`, `Option<Type>` equality (syntax/impls.rs:338). -/
def eqvOpt : Option Ty → Option Ty → Bool
  | none, none => true
  | some a, some b => eqv a b
  | _, _ => false
/-- `args.iter().zip(args2).all(..)` (syntax/impls.rs:341-361). -/
def eqvZip : List Ty → List Ty → Bool
  | a :: as, b :: bs => eqv a b && eqvZip as bs
  | _, _ => true
end

/-- What is fed to the `Hasher`. -/
inductive Tok
  | disc (n : Nat)
  | text (s : String)
  | flag (b : Bool)
  | num (n : Nat)
  deriving DecidableEq, Repr

/-- `Hash for Option<Lifetime>` (derived): the variant, then the identifier. -/
def hashLifetime : Option Ident → List Tok
  | none => [.disc 0]
  | some l => [.disc 1, .text l]

mutual
/-- syntax/impls.rs:42-62 `Hash for Type` and the field hashes (138-149, 177-193, 217-229,
255-269, 293-305, 365-397), as the sequence of values written to the hasher.
`mem::discriminant` is the constructor number. -/
def hashStream : Ty → List Tok
  | .ident t => .disc 0 :: .text t.rust :: .num t.generics.length :: t.generics.map .text
  | .rustBox a => .disc 1 :: .text "Box" :: hashStream a
  | .rustVec a => .disc 2 :: .text "Vec" :: hashStream a
  | .uniquePtr a => .disc 3 :: .text "UniquePtr" :: hashStream a
  | .sharedPtr a => .disc 4 :: .text "SharedPtr" :: hashStream a
  | .weakPtr a => .disc 5 :: .text "WeakPtr" :: hashStream a
  | .ref p l m a => .disc 6 :: .flag p :: (hashLifetime l ++ .flag m :: hashStream a)
  | .ptr m a => .disc 7 :: .flag m :: hashStream a
  | .str p l m a => .disc 8 :: .flag p :: (hashLifetime l ++ .flag m :: hashStream a)
  | .cxxVector a => .disc 9 :: .text "CxxVector" :: hashStream a
  | .fn u as r th =>
    .disc 10 :: .flag false :: .flag u :: .disc 0 :: (hashList as ++ (hashOpt r ++ [.flag th]))
  | .void => [.disc 11]
  | .sliceRef l m a => .disc 12 :: (hashLifetime l ++ .flag m :: hashStream a)
  | .array a n => .disc 13 :: (hashStream a ++ [.num n])
/-- `for arg in args { ty.hash(state) }` (syntax/impls.rs:382-393). -/
def hashList : List Ty → List Tok
  | [] => []
  | a :: as => hashStream a ++ hashList as
/-- `ret.hash(state)` (syntax/impls.rs:394). -/
def hashOpt : Option Ty → List Tok
  | none => [.disc 0]
  | some a => .disc 1 :: hashStream a
end

end Verif.TypeEq
