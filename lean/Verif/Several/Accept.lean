import Verif.Several.Props
import Verif.Check.Exact
/-!
# C109: bridges that are accepted alone are accepted in one file
-/
namespace Verif.Several
open Verif.Syntax Verif.Types Verif.Check Verif.Check.Rules

variable {bs : List (List Api)} {b : List Api} {g : Generator}

theorem same_bridge (ha : Apart bs) {b c : List Api} (hb : b ∈ bs) (hc : c ∈ bs) {n : Ident} (h1 : definitions b n ≠ [])
    (h2 : definitions c n ≠ []) : c = b := by
  obtain ⟨l, r, rfl⟩ := List.append_of_mem hb
  rw [Apart, List.pairwise_append, List.pairwise_cons] at ha
  simp only [List.mem_append, List.mem_cons] at hc
  rcases hc with hc | hc | hc
  · exact absurd (ha.2.2 c hc b List.mem_cons_self n) (by simp [h1, h2])
  · exact hc
  · exact absurd (ha.2.1.1 c hc n) (by simp [h1, h2])

theorem mem_of_definitions {apis : List Api} {n : Ident} (h : definitions apis n ≠ []) :
    ∃ a ∈ apis, ∃ k, defines a = some (n, k) := by
  obtain ⟨k, hk⟩ := List.exists_mem_of_ne_nil _ h
  rw [definitions, List.mem_map] at hk
  obtain ⟨d, hd, rfl⟩ := hk
  obtain ⟨hd, hn⟩ := List.mem_filter.1 hd
  obtain ⟨a, ha, hda⟩ := List.mem_filterMap.1 hd
  exact ⟨a, ha, d.2, by rw [hda, ← of_decide_eq_true hn]⟩

/-- Only an alias could have the name of a builtin type. -/
theorem not_builtin (hf : Follows g b) (hal : ∀ a, Api.typeAlias a ∈ b → a.name.rust ∉ builtins) {n : Ident}
    (hn : definitions b n ≠ []) : n ∉ builtins := by
  obtain ⟨a, ha, k, hk⟩ := mem_of_definitions hn
  have hi := hf.items a ha
  have hres : n ∉ reserved → n ∉ builtins := fun h h' => h (List.mem_append_right _ h')
  cases a with
  | struct s => simp only [defines, Option.some.injEq, Prod.mk.injEq] at hk; exact hres (hk.1 ▸ hi.name)
  | enum e =>
    obtain ⟨k', hk'⟩ := defines_enum e
    rw [hk'] at hk; cases hk; exact hres hi.name
  | cxxType t => simp only [defines, Option.some.injEq, Prod.mk.injEq] at hk; exact hres (hk.1 ▸ hi.name)
  | rustType t => simp only [defines, Option.some.injEq, Prod.mk.injEq] at hk; exact hres (hk.1 ▸ hi.name)
  | typeAlias a => simp only [defines, Option.some.injEq, Prod.mk.injEq] at hk; exact hk.1 ▸ hal a ha
  | _ => simp [defines] at hk

theorem definitions_file_nil {n : Ident} (h : ∀ b ∈ bs, definitions b n = []) : definitions (file bs) n = [] :=
  definitions_flatten_nil h

/-- What is needed of all the bridges. -/
structure Good (g : Generator) (bs : List (List Api)) : Prop where
  apart : Apart bs
  follows : ∀ b ∈ bs, Follows g b
  builtin : ∀ b ∈ bs, ∀ a, Api.typeAlias a ∈ b → a.name.rust ∉ builtins

/-- The name can be used in `b`. -/
def Known (b : List Api) (n : Ident) : Prop := n ∈ builtins ∨ definitions b n ≠ []

theorem known (hf : Follows g b) {n : NamedType} (ho : Occurs b (.ident n)) : Known b n.rust := by
  cases hf.types _ ho with
  | builtin h => exact .inl h
  | declared h => exact .inr h

variable (h : Good g bs) (hb : b ∈ bs)
include h hb

theorem Good.inside : Inside b (file bs) := Several.inside h.apart hb

theorem Good.defs {n : Ident} (hn : Known b n) : definitions (file bs) n = definitions b n := by
  by_cases hd : definitions b n = []
  · rw [hd]
    refine definitions_file_nil fun c hc => Classical.byContradiction fun hcn => ?_
    exact not_builtin (h.follows c hc) (h.builtin c hc) hcn (hn.resolve_right (by simp [hd]))
  · exact (h.inside hb).definitions hd

theorem Good.shared {n : Ident} (hn : Known b n) : Shared (file bs) n ↔ Shared b n := by
  simp only [Shared, h.defs hb hn]

theorem Good.cxx {n : Ident} (hn : Known b n) : Cxx (file bs) n ↔ Cxx b n := by simp only [Cxx, h.defs hb hn]

theorem Good.rust {n : Ident} (hn : Known b n) : Rust (file bs) n ↔ Rust b n := by simp only [Rust, h.defs hb hn]

theorem Good.alias {n : Ident} (hn : Known b n) : Rules.Alias (file bs) n ↔ Rules.Alias b n := by
  simp only [Rules.Alias, h.defs hb hn]

theorem Good.plain {n : Ident} (hn : Known b n) : Rules.Plain (file bs) n ↔ Rules.Plain b n := by
  simp only [Rules.Plain, h.cxx hb hn, h.alias hb hn, h.shared hb hn]

omit h in
theorem sub {a : Api} (ha : a ∈ b) : a ∈ file bs := List.mem_flatten.2 ⟨b, hb, ha⟩

omit h in
theorem sub_occurs {t : Ty} (ho : Occurs b t) : Occurs (file bs) t := by
  obtain ⟨a, ha, w⟩ := ho; exact ⟨a, sub hb ha, w⟩

omit h in
theorem moved_up {n : Ident} (hm : Moved b n) : Moved (file bs) n := by
  have hfn : ∀ {f}, HasFn b f → HasFn (file bs) f := fun hf => hf.imp (sub hb) (sub hb)
  cases hm with
  | field h1 h2 h3 => exact .field (sub hb h1) h2 h3
  | argument h1 h2 h3 => exact .argument (hfn h1) h2 h3
  | result h1 h2 => exact .result (hfn h1) h2
  | mutArgument h1 h2 h3 => exact .mutArgument (hfn h1) h2 h3
  | mutResult h1 h2 => exact .mutResult (hfn h1) h2
  | mutSelf h1 h2 h3 h4 h5 => exact .mutSelf (hfn h1) h2 h3 h4 h5
  | box ho => exact .box (sub_occurs hb ho)
  | vec ho => exact .vec (sub_occurs hb ho)
  | slice ho => exact .slice (sub_occurs hb ho)

theorem Good.moved_down {n : Ident} (hn : definitions b n ≠ []) (hm : Moved (file bs) n) : Moved b n := by
  have hnb := not_builtin (h.follows b hb) (h.builtin b hb) hn
  have hdown : ∀ {c}, c ∈ bs → Moved c n → Known c n → Moved b n := by
    intro c hc hm hk
    have hd := hk.resolve_left hnb
    rw [← same_bridge h.apart hb hc hn hd]; exact hm
  have hfn : ∀ {f}, HasFn (file bs) f → ∃ c ∈ bs, HasFn c f := by
    rintro f (hf | hf)
    · obtain ⟨c, hc, hfc⟩ := List.mem_flatten.1 hf; exact ⟨c, hc, .inl hfc⟩
    · obtain ⟨c, hc, hfc⟩ := List.mem_flatten.1 hf; exact ⟨c, hc, .inr hfc⟩
  have hocc : ∀ {t}, Occurs (file bs) t → ∃ c ∈ bs, Occurs c t := by
    rintro t ⟨a, ha, w⟩
    obtain ⟨c, hc, hac⟩ := List.mem_flatten.1 ha; exact ⟨c, hc, a, hac, w⟩
  cases hm with
  | @field s f g h1 h2 h3 =>
    obtain ⟨c, hc, h1⟩ := List.mem_flatten.1 h1
    exact hdown hc (.field h1 h2 h3) (known (n := ⟨n, g⟩) (h.follows c hc) (h3 ▸ field_occurs h1 h2))
  | @argument f a g h1 h2 h3 =>
    obtain ⟨c, hc, h1⟩ := hfn h1
    exact hdown hc (.argument h1 h2 h3) (known (n := ⟨n, g⟩) (h.follows c hc) (h3 ▸ Abi.arg_occurs h1 h2))
  | @result f g h1 h2 =>
    obtain ⟨c, hc, h1⟩ := hfn h1
    exact hdown hc (.result h1 h2) (known (n := ⟨n, g⟩) (h.follows c hc) (Abi.ret_occurs h1 h2))
  | @mutArgument f a l g h1 h2 h3 =>
    obtain ⟨c, hc, h1⟩ := hfn h1
    exact hdown hc (.mutArgument h1 h2 h3)
      (known (n := ⟨n, g⟩) (h.follows c hc) (Abi.occurs_part (h3 ▸ Abi.arg_occurs h1 h2) (.ref ..)))
  | @mutResult f l g h1 h2 =>
    obtain ⟨c, hc, h1⟩ := hfn h1
    exact hdown hc (.mutResult h1 h2) (known (n := ⟨n, g⟩) (h.follows c hc) (Abi.occurs_part (Abi.ret_occurs h1 h2) (.ref ..)))
  | @mutSelf f r h1 h2 h3 h4 h5 =>
    obtain ⟨c, hc, h1⟩ := hfn h1
    have hok : FnOk g c f := by
      rcases h1 with h1 | h1
      · exact (h.follows c hc).items _ h1
      · exact (h.follows c hc).items _ h1
    exact hdown hc (.mutSelf h1 h2 h3 h4 h5) (.inr (h3 ▸ (hok.receiver r h2).2.1))
  | @box g ho =>
    obtain ⟨c, hc, ho⟩ := hocc ho
    exact hdown hc (.box ho) (known (n := ⟨n, g⟩) (h.follows c hc) (Abi.occurs_part ho (.rustBox _)))
  | @vec g ho =>
    obtain ⟨c, hc, ho⟩ := hocc ho
    exact hdown hc (.vec ho) (known (n := ⟨n, g⟩) (h.follows c hc) (Abi.occurs_part ho (.rustVec _)))
  | @slice l m g ho =>
    obtain ⟨c, hc, ho⟩ := hocc ho
    exact hdown hc (.slice ho) (known (n := ⟨n, g⟩) (h.follows c hc) (Abi.occurs_part ho (.sliceRef ..)))

theorem Good.opaque {n : Ident} (hn : Known b n) (ho : Opaque (file bs) n) : Opaque b n :=
  ⟨(h.cxx hb hn).1 ho.1, fun hs => ho.2.1 ((h.shared hb hn).2 hs),
    fun hm => ho.2.2 ⟨(h.alias hb hn).2 hm.1, moved_up hb hm.2⟩⟩

theorem Good.unsized {t : Ty} (ho : Occurs b t) (hu : Unsized (file bs) t) : Unsized b t := by
  induction hu with
  | cxxString => exact .cxxString
  | cxx hc => exact .cxx (h.opaque hb (known (h.follows b hb) ho) hc)
  | rust hr => exact .rust ((h.rust hb (known (h.follows b hb) ho)).1 hr)
  | cxxVector => exact .cxxVector
  | fn => exact .fn
  | void => exact .void
  | array _ ih => exact .array (ih (Abi.occurs_part ho (.array ..)))

theorem Good.pinned {t : Ty} (ho : Occurs b t) (hp : Pinned (file bs) t) : Pinned b t := by
  cases hp with
  | cxxString => exact .cxxString
  | cxx hc => exact .cxx (h.opaque hb (known (h.follows b hb) ho) hc)
  | cxxVector => exact .cxxVector

theorem Good.typeOk {t : Ty} (ho : Occurs b t) : TypeOk (file bs) t := by
  have hk : ∀ {n : NamedType}, Occurs b (.ident n) → Known b n.rust := known (h.follows b hb)
  cases (h.follows b hb).types t ho with
  | builtin hn => exact .builtin hn
  | @declared t hn => exact .declared (by rw [Declared, h.defs hb (.inr hn)]; exact hn)
  | box h1 h2 => exact .box h1 fun h' => h2 ((h.plain hb (hk (Abi.occurs_part ho (.rustBox _)))).1 h')
  | vec h1 h2 => exact .vec h1 fun h' => h2 ((h.plain hb (hk (Abi.occurs_part ho (.rustVec _)))).1 h')
  | vecOfStr => exact .vecOfStr
  | uniquePtr h1 h2 => exact .uniquePtr h1 fun h' => h2 ((h.rust hb (hk (Abi.occurs_part ho (.uniquePtr _)))).1 h')
  | uniqueVector => exact .uniqueVector
  | sharedPtr h1 h2 => exact .sharedPtr h1 fun h' => h2 ((h.rust hb (hk (Abi.occurs_part ho (.sharedPtr _)))).1 h')
  | weakPtr h1 h2 => exact .weakPtr h1 fun h' => h2 ((h.rust hb (hk (Abi.occurs_part ho (.weakPtr _)))).1 h')
  | cxxVector h1 h2 => exact .cxxVector h1 fun h' => h2 ((h.rust hb (hk (Abi.occurs_part ho (.cxxVector _)))).1 h')
  | ref h1 h2 => exact .ref h1 fun hm hp h' => h2 hm hp (h.pinned hb (Abi.occurs_part ho (.ref ..)) h')
  | ptr h1 => exact .ptr h1
  | slice h1 => exact .slice fun h' => h1 (h.unsized hb (Abi.occurs_part ho (.sliceRef ..)) h')
  | sliceOf h1 =>
    have hn := hk (Abi.occurs_part ho (.sliceRef ..))
    exact .sliceOf (h1.imp (h.rust hb hn).2 (h.alias hb hn).2)
  | array h1 => exact .array fun h' => h1 (h.unsized hb (Abi.occurs_part ho (.array ..)) h')
  | fn h1 => exact .fn h1
  | str => exact .str
  | void => exact .void

theorem Good.borrowing {n : Ident} (hbo : Borrowing b n) : Borrowing (file bs) n := by
  obtain ⟨before, api, after, p, ls, rfl, hr, hp, hls, hno⟩ := hbo
  obtain ⟨pre, post, hall, hd⟩ := (h.inside hb).parts
  have hn : Types.definitions (before ++ api :: after) n ≠ [] := by
    have hdr := defines_resolves api
    rw [hr] at hdr
    obtain ⟨d, hd, hdn⟩ := Option.map_eq_some_iff.1 hdr
    have : d.1 = n := by rw [hdn]; exact hp
    exact this ▸ defines_of_mem (by simp) hd
  refine ⟨pre ++ before, api, after ++ post, p, ls, by rw [hall]; simp, hr, hp, hls, fun c hc q gs hq hqn => ?_⟩
  rcases List.mem_append.1 hc with hc | hc
  · exact hno c hc q gs hq hqn
  · have hdr := defines_resolves c
    rw [hq] at hdr
    obtain ⟨d, hdc, hdn⟩ := Option.map_eq_some_iff.1 hdr
    have : d.1 = n := by rw [hdn]; exact hqn
    exact defines_of_mem hc hdc (this ▸ (hd n hn).2)

theorem Good.lends {t : Ty} (hl : Lends b t) : Lends (file bs) t := by
  cases hl with
  | ref => exact .ref
  | slice => exact .slice
  | named h1 h2 => exact .named h1 (h.borrowing hb h2)

theorem Good.fnOk {f : ExternFn} (hf : HasFn b f) (hok : FnOk g b f) : FnOk g (file bs) f where
  cxxLifetimes := hok.cxxLifetimes
  rustLifetimes := hok.rustLifetimes
  lifetimes := hok.lifetimes
  receiver r hr := by
    obtain ⟨h1, h2, h3, h4⟩ := hok.receiver r hr
    refine ⟨h1, by rw [Declared, h.defs hb (.inr h2)]; exact h2, fun e he hen => ?_, fun hm hp h' => ?_⟩
    · obtain ⟨k, hk⟩ := defines_enum e
      exact h3 e ((h.inside hb).back he hk (by rw [hen]; exact h2)) hen
    · exact h4 hm hp (h.opaque hb (.inr h2) h')
  args a ha := by
    have ho := Abi.arg_occurs hf ha
    have hok := hok.args a ha
    revert hok ho
    generalize a.ty = ty
    intro ho hok
    cases hok with
    | fn hl => exact .fn hl
    | ptr hu => exact .ptr hu
    | value h1 h2 => exact .value h1 fun h' => h2 (h.unsized hb ho h')
  ret t ht h' := hok.ret t ht (h.unsized hb (Abi.ret_occurs hf ht) h')
  mutReturn h1 h2 h3 := by
    rcases hok.mutReturn h1 h2 h3 with ⟨r, hr, hj⟩ | ⟨a, ha, t, ht, hl⟩
    · exact .inl ⟨r, hr, hj.imp_right (h.borrowing hb)⟩
    · exact .inr ⟨a, ha, t, ht, h.lends hb hl⟩

theorem Good.externTypeOk {t : ExternType} (hn : definitions b t.name.rust ≠ []) (hok : ExternTypeOk g b t) :
    ExternTypeOk g (file bs) t where
  name := hok.name
  lifetimes := hok.lifetimes
  derives := hok.derives
  bounds := hok.bounds
  opaque' := fun ⟨h1, h2, h3⟩ =>
    hok.opaque' ⟨(h.cxx hb (.inr hn)).1 h1, fun hs => h2 ((h.shared hb (.inr hn)).2 hs), h.moved_down hb hn h3⟩

theorem Good.itemOk {a : Api} (ha : a ∈ b) : ItemOk g (file bs) a := by
  have hok := (h.follows b hb).items a ha
  cases a with
  | «include» i => trivial
  | struct s =>
    have hn := defines_of_mem ha (defines_struct s)
    exact
      { name := hok.name, lifetimes := hok.lifetimes, fields := hok.fields, derives := hok.derives
        trusted := fun t ht he => hok.trusted t ((h.inside hb).back ht (d := (t.name.rust, .cxx)) rfl (by rw [he]; exact hn)) he
        sized := fun f hf h' => hok.sized f hf (h.unsized hb (field_occurs ha hf) h') }
  | enum e => exact hok
  | cxxType t => exact h.externTypeOk hb (defines_of_mem ha (d := (t.name.rust, .cxx)) rfl) hok
  | rustType t => exact h.externTypeOk hb (defines_of_mem ha (d := (t.name.rust, .rust)) rfl) hok
  | cxxFunction f => exact h.fnOk hb (.inl ha) hok
  | rustFunction f => exact h.fnOk hb (.inr ha) hok
  | typeAlias a => exact hok
  | impl i => exact hok

omit h hb

/-- **C109**.  If every bridge of a file is accepted by itself, no two give a type or function the same name, and no alias has
the name of a builtin type, then the file is accepted. -/
theorem file_accepted (ha : Apart bs) (hfn : ((file bs).filterMap signatureOf).Nodup)
    (hbuiltin : ∀ b ∈ bs, ∀ a, Api.typeAlias a ∈ b → a.name.rust ∉ builtins) (hacc : ∀ b ∈ bs, Accepted g b) :
    Accepted g (file bs) := by
  have h : Good g bs := ⟨ha, fun b hb => (accepted_exact g b).1 (hacc b hb), hbuiltin⟩
  refine (accepted_exact g _).2 ⟨fun n => ?_, hfn, fun a ha => ?_, fun t ho => ?_, fun a ha => ?_⟩
  · by_cases hex : ∃ b ∈ bs, definitions b n ≠ []
    · obtain ⟨b, hb, hn⟩ := hex
      rw [h.defs hb (.inr hn)]; exact (h.follows b hb).definedOnce n
    · refine .inl (.inl ?_)
      rw [definitions_file_nil fun b hb => Classical.byContradiction fun hn => hex ⟨b, hb, hn⟩]; simp
  · obtain ⟨b, hb, hab⟩ := List.mem_flatten.1 ha
    exact (h.follows b hb).names a hab
  · obtain ⟨a, ha, w⟩ := ho
    obtain ⟨b, hb, hab⟩ := List.mem_flatten.1 ha
    exact h.typeOk hb ⟨a, hab, w⟩
  · obtain ⟨b, hb, hab⟩ := List.mem_flatten.1 ha
    exact h.itemOk hb hab

end Verif.Several
