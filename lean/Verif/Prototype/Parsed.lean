import Verif.Prototype.Claims
import Verif.Parse.ItemProps
/-!
# What the parser says of the types of a bridge
-/
namespace Verif.Prototype
open Verif.Syntax Verif.Types Verif.Check Verif.Parse Verif.Abi Verif.RustSig Verif.CxxText Verif.Mangle

/-- `&str` is written with the name `str`, and no function pointer returns `()`. -/
def Tidy : Ty → Prop
  | .str p _ _ t => p = false ∧ ∃ ls, t = .ident ⟨"str", ls⟩
  | .fn _ _ r _ => r ≠ some .void
  | _ => True

def TidyAll (t : Ty) : Prop := ∀ u, Within u t → Tidy u

theorem tidyAll_of {t : Ty} (h : Tidy t) (hp : ∀ u, Part u t → TidyAll u) : TidyAll t := by
  intro u hu
  cases hu with
  | self => exact h
  | part hp' hu' => exact hp _ hp' u hu'

theorem generic_tidy {n : Ident} {make : Ty → Ty} (h : generic n = some make) {t : Ty} (ht : TidyAll t) : TidyAll (make t) := by
  unfold generic at h
  repeat' split at h
  all_goals first
    | (cases h; refine tidyAll_of trivial ?_; intro u hu; cases hu; exact ht)
    | cases h

theorem parseArgs_each {args : List (Option Ident × RTy)} {tys : List Ty} (h : parseArgs args = .ok tys) :
    ∀ t ∈ tys, ∃ a ∈ args, parseType a.2 = .ok t := by
  induction args generalizing tys with
  | nil => simp only [parseArgs] at h; cases h; simp
  | cons a rest ih =>
    obtain ⟨n, w⟩ := a
    simp only [parseArgs] at h
    cases h1 : parseType w with
    | error e => rw [h1] at h; cases h
    | ok ty =>
      rw [h1] at h
      cases h2 : parseArgs rest with
      | error e => rw [h2] at h; cases h
      | ok tys' =>
        rw [h2] at h; cases h
        intro t ht
        rcases List.mem_cons.1 ht with rfl | ht
        · exact ⟨_, .head _, h1⟩
        · obtain ⟨a, ha, hp⟩ := ih h2 t ht
          exact ⟨a, .tail _ ha, hp⟩

/-- A return type comes from a type that is written, and is not `()`. -/
theorem parseReturn_of {w : Option RTy} {t : Ty} {th : Bool} (h : parseReturn w = .ok (some t, th)) :
    t ≠ .void ∧ ∃ w', parseType w' = .ok t ∧ ∃ r, w = some r ∧ sizeOf w' ≤ sizeOf r := by
  unfold parseReturn at h
  split at h
  · cases h
  · next last arg =>
    split at h
    · split at h
      · cases h
      · cases h
      · next ty hne hp =>
        cases h
        exact ⟨hne, arg, hp, _, rfl, by simp; omega⟩
    · split at h
      · cases h
      · cases h
      · next ty hne hp => cases h; exact ⟨hne, _, hp, _, rfl, Nat.le_refl _⟩
  · split at h
    · cases h
    · cases h
    · next ty hne hp => cases h; exact ⟨hne, _, hp, _, rfl, Nat.le_refl _⟩

theorem parsed_tidy : ∀ (n : Nat) (w : RTy) (t : Ty), sizeOf w < n → parseType w = .ok t → TidyAll t := by
  intro n
  induction n with
  | zero => intro w t hn; omega
  | succ n ih =>
    intro w t hn h
    cases w with
    | reference l m w =>
      simp only [RTy.reference.sizeOf_spec] at hn
      rcases parse_reference.1 h with ⟨e, rfl, inner, hp, rfl⟩ | ⟨inner, hp, hr⟩
      · refine tidyAll_of trivial ?_
        intro u hu; cases hu
        simp only [RTy.slice.sizeOf_spec] at hn
        exact ih e inner (by omega) hp
      · have hi := ih w inner (by omega) hp
        have hdef : TidyAll (.ref false l m inner) := tidyAll_of trivial (by intro u hu; cases hu; exact hi)
        unfold refTo at hr
        split at hr
        · next n =>
          split at hr
          · next hs =>
            split at hr
            · cases hr
            · cases hr
              refine tidyAll_of ⟨rfl, n.generics, ?_⟩ (by intro u hu; cases hu)
              cases n; simp only at hs; rw [hs]
          · cases hr; exact hdef
        · cases hr; exact hdef
    | ptr m w =>
      simp only [RTy.ptr.sizeOf_spec] at hn
      rw [parseType] at h
      cases hp : parseType w with
      | error e => rw [hp] at h; cases h
      | ok inner =>
        rw [hp] at h; cases h
        exact tidyAll_of trivial (by intro u hu; cases hu; exact ih w inner (by omega) hp)
    | path q c b m as =>
      simp only [RTy.path.sizeOf_spec] at hn
      obtain ⟨rfl, rfl, rfl, h'⟩ := parse_path.1 h
      rcases h' with ⟨rfl, rfl⟩ | ⟨arg, make, inner, rfl, hg, hp, rfl⟩ | ⟨arg, p, l, mm, inner, rfl, rfl, hp, rfl⟩ |
        ⟨ls, rfl, -, rfl⟩
      · exact tidyAll_of trivial (by intro u hu; cases hu)
      · exact generic_tidy hg (ih arg inner (by simp at hn; omega) hp)
      · have := ih arg _ (by simp at hn; omega) hp
        refine tidyAll_of trivial ?_
        intro u hu; cases hu
        exact fun v hv => this v (.part (.ref ..) hv)
      · exact tidyAll_of trivial (by intro u hu; cases hu)
    | array w len =>
      simp only [RTy.array.sizeOf_spec] at hn
      rw [parseType] at h
      cases hp : parseType w with
      | error e => rw [hp] at h; cases h
      | ok inner =>
        rw [hp] at h
        dsimp only at h
        split at h
        · cases h
        · cases h
          exact tidyAll_of trivial (by intro u hu; cases hu; exact ih w inner (by omega) hp)
    | bareFn b u abi args v output =>
      simp only [RTy.bareFn.sizeOf_spec] at hn
      rw [parseType] at h
      split at h
      · cases h
      · split at h
        · cases h
        · split at h
          · cases h
          · next tys ha =>
            split at h
            · cases h
            · next ret throws hr =>
              cases h
              refine tidyAll_of ?_ ?_
              · rintro rfl; exact (parseReturn_of hr).1 rfl
              · intro x hx
                cases hx with
                | fnArg _ _ _ _ hx =>
                  obtain ⟨a, hm, hp⟩ := parseArgs_each ha x hx
                  have := List.sizeOf_lt_of_mem hm
                  have : sizeOf a.2 < sizeOf a := by cases a; simp; omega
                  exact ih a.2 x (by omega) hp
                | fnRet =>
                  obtain ⟨_, w', hp, r, rfl, hle⟩ := parseReturn_of hr
                  exact ih w' x (by simp at hn; omega) hp
    | tuple ts =>
      cases ts with
      | nil => rw [parseType] at h; cases h; exact tidyAll_of trivial (by intro u hu; cases hu)
      | cons => rw [parseType] at h; cases h
    | slice w => rw [parseType] at h; cases h
    | other => rw [parseType] at h; cases h

theorem type_tidy {w : RTy} {t : Ty} (h : parseType w = .ok t) : TidyAll t := parsed_tidy _ w t (Nat.lt_succ_self _) h

theorem return_tidy {w : Option RTy} {t : Ty} {th : Bool} (h : parseReturn w = .ok (some t, th)) : TidyAll t := by
  obtain ⟨_, w', hp, _⟩ := parseReturn_of h
  exact type_tidy hp

theorem sig_tidy {src : FnSrc} {sig : Sig} (h : SigIs src sig) : ∀ t ∈ sig.args.map (·.ty) ++ sig.ret.toList, TidyAll t := by
  intro t ht
  rcases List.mem_append.1 ht with ht | ht
  · obtain ⟨v, hv, rfl⟩ := List.mem_map.1 ht
    obtain ⟨i, hi, rfl⟩ := List.mem_iff_getElem.1 hv
    have hi' : i < src.inputs.length := by rw [← h.arity]; exact hi
    have ha := h.arguments i _ _ (List.getElem?_eq_getElem hi') (List.getElem?_eq_getElem hi)
    generalize src.inputs[i] = a at ha
    generalize sig.args[i] = b at ha
    cases ha with
    | named hp => exact type_tidy hp
    | unnamed hp => exact type_tidy hp
  · have hr : sig.ret = some t := by simpa using ht
    have := h.result
    rw [hr] at this
    exact return_tidy this

theorem self_types {outs : List Out} {a b : Api} (h : SelfIs outs a b) : writtenTypes b = writtenTypes a := by
  cases h <;> rfl

/-- Every type of a bridge that is read is tidy. -/
theorem items_tidy {r : Readers} {checks trusted : Bool} {ns : Namespace} {items : List ItemSrc} {outs : List Out}
    (h : parseItems r checks trusted ns items = ([], outs)) {t : Ty} (ho : Occurs (outs.map (·.api)) t) : Tidy t := by
  obtain ⟨api, ha, w, hw, hin⟩ := ho
  obtain ⟨o, ho, rfl⟩ := List.mem_map.1 ha
  suffices TidyAll w from this t hin
  obtain ⟨parts, h1, rfl⟩ := items_exact h
  obtain ⟨part, hp, ho'⟩ := List.mem_flatten.1 ho
  obtain ⟨item, hi, h2⟩ := h1.right hp
  cases h2 with
  | struct h2 =>
    obtain ⟨_, _, _, _, vars, s, _, _, _, _, hf, _, h3, _, _, _, h4⟩ := h2
    simp at ho'; subst ho'
    rw [h3] at hw
    simp only [writtenTypes, h4, List.map_map, List.mem_map] at hw
    obtain ⟨v, hv, rfl⟩ := hw
    obtain ⟨_, _, _, _, _, _, _, _, _, h5⟩ := hf.right hv
    exact type_tidy h5
  | enum h2 =>
    obtain ⟨_, _, _, _, e, _, _, _, _, _, _, _, _, _, h3, _⟩ := h2
    simp at ho'; subst ho'
    rw [h3] at hw
    simp only [writtenTypes, List.mem_singleton] at hw
    subst hw
    exact tidyAll_of trivial (by intro u hu; cases hu)
  | impl h2 =>
    obtain ⟨_, _, _, i, _, _, _, _, _, _, h3, _, _, h4⟩ := h2
    simp at ho'; subst ho'
    rw [h3] at hw
    simp only [writtenTypes, List.mem_singleton] at hw
    subst hw
    exact type_tidy h4
  | @block m _ h2 =>
    obtain ⟨conds, found, others, lang, before, _, hl, hsafe, h3, h4⟩ := h2
    obtain ⟨o1, h5, h6⟩ := h4.right ho'
    rw [self_types h6.2.2] at hw
    obtain ⟨src, h7, h8⟩ := h3.right h5
    cases h8 with
    | type h8 =>
      obtain ⟨_, _, _, t, _, _, _, hk, _⟩ := h8
      rcases hk with ⟨_, hk⟩ | ⟨_, hk⟩ <;> (rw [hk] at hw; cases hw)
    | bounded _ h8 =>
      obtain ⟨_, _, _, t, _, _, _, hk, _⟩ := h8
      rcases hk with ⟨_, hk⟩ | ⟨_, hk⟩ <;> (rw [hk] at hw; cases hw)
    | «alias» h8 =>
      obtain ⟨_, _, _, t, _, _, _, _, hk, _⟩ := h8
      rw [hk] at hw; cases hw
    | «include» _ _ _ _ _ hk => rw [hk] at hw; cases hw
    | fn h8 =>
      obtain ⟨_, _, _, fn, _, _, _, hk, _, _, hsig, _⟩ := h8
      rcases hk with ⟨_, hk⟩ | ⟨_, hk⟩ <;> (rw [hk] at hw; exact sig_tidy hsig w hw)

theorem items_str {r : Readers} {checks trusted : Bool} {ns : Namespace} {items : List ItemSrc} {outs : List Out}
    (h : parseItems r checks trusted ns items = ([], outs)) : StrWritten (outs.map (·.api)) :=
  fun _ _ _ _ ho => items_tidy h ho

end Verif.Prototype
