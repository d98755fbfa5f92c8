import Verif.Model.Demangle
import Verif.Props.Span
import Verif.Props.String
/-!
# Properties of `demangle` (C88)
-/
namespace Utki
open Demangle

/-- C strings are read up to their terminating NUL. -/
theorem makeStdString_cstr (alloc : Alloc) (text rest : List Byte) (hnz : ∀ b ∈ text, b ≠ 0) :
    makeStdString alloc (text ++ 0 :: rest) = if alloc text then .ok text else .throw badAlloc := by
  unfold makeStdString
  have := strlenLoop_eq (text ++ 0 :: rest) ((text ++ 0 :: rest).length + 1) 0 text.length (by simp; omega) (by simp) (by
    intro i hi
    exact ⟨text[i], by rw [Nat.zero_add, List.getElem?_append_left hi, List.getElem?_eq_getElem hi], hnz _ (List.getElem_mem hi)⟩)
  rw [this]
  simp

/-- C88: for every demangler that obeys the C++ ABI (it returns a new C string exactly if the status is 0), `demangle` gives the text of
this string, or the mangled name if there is none. The heap is afterwards what it was before: nothing leaks and nothing is freed twice,
also if copying the text throws `std::bad_alloc`. -/
theorem C88_demangle (d : Demangler) (alloc : Alloc) (name rest : List Byte) (hname : ∀ b ∈ name, b ≠ 0) (h : Heap)
    (hfresh : ∀ b ∈ h.live, b.1 < h.next) :
    (∀ text rest', d (name ++ 0 :: rest) = (0, some (text ++ 0 :: rest')) → (∀ b ∈ text, b ≠ 0) →
      (demangle d alloc (name ++ 0 :: rest) h).1 = (if alloc text then .ok text else .throw badAlloc) ∧
      (demangle d alloc (name ++ 0 :: rest) h).2.live = h.live) ∧
    (∀ status, status ≠ 0 → d (name ++ 0 :: rest) = (status, none) →
      demangle d alloc (name ++ 0 :: rest) h = (if alloc name then .ok name else .throw badAlloc, h)) := by
  constructor
  · intro text rest' hd ht
    have hfilter : h.live.filter (fun b => b.1 != h.next) = h.live := by
      rw [List.filter_eq_self]
      intro b hb
      have := hfresh b hb
      simp; omega
    unfold demangle
    have h1 : cxaDemangle d (name ++ 0 :: rest) h =
        (.ok (some h.next, 0), ⟨(h.next, text ++ 0 :: rest') :: h.live, h.next + 1⟩) := by
      unfold cxaDemangle; rw [hd]
    rw [Meth.bind_ok h1]
    simp only [if_true]
    unfold withScopeExit
    have h2 : readBlock alloc (some h.next) ⟨(h.next, text ++ 0 :: rest') :: h.live, h.next + 1⟩ =
        (if alloc text then .ok text else .throw badAlloc, ⟨(h.next, text ++ 0 :: rest') :: h.live, h.next + 1⟩) := by
      unfold readBlock
      simp only [List.find?_cons, beq_self_eq_true]
      rw [makeStdString_cstr alloc text rest' ht]
    have h3 : free (some h.next) ⟨(h.next, text ++ 0 :: rest') :: h.live, h.next + 1⟩ = (.ok (), ⟨h.live, h.next + 1⟩) := by
      unfold free
      simp [hfilter]
    rw [h2]
    cases alloc text with
    | true => simp only [if_true]; rw [Meth.bind_ok h3]; exact ⟨rfl, rfl⟩
    | false => simp only [Bool.false_eq_true, if_false]; rw [Meth.bind_ok h3]; exact ⟨rfl, rfl⟩
  · intro status hs hd
    unfold demangle
    have h1 : cxaDemangle d (name ++ 0 :: rest) h = (.ok (none, status), h) := by
      unfold cxaDemangle; rw [hd]
    rw [Meth.bind_ok h1]
    simp only [if_neg hs]
    rw [Meth.lift_eval, makeStdString_cstr alloc name rest hname]

/-- C88: with MSVC the name is returned without `class ` at its beginning. -/
theorem C88_msvc (cpp20 : Bool) (alloc : Alloc) (name rest : List Byte) (hname : ∀ b ∈ name, b ≠ 0) (halloc : ∀ t, alloc t = true) :
    (∀ t, name = str "class " ++ t → demangleMsvc cpp20 alloc (name ++ 0 :: rest) = .ok t) ∧
    ((¬ ∃ t, name = str "class " ++ t) → demangleMsvc cpp20 alloc (name ++ 0 :: rest) = .ok name) := by
  have key : demangleMsvc cpp20 alloc (name ++ 0 :: rest) =
      if starts_with cpp20 name (str "class ") then .ok (name.drop (str "class ").length) else .ok name := by
    unfold demangleMsvc
    rw [makeStdString_cstr alloc name rest hname, halloc]
    simp [halloc]
  have hsw := C20_starts_with cpp20 name (str "class ")
  rw [key]
  constructor
  · rintro t rfl
    rw [if_pos (hsw.mpr ⟨t, rfl⟩)]
    simp
  · intro hn
    rw [if_neg (fun h => hn (hsw.mp h))]

/-- A demangler that knows one name. -/
def oneName : Demangler := fun name => if name = str "3foo" ++ [0] then (0, some (str "foo" ++ [0])) else (-2, none)

example : demangle oneName (fun _ => true) (str "3foo" ++ [0]) ⟨[(7, [])], 8⟩ = (.ok (str "foo"), ⟨[(7, [])], 9⟩) ∧
    demangle oneName (fun _ => false) (str "3foo" ++ [0]) ⟨[(7, [])], 8⟩ = (.throw badAlloc, ⟨[(7, [])], 9⟩) ∧
    demangle oneName (fun _ => true) (str "3bar" ++ [0]) ⟨[(7, [])], 8⟩ = (.ok (str "3bar"), ⟨[(7, [])], 8⟩) ∧
    demangleMsvc false (fun _ => true) (str "class foo" ++ [0]) = .ok (str "foo") ∧
    demangleMsvc true (fun _ => true) (str "struct foo" ++ [0]) = .ok (str "struct foo") := by decide +kernel

end Utki
