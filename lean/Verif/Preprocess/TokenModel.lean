import Verif.Base
import Verif.Assoc
import Verif.DataLoader.UriModel

/-!
# Tokenizers

`src/modssc/preprocess/steps/text/hash_tokenizer.py`,
`src/modssc/preprocess/steps/text/vocab_tokenizer.py`.

Splitting a text into tokens (`str.lower().split()`) is a parameter; a text is represented by its
tokens.
-/

namespace ModSSC.Preprocess.Tokens
open ModSSC

/-- Ids and attention mask of one text. -/
abbrev Row := List Int × List Int

/-- The two loops that fill one row of the arrays of zeros (`hash_tokenizer.py:49-57`,
`vocab_tokenizer.py:78-83`): the first `L` tokens are written, one mask entry each. -/
def fillRow (L : Nat) (ids : List Int) : Row :=
  let ids := ids.take L
  (ids ++ List.replicate (L - ids.length) 0,
   List.replicate ids.length 1 ++ List.replicate (L - ids.length) 0)

/-- `hash_tokenizer.py:11-15` `_hash_token`; `digest` stands for the first four bytes of the MD5
digest. -/
def hashToken (digest : String → Nat) (vocabSize : Int) (tok : String) : Int :=
  2 + (digest tok : Int) % max 1 (vocabSize - 2)

/-- `hash_tokenizer.py:18-59` `HashTokenizerStep.transform`.  A negative `max_length` is refused by
`np.zeros`. -/
def hashTransform (digest : String → Nat) (vocabSize maxLength : Int) (texts : List (List String)) :
    Except PyErr (List Row) :=
  if maxLength < 0 then .error .valueError
  else .ok (texts.map (fun toks =>
    fillRow maxLength.toNat ((toks.filter (fun t => !t.isEmpty)).map (hashToken digest vocabSize))))

/-- `Counter.update` on the tokens of one text: counts in order of first occurrence. -/
def countTokens (counts : List (String × Nat)) (toks : List String) : List (String × Nat) :=
  toks.foldl (fun c t => Assoc.set c t ((Assoc.get c t).getD 0 + 1)) counts

/-- `Counter.most_common(n)`: by decreasing count, ties in order of first occurrence; `n ≤ 0` gives
nothing.  Models external code. -/
def mostCommon (counts : List (String × Nat)) (n : Int) : List (String × Nat) :=
  (counts.insertionSort (fun a b => b.2 ≤ a.2)).take n.toNat

/-- Parameters of `VocabTokenizerStep` (`vocab_tokenizer.py:31-35`). -/
structure VocabCfg where
  vocabSize : Int
  maxLength : Int
  minFreq : Int
  padToken : String
  unkToken : String

/-- The dictionary loop of `vocab_tokenizer.py:58-60`: `self._vocab[token] = len(self._vocab)`. -/
def addTokens (minFreq : Int) : List (String × Nat) → List (String × Nat) → List (String × Nat)
  | vocab, [] => vocab
  | vocab, (t, c) :: rest =>
    if minFreq ≤ (c : Int) then addTokens minFreq (Assoc.set vocab t vocab.length) rest
    else addTokens minFreq vocab rest

/-- `vocab_tokenizer.py:53-60`: the vocabulary built from token counts. -/
def buildVocab (cfg : VocabCfg) (counts : List (String × Nat)) : List (String × Nat) :=
  addTokens cfg.minFreq (Assoc.set (Assoc.set [] cfg.padToken 0) cfg.unkToken 1)
    (mostCommon counts (cfg.vocabSize - 2))

/-- `vocab_tokenizer.py:39-60` `fit`; fit indices are taken as not negative. -/
def vocabFit (cfg : VocabCfg) (texts : List (List String)) (fitIdx : List Nat) :
    Except PyErr (List (String × Nat)) := do
  let sel ← DataLoader.takeIdx texts fitIdx
  return buildVocab cfg (sel.foldl countTokens [])

/-- `vocab_tokenizer.py:62-92` `transform`: rows and `metadata.vocab_size`. -/
def vocabTransform (cfg : VocabCfg) (vocab : List (String × Nat)) (texts : List (List String)) :
    Except PyErr (List Row × Nat) :=
  if cfg.maxLength < 0 then .error .valueError
  else
    match Assoc.get vocab cfg.unkToken with
    | none => .error .keyError
    | some unk =>
      .ok (texts.map (fun toks => fillRow cfg.maxLength.toNat
        (toks.map (fun t => (((Assoc.get vocab t).getD unk : Nat) : Int)))), vocab.length)

end ModSSC.Preprocess.Tokens
