import Verif.Props.Unicode
import Verif.Props.Trie
import Verif.Props.Vocab
import Verif.Props.Bert
import Verif.Props.Api
import Verif.Props.Bpe
import Verif.Props.Reals
import Verif.Props.Roberta
import Verif.Props.EmptyInput
import Verif.Props.Eval
import Verif.Props.Handle
import Verif.Props.IllFormed
import Verif.Props.Log
import Verif.Props.Examples
import Verif.Props.Keys
import Verif.Props.Load
import Verif.Props.Defaults
import Verif.Props.Quantize
import Verif.Props.QuantizeFile
import Verif.Props.QuantizeLog
import Verif.Props.Loaded
import Verif.Props.Pipeline
import Verif.Props.Convert
import Verif.Props.FillMask
import Verif.Props.Format
import Verif.Props.FileFormat
import Verif.Props.Grammar
import Verif.Props.Args
import Verif.Props.Mask
import Verif.Props.Transformers
import Verif.Props.TypeNames
import Verif.Props.RepoTests
import Verif.Props.Program
import Verif.Props.CppApi
import Verif.Props.Debug
import Verif.Props.Memory
import Verif.Props.Nodes
import Verif.Props.TrieStrings
import Verif.Props.TestDriver
import Verif.Props.Regex
import Verif.Props.SizeT
import Verif.Props.RobertaRun
import Verif.Props.BertLog
import Verif.Props.LoadLog
import Verif.Props.RobertaLog
import Verif.Props.RobertaStory
import Verif.Props.EvalLog
import Verif.Props.Count
import Verif.Props.Pattern
import Verif.Props.ConvertLog
import Verif.Props.DebugLog
import Verif.Props.StoryWords
import Verif.Props.Perm
import Verif.Props.Padding
import Verif.Props.Pointers
import Verif.Props.Scores
import Verif.Props.TopK
import Verif.Props.Chain
import Verif.Props.Toolchain
import Verif.Props.Leftover
import Verif.Props.Again
import Verif.Props.Detour
import Verif.Props.DetourExact
