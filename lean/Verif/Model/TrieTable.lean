import Verif.Model.Trie
/-! Generated by tools/gentrie.py from SipMethodIndex.go and SipHeadersIndex.go – do not edit. -/
namespace Sip

/-- SipMethodIndex.go:22-247 `GetSipMethodIndex`: the branch of the first byte `A`. -/
def methodTrie_A : Trie :=
  .lits [⟨false, 0x43⟩, ⟨false, 0x4b⟩] (.acc 5 .fail)

/-- SipMethodIndex.go:22-247 `GetSipMethodIndex`: the branch of the first byte `B`. -/
def methodTrie_B : Trie :=
  .lits [⟨false, 0x59⟩, ⟨false, 0x45⟩] (.acc 6 .fail)

/-- SipMethodIndex.go:22-247 `GetSipMethodIndex`: the branch of the first byte `I`. -/
def methodTrie_I : Trie :=
  .byte ⟨false, 0x4e⟩ (.case ⟨false, 0x46⟩ (.byte ⟨false, 0x4f⟩ (.acc 4 .fail))
  (.case ⟨false, 0x56⟩ (.lits [⟨false, 0x49⟩, ⟨false, 0x54⟩, ⟨false, 0x45⟩] (.acc 1 .fail))
  (.fail)))

/-- SipMethodIndex.go:22-247 `GetSipMethodIndex`: the branch of the first byte `M`. -/
def methodTrie_M : Trie :=
  .lits [⟨false, 0x45⟩, ⟨false, 0x53⟩, ⟨false, 0x53⟩, ⟨false, 0x41⟩, ⟨false, 0x47⟩, ⟨false, 0x45⟩] (.acc 12 .fail)

/-- SipMethodIndex.go:22-247 `GetSipMethodIndex`: the branch of the first byte `N`. -/
def methodTrie_N : Trie :=
  .lits [⟨false, 0x4f⟩, ⟨false, 0x54⟩, ⟨false, 0x49⟩, ⟨false, 0x46⟩, ⟨false, 0x59⟩] (.acc 9 .fail)

/-- SipMethodIndex.go:22-247 `GetSipMethodIndex`: the branch of the first byte `O`. -/
def methodTrie_O : Trie :=
  .lits [⟨false, 0x50⟩, ⟨false, 0x54⟩, ⟨false, 0x49⟩, ⟨false, 0x4f⟩, ⟨false, 0x4e⟩, ⟨false, 0x53⟩] (.acc 11 .fail)

/-- SipMethodIndex.go:22-247 `GetSipMethodIndex`: the branch of the first byte `P`. -/
def methodTrie_P : Trie :=
  .case ⟨false, 0x52⟩ (.lits [⟨false, 0x41⟩, ⟨false, 0x43⟩, ⟨false, 0x4b⟩] (.acc 2 .fail))
  (.case ⟨false, 0x55⟩ (.lits [⟨false, 0x42⟩, ⟨false, 0x4c⟩, ⟨false, 0x49⟩, ⟨false, 0x53⟩, ⟨false, 0x48⟩] (.acc 13 .fail))
  (.fail))

/-- SipMethodIndex.go:22-247 `GetSipMethodIndex`: the branch of the first byte `R`. -/
def methodTrie_R : Trie :=
  .byte ⟨false, 0x45⟩ (.case ⟨false, 0x46⟩ (.lits [⟨false, 0x45⟩, ⟨false, 0x52⟩] (.acc 10 .fail))
  (.case ⟨false, 0x47⟩ (.lits [⟨false, 0x49⟩, ⟨false, 0x53⟩, ⟨false, 0x54⟩, ⟨false, 0x45⟩, ⟨false, 0x52⟩] (.acc 7 .fail))
  (.fail)))

/-- SipMethodIndex.go:22-247 `GetSipMethodIndex`: the branch of the first byte `S`. -/
def methodTrie_S : Trie :=
  .lits [⟨false, 0x55⟩, ⟨false, 0x42⟩, ⟨false, 0x53⟩, ⟨false, 0x43⟩, ⟨false, 0x52⟩, ⟨false, 0x49⟩, ⟨false, 0x42⟩, ⟨false, 0x45⟩] (.acc 8 .fail)

/-- SipMethodIndex.go:22-247 `GetSipMethodIndex`: the branch of the first byte `U`. -/
def methodTrie_U : Trie :=
  .lits [⟨false, 0x50⟩, ⟨false, 0x44⟩, ⟨false, 0x41⟩, ⟨false, 0x54⟩, ⟨false, 0x45⟩] (.acc 3 .fail)

/-- SipMethodIndex.go:22-247 `GetSipMethodIndex`: all branches. -/
def methodTrie : Trie :=
  .case ⟨false, 0x41⟩ methodTrie_A
  (.case ⟨false, 0x42⟩ methodTrie_B
  (.case ⟨false, 0x49⟩ methodTrie_I
  (.case ⟨false, 0x4d⟩ methodTrie_M
  (.case ⟨false, 0x4e⟩ methodTrie_N
  (.case ⟨false, 0x4f⟩ methodTrie_O
  (.case ⟨false, 0x50⟩ methodTrie_P
  (.case ⟨false, 0x52⟩ methodTrie_R
  (.case ⟨false, 0x53⟩ methodTrie_S
  (.case ⟨false, 0x55⟩ methodTrie_U
  (.fail))))))))))

/-- SipHeadersIndex.go:129-2857 `GetSipHeaderIndex`: the branch of the first byte `a`. -/
def headerTrie_a : Trie :=
  .acc 72 (.case ⟨true, 0x63⟩ (.byte ⟨true, 0x63⟩ (.case ⟨true, 0x65⟩ (.byte ⟨true, 0x70⟩ (.byte ⟨true, 0x74⟩ (.byte ⟨false, 0x2d⟩ (.case ⟨true, 0x63⟩ (.lits [⟨true, 0x6f⟩, ⟨true, 0x6e⟩, ⟨true, 0x74⟩, ⟨true, 0x61⟩, ⟨true, 0x63⟩, ⟨true, 0x74⟩] (.acc 72 .fail))
    (.case ⟨true, 0x72⟩ (.lits [⟨true, 0x65⟩, ⟨true, 0x73⟩, ⟨true, 0x6f⟩, ⟨true, 0x75⟩, ⟨true, 0x72⟩, ⟨true, 0x63⟩, ⟨true, 0x65⟩, ⟨false, 0x2d⟩, ⟨true, 0x70⟩, ⟨true, 0x72⟩, ⟨true, 0x69⟩, ⟨true, 0x6f⟩, ⟨true, 0x72⟩, ⟨true, 0x69⟩, ⟨true, 0x74⟩, ⟨true, 0x79⟩] (.acc 87 .fail))
    (.fail))))))
   (.case ⟨true, 0x70⟩ (.byte ⟨true, 0x65⟩ (.byte ⟨true, 0x74⟩ (.acc 1 (.byte ⟨false, 0x2d⟩ (.case ⟨true, 0x65⟩ (.lits [⟨true, 0x6e⟩, ⟨true, 0x63⟩, ⟨true, 0x6f⟩, ⟨true, 0x64⟩, ⟨true, 0x69⟩, ⟨true, 0x6e⟩, ⟨true, 0x67⟩] (.acc 2 .fail))
    (.case ⟨true, 0x6c⟩ (.lits [⟨true, 0x61⟩, ⟨true, 0x6e⟩, ⟨true, 0x67⟩, ⟨true, 0x75⟩, ⟨true, 0x61⟩, ⟨true, 0x67⟩, ⟨true, 0x65⟩] (.acc 3 .fail))
    (.fail)))))))
   (.fail))))
  (.case ⟨true, 0x6c⟩ (.case ⟨true, 0x65⟩ (.lits [⟨true, 0x72⟩, ⟨true, 0x74⟩, ⟨false, 0x2d⟩, ⟨true, 0x69⟩, ⟨true, 0x6e⟩, ⟨true, 0x66⟩, ⟨true, 0x6f⟩] (.acc 4 .fail))
   (.case ⟨true, 0x6c⟩ (.byte ⟨true, 0x6f⟩ (.byte ⟨true, 0x77⟩ (.acc 5 (.lits [⟨false, 0x2d⟩, ⟨true, 0x65⟩, ⟨true, 0x76⟩, ⟨true, 0x65⟩, ⟨true, 0x6e⟩, ⟨true, 0x74⟩, ⟨true, 0x73⟩] (.acc 48 .fail)))))
   (.fail)))
  (.case ⟨true, 0x6e⟩ (.lits [⟨true, 0x73⟩, ⟨true, 0x77⟩, ⟨true, 0x65⟩, ⟨true, 0x72⟩, ⟨false, 0x2d⟩, ⟨true, 0x6d⟩, ⟨true, 0x6f⟩, ⟨true, 0x64⟩, ⟨true, 0x65⟩] (.acc 99 .fail))
  (.case ⟨true, 0x75⟩ (.byte ⟨true, 0x74⟩ (.byte ⟨true, 0x68⟩ (.case ⟨true, 0x65⟩ (.lits [⟨true, 0x6e⟩, ⟨true, 0x74⟩, ⟨true, 0x69⟩, ⟨true, 0x63⟩, ⟨true, 0x61⟩, ⟨true, 0x74⟩, ⟨true, 0x69⟩, ⟨true, 0x6f⟩, ⟨true, 0x6e⟩, ⟨false, 0x2d⟩, ⟨true, 0x69⟩, ⟨true, 0x6e⟩, ⟨true, 0x66⟩, ⟨true, 0x6f⟩] (.acc 6 .fail))
   (.case ⟨true, 0x6f⟩ (.lits [⟨true, 0x72⟩, ⟨true, 0x69⟩, ⟨true, 0x7a⟩, ⟨true, 0x61⟩, ⟨true, 0x74⟩, ⟨true, 0x69⟩, ⟨true, 0x6f⟩, ⟨true, 0x6e⟩] (.acc 7 .fail))
   (.fail)))))
  (.fail)))))

/-- SipHeadersIndex.go:129-2857 `GetSipHeaderIndex`: the branch of the first byte `b`. -/
def headerTrie_b : Trie :=
  .acc 76 .fail

/-- SipHeadersIndex.go:129-2857 `GetSipHeaderIndex`: the branch of the first byte `c`. -/
def headerTrie_c : Trie :=
  .acc 15 (.case ⟨true, 0x61⟩ (.byte ⟨true, 0x6c⟩ (.byte ⟨true, 0x6c⟩ (.byte ⟨false, 0x2d⟩ (.byte ⟨true, 0x69⟩ (.case ⟨true, 0x64⟩ (.acc 8 .fail)
   (.case ⟨true, 0x6e⟩ (.lits [⟨true, 0x66⟩, ⟨true, 0x6f⟩] (.acc 9 .fail))
   (.fail)))))))
  (.case ⟨true, 0x6f⟩ (.byte ⟨true, 0x6e⟩ (.byte ⟨true, 0x74⟩ (.case ⟨true, 0x61⟩ (.lits [⟨true, 0x63⟩, ⟨true, 0x74⟩] (.acc 10 .fail))
   (.case ⟨true, 0x65⟩ (.byte ⟨true, 0x6e⟩ (.byte ⟨true, 0x74⟩ (.byte ⟨false, 0x2d⟩ (.case ⟨true, 0x64⟩ (.case ⟨true, 0x65⟩ (.lits [⟨true, 0x73⟩, ⟨true, 0x63⟩, ⟨true, 0x72⟩, ⟨true, 0x69⟩, ⟨true, 0x70⟩, ⟨true, 0x74⟩, ⟨true, 0x69⟩, ⟨true, 0x6f⟩, ⟨true, 0x6e⟩] (.acc 82 .fail))
     (.case ⟨true, 0x69⟩ (.lits [⟨true, 0x73⟩, ⟨true, 0x70⟩, ⟨true, 0x6f⟩, ⟨true, 0x73⟩, ⟨true, 0x69⟩, ⟨true, 0x74⟩, ⟨true, 0x69⟩, ⟨true, 0x6f⟩, ⟨true, 0x6e⟩] (.acc 11 .fail))
     (.fail)))
    (.case ⟨true, 0x65⟩ (.lits [⟨true, 0x6e⟩, ⟨true, 0x63⟩, ⟨true, 0x6f⟩, ⟨true, 0x64⟩, ⟨true, 0x69⟩, ⟨true, 0x6e⟩, ⟨true, 0x67⟩] (.acc 12 .fail))
    (.case ⟨true, 0x69⟩ (.byte ⟨true, 0x64⟩ (.acc 81 .fail))
    (.case ⟨true, 0x6c⟩ (.case ⟨true, 0x61⟩ (.lits [⟨true, 0x6e⟩, ⟨true, 0x67⟩, ⟨true, 0x75⟩, ⟨true, 0x61⟩, ⟨true, 0x67⟩, ⟨true, 0x65⟩] (.acc 13 .fail))
     (.case ⟨true, 0x65⟩ (.lits [⟨true, 0x6e⟩, ⟨true, 0x67⟩, ⟨true, 0x74⟩, ⟨true, 0x68⟩] (.acc 14 .fail))
     (.fail)))
    (.case ⟨true, 0x74⟩ (.case ⟨true, 0x72⟩ (.lits [⟨true, 0x61⟩, ⟨true, 0x6e⟩, ⟨true, 0x73⟩, ⟨true, 0x66⟩, ⟨true, 0x65⟩, ⟨true, 0x72⟩, ⟨false, 0x2d⟩, ⟨true, 0x65⟩, ⟨true, 0x6e⟩, ⟨true, 0x63⟩, ⟨true, 0x6f⟩, ⟨true, 0x64⟩, ⟨true, 0x69⟩, ⟨true, 0x6e⟩, ⟨true, 0x67⟩] (.acc 80 .fail))
     (.case ⟨true, 0x79⟩ (.lits [⟨true, 0x70⟩, ⟨true, 0x65⟩] (.acc 15 .fail))
     (.fail)))
    (.fail)))))))))
   (.fail)))))
  (.case ⟨true, 0x73⟩ (.lits [⟨true, 0x65⟩, ⟨true, 0x71⟩] (.acc 16 .fail))
  (.fail))))

/-- SipHeadersIndex.go:129-2857 `GetSipHeaderIndex`: the branch of the first byte `d`. -/
def headerTrie_d : Trie :=
  .case ⟨true, 0x61⟩ (.lits [⟨true, 0x74⟩, ⟨true, 0x65⟩] (.acc 17 .fail))
  (.case ⟨true, 0x69⟩ (.lits [⟨true, 0x76⟩, ⟨true, 0x65⟩, ⟨true, 0x72⟩, ⟨true, 0x73⟩, ⟨true, 0x69⟩, ⟨true, 0x6f⟩, ⟨true, 0x6e⟩] (.acc 105 .fail))
  (.fail))

/-- SipHeadersIndex.go:129-2857 `GetSipHeaderIndex`: the branch of the first byte `e`. -/
def headerTrie_e : Trie :=
  .acc 12 (.case ⟨true, 0x72⟩ (.lits [⟨true, 0x72⟩, ⟨true, 0x6f⟩, ⟨true, 0x72⟩, ⟨false, 0x2d⟩, ⟨true, 0x69⟩, ⟨true, 0x6e⟩, ⟨true, 0x66⟩, ⟨true, 0x6f⟩] (.acc 18 .fail))
  (.case ⟨true, 0x76⟩ (.lits [⟨true, 0x65⟩, ⟨true, 0x6e⟩, ⟨true, 0x74⟩] (.acc 49 .fail))
  (.case ⟨true, 0x78⟩ (.lits [⟨true, 0x70⟩, ⟨true, 0x69⟩, ⟨true, 0x72⟩, ⟨true, 0x65⟩, ⟨true, 0x73⟩] (.acc 19 .fail))
  (.fail))))

/-- SipHeadersIndex.go:129-2857 `GetSipHeaderIndex`: the branch of the first byte `f`. -/
def headerTrie_f : Trie :=
  .acc 20 (.case ⟨true, 0x65⟩ (.lits [⟨true, 0x61⟩, ⟨true, 0x74⟩, ⟨true, 0x75⟩, ⟨true, 0x72⟩, ⟨true, 0x65⟩, ⟨false, 0x2d⟩, ⟨true, 0x63⟩, ⟨true, 0x61⟩, ⟨true, 0x70⟩, ⟨true, 0x73⟩] (.acc 115 .fail))
  (.case ⟨true, 0x6c⟩ (.lits [⟨true, 0x6f⟩, ⟨true, 0x77⟩, ⟨false, 0x2d⟩, ⟨true, 0x74⟩, ⟨true, 0x69⟩, ⟨true, 0x6d⟩, ⟨true, 0x65⟩, ⟨true, 0x72⟩] (.acc 103 .fail))
  (.case ⟨true, 0x72⟩ (.lits [⟨true, 0x6f⟩, ⟨true, 0x6d⟩] (.acc 20 .fail))
  (.fail))))

/-- SipHeadersIndex.go:129-2857 `GetSipHeaderIndex`: the branch of the first byte `g`. -/
def headerTrie_g : Trie :=
  .byte ⟨true, 0x65⟩ (.byte ⟨true, 0x6f⟩ (.byte ⟨true, 0x6c⟩ (.byte ⟨true, 0x6f⟩ (.byte ⟨true, 0x63⟩ (.byte ⟨true, 0x61⟩ (.byte ⟨true, 0x74⟩ (.byte ⟨true, 0x69⟩ (.byte ⟨true, 0x6f⟩ (.byte ⟨true, 0x6e⟩ (.acc 110 (.byte ⟨false, 0x2d⟩ (.case ⟨true, 0x65⟩ (.lits [⟨true, 0x72⟩, ⟨true, 0x72⟩, ⟨true, 0x6f⟩, ⟨true, 0x72⟩] (.acc 112 .fail))
  (.case ⟨true, 0x72⟩ (.lits [⟨true, 0x6f⟩, ⟨true, 0x75⟩, ⟨true, 0x74⟩, ⟨true, 0x69⟩, ⟨true, 0x6e⟩, ⟨true, 0x67⟩] (.acc 111 .fail))
  (.fail))))))))))))))

/-- SipHeadersIndex.go:129-2857 `GetSipHeaderIndex`: the branch of the first byte `h`. -/
def headerTrie_h : Trie :=
  .lits [⟨true, 0x69⟩, ⟨true, 0x73⟩, ⟨true, 0x74⟩, ⟨true, 0x6f⟩, ⟨true, 0x72⟩, ⟨true, 0x79⟩, ⟨false, 0x2d⟩, ⟨true, 0x69⟩, ⟨true, 0x6e⟩, ⟨true, 0x66⟩, ⟨true, 0x6f⟩] (.acc 85 .fail)

/-- SipHeadersIndex.go:129-2857 `GetSipHeaderIndex`: the branch of the first byte `i`. -/
def headerTrie_i : Trie :=
  .acc 8 (.case ⟨true, 0x64⟩ (.byte ⟨true, 0x65⟩ (.byte ⟨true, 0x6e⟩ (.byte ⟨true, 0x74⟩ (.byte ⟨true, 0x69⟩ (.byte ⟨true, 0x74⟩ (.byte ⟨true, 0x79⟩ (.acc 89 (.lits [⟨false, 0x2d⟩, ⟨true, 0x69⟩, ⟨true, 0x6e⟩, ⟨true, 0x66⟩, ⟨true, 0x6f⟩] (.acc 90 .fail)))))))))
  (.case ⟨true, 0x6e⟩ (.case ⟨true, 0x2d⟩ (.lits [⟨true, 0x72⟩, ⟨true, 0x65⟩, ⟨true, 0x70⟩, ⟨true, 0x6c⟩, ⟨true, 0x79⟩, ⟨false, 0x2d⟩, ⟨true, 0x74⟩, ⟨true, 0x6f⟩] (.acc 21 .fail))
   (.case ⟨true, 0x66⟩ (.lits [⟨true, 0x6f⟩, ⟨false, 0x2d⟩, ⟨true, 0x70⟩, ⟨true, 0x61⟩, ⟨true, 0x63⟩, ⟨true, 0x6b⟩, ⟨true, 0x61⟩, ⟨true, 0x67⟩, ⟨true, 0x65⟩] (.acc 108 .fail))
   (.fail)))
  (.fail)))

/-- SipHeadersIndex.go:129-2857 `GetSipHeaderIndex`: the branch of the first byte `j`. -/
def headerTrie_j : Trie :=
  .acc 73 (.lits [⟨true, 0x6f⟩, ⟨true, 0x69⟩, ⟨true, 0x6e⟩] (.acc 79 .fail))

/-- SipHeadersIndex.go:129-2857 `GetSipHeaderIndex`: the branch of the first byte `k`. -/
def headerTrie_k : Trie :=
  .acc 37 .fail

/-- SipHeadersIndex.go:129-2857 `GetSipHeaderIndex`: the branch of the first byte `l`. -/
def headerTrie_l : Trie :=
  .acc 14 .fail

/-- SipHeadersIndex.go:129-2857 `GetSipHeaderIndex`: the branch of the first byte `m`. -/
def headerTrie_m : Trie :=
  .acc 10 (.case ⟨true, 0x61⟩ (.byte ⟨true, 0x78⟩ (.byte ⟨false, 0x2d⟩ (.case ⟨true, 0x62⟩ (.lits [⟨true, 0x72⟩, ⟨true, 0x65⟩, ⟨true, 0x61⟩, ⟨true, 0x64⟩, ⟨true, 0x74⟩, ⟨true, 0x68⟩] (.acc 101 .fail))
   (.case ⟨true, 0x66⟩ (.lits [⟨true, 0x6f⟩, ⟨true, 0x72⟩, ⟨true, 0x77⟩, ⟨true, 0x61⟩, ⟨true, 0x72⟩, ⟨true, 0x64⟩, ⟨true, 0x73⟩] (.acc 22 .fail))
   (.fail)))))
  (.case ⟨true, 0x69⟩ (.case ⟨true, 0x6d⟩ (.lits [⟨true, 0x65⟩, ⟨false, 0x2d⟩, ⟨true, 0x76⟩, ⟨true, 0x65⟩, ⟨true, 0x72⟩, ⟨true, 0x73⟩, ⟨true, 0x69⟩, ⟨true, 0x6f⟩, ⟨true, 0x6e⟩] (.acc 24 .fail))
   (.case ⟨true, 0x6e⟩ (.byte ⟨false, 0x2d⟩ (.case ⟨true, 0x65⟩ (.lits [⟨true, 0x78⟩, ⟨true, 0x70⟩, ⟨true, 0x69⟩, ⟨true, 0x72⟩, ⟨true, 0x65⟩, ⟨true, 0x73⟩] (.acc 23 .fail))
    (.case ⟨true, 0x73⟩ (.byte ⟨true, 0x65⟩ (.acc 84 .fail))
    (.fail))))
   (.fail)))
  (.fail)))

/-- SipHeadersIndex.go:129-2857 `GetSipHeaderIndex`: the branch of the first byte `o`. -/
def headerTrie_o : Trie :=
  .acc 49 (.lits [⟨true, 0x72⟩, ⟨true, 0x67⟩, ⟨true, 0x61⟩, ⟨true, 0x6e⟩, ⟨true, 0x69⟩, ⟨true, 0x7a⟩, ⟨true, 0x61⟩, ⟨true, 0x74⟩, ⟨true, 0x69⟩, ⟨true, 0x6f⟩, ⟨true, 0x6e⟩] (.acc 25 .fail))

/-- SipHeadersIndex.go:129-2857 `GetSipHeaderIndex`: the branch of the first byte `p`. -/
def headerTrie_p : Trie :=
  .case ⟨true, 0x2d⟩ (.case ⟨true, 0x61⟩ (.case ⟨true, 0x63⟩ (.lits [⟨true, 0x63⟩, ⟨true, 0x65⟩, ⟨true, 0x73⟩, ⟨true, 0x73⟩, ⟨false, 0x2d⟩, ⟨true, 0x6e⟩, ⟨true, 0x65⟩, ⟨true, 0x74⟩, ⟨true, 0x77⟩, ⟨true, 0x6f⟩, ⟨true, 0x72⟩, ⟨true, 0x6b⟩, ⟨false, 0x2d⟩, ⟨true, 0x69⟩, ⟨true, 0x6e⟩, ⟨true, 0x66⟩, ⟨true, 0x6f⟩] (.acc 62 .fail))
    (.case ⟨true, 0x6e⟩ (.lits [⟨true, 0x73⟩, ⟨true, 0x77⟩, ⟨true, 0x65⟩, ⟨true, 0x72⟩, ⟨false, 0x2d⟩, ⟨true, 0x73⟩, ⟨true, 0x74⟩, ⟨true, 0x61⟩, ⟨true, 0x74⟩, ⟨true, 0x65⟩] (.acc 93 .fail))
    (.case ⟨true, 0x73⟩ (.byte ⟨true, 0x73⟩ (.case ⟨true, 0x65⟩ (.byte ⟨true, 0x72⟩ (.byte ⟨true, 0x74⟩ (.byte ⟨true, 0x65⟩ (.byte ⟨true, 0x64⟩ (.byte ⟨false, 0x2d⟩ (.case ⟨true, 0x69⟩ (.lits [⟨true, 0x64⟩, ⟨true, 0x65⟩, ⟨true, 0x6e⟩, ⟨true, 0x74⟩, ⟨true, 0x69⟩, ⟨true, 0x74⟩, ⟨true, 0x79⟩] (.acc 52 .fail))
      (.case ⟨true, 0x73⟩ (.lits [⟨true, 0x65⟩, ⟨true, 0x72⟩, ⟨true, 0x76⟩, ⟨true, 0x69⟩, ⟨true, 0x63⟩, ⟨true, 0x65⟩] (.acc 106 .fail))
      (.fail))))))))
     (.case ⟨true, 0x6f⟩ (.lits [⟨true, 0x63⟩, ⟨true, 0x69⟩, ⟨true, 0x61⟩, ⟨true, 0x74⟩, ⟨true, 0x65⟩, ⟨true, 0x64⟩, ⟨false, 0x2d⟩, ⟨true, 0x75⟩, ⟨true, 0x72⟩, ⟨true, 0x69⟩] (.acc 59 .fail))
     (.fail))))
    (.fail))))
   (.case ⟨true, 0x63⟩ (.case ⟨true, 0x61⟩ (.lits [⟨true, 0x6c⟩, ⟨true, 0x6c⟩, ⟨true, 0x65⟩, ⟨true, 0x64⟩, ⟨false, 0x2d⟩, ⟨true, 0x70⟩, ⟨true, 0x61⟩, ⟨true, 0x72⟩, ⟨true, 0x74⟩, ⟨true, 0x79⟩, ⟨false, 0x2d⟩, ⟨true, 0x69⟩, ⟨true, 0x64⟩] (.acc 60 .fail))
    (.case ⟨true, 0x68⟩ (.byte ⟨true, 0x61⟩ (.byte ⟨true, 0x72⟩ (.byte ⟨true, 0x67⟩ (.byte ⟨true, 0x69⟩ (.byte ⟨true, 0x6e⟩ (.byte ⟨true, 0x67⟩ (.byte ⟨false, 0x2d⟩ (.case ⟨true, 0x66⟩ (.lits [⟨true, 0x75⟩, ⟨true, 0x6e⟩, ⟨true, 0x63⟩, ⟨true, 0x74⟩, ⟨true, 0x69⟩, ⟨true, 0x6f⟩, ⟨true, 0x6e⟩, ⟨false, 0x2d⟩, ⟨true, 0x61⟩, ⟨true, 0x64⟩, ⟨true, 0x64⟩, ⟨true, 0x72⟩, ⟨true, 0x65⟩, ⟨true, 0x73⟩, ⟨true, 0x73⟩] (.acc 63 .fail))
     (.case ⟨true, 0x76⟩ (.lits [⟨true, 0x65⟩, ⟨true, 0x63⟩, ⟨true, 0x74⟩, ⟨true, 0x6f⟩, ⟨true, 0x72⟩] (.acc 64 .fail))
     (.fail))))))))))
    (.fail)))
   (.case ⟨true, 0x64⟩ (.byte ⟨true, 0x63⟩ (.byte ⟨true, 0x73⟩ (.byte ⟨false, 0x2d⟩ (.case ⟨true, 0x62⟩ (.lits [⟨true, 0x69⟩, ⟨true, 0x6c⟩, ⟨true, 0x6c⟩, ⟨true, 0x69⟩, ⟨true, 0x6e⟩, ⟨true, 0x67⟩, ⟨false, 0x2d⟩, ⟨true, 0x69⟩, ⟨true, 0x6e⟩, ⟨true, 0x66⟩, ⟨true, 0x6f⟩] (.acc 68 .fail))
    (.case ⟨true, 0x6c⟩ (.lits [⟨true, 0x61⟩, ⟨true, 0x65⟩, ⟨true, 0x73⟩] (.acc 69 .fail))
    (.case ⟨true, 0x6f⟩ (.lits [⟨true, 0x73⟩, ⟨true, 0x70⟩, ⟨true, 0x73⟩] (.acc 67 .fail))
    (.case ⟨true, 0x72⟩ (.lits [⟨true, 0x65⟩, ⟨true, 0x64⟩, ⟨true, 0x69⟩, ⟨true, 0x72⟩, ⟨true, 0x65⟩, ⟨true, 0x63⟩, ⟨true, 0x74⟩] (.acc 70 .fail))
    (.case ⟨true, 0x74⟩ (.lits [⟨true, 0x72⟩, ⟨true, 0x61⟩, ⟨true, 0x63⟩, ⟨true, 0x65⟩, ⟨false, 0x2d⟩, ⟨true, 0x70⟩, ⟨true, 0x61⟩, ⟨true, 0x72⟩, ⟨true, 0x74⟩, ⟨true, 0x79⟩, ⟨false, 0x2d⟩, ⟨true, 0x69⟩, ⟨true, 0x64⟩] (.acc 66 .fail))
    (.fail)))))))))
   (.case ⟨true, 0x65⟩ (.lits [⟨true, 0x61⟩, ⟨true, 0x72⟩, ⟨true, 0x6c⟩, ⟨true, 0x79⟩, ⟨false, 0x2d⟩, ⟨true, 0x6d⟩, ⟨true, 0x65⟩, ⟨true, 0x64⟩, ⟨true, 0x69⟩, ⟨true, 0x61⟩] (.acc 95 .fail))
   (.case ⟨true, 0x6d⟩ (.lits [⟨true, 0x65⟩, ⟨true, 0x64⟩, ⟨true, 0x69⟩, ⟨true, 0x61⟩, ⟨false, 0x2d⟩, ⟨true, 0x61⟩, ⟨true, 0x75⟩, ⟨true, 0x74⟩, ⟨true, 0x68⟩, ⟨true, 0x6f⟩, ⟨true, 0x72⟩, ⟨true, 0x69⟩, ⟨true, 0x7a⟩, ⟨true, 0x61⟩, ⟨true, 0x74⟩, ⟨true, 0x69⟩, ⟨true, 0x6f⟩, ⟨true, 0x6e⟩] (.acc 50 .fail))
   (.case ⟨true, 0x70⟩ (.byte ⟨true, 0x72⟩ (.case ⟨true, 0x65⟩ (.byte ⟨true, 0x66⟩ (.byte ⟨true, 0x65⟩ (.byte ⟨true, 0x72⟩ (.byte ⟨true, 0x72⟩ (.byte ⟨true, 0x65⟩ (.byte ⟨true, 0x64⟩ (.byte ⟨false, 0x2d⟩ (.case ⟨true, 0x69⟩ (.lits [⟨true, 0x64⟩, ⟨true, 0x65⟩, ⟨true, 0x6e⟩, ⟨true, 0x74⟩, ⟨true, 0x69⟩, ⟨true, 0x74⟩, ⟨true, 0x79⟩] (.acc 53 .fail))
     (.case ⟨true, 0x73⟩ (.lits [⟨true, 0x65⟩, ⟨true, 0x72⟩, ⟨true, 0x76⟩, ⟨true, 0x69⟩, ⟨true, 0x63⟩, ⟨true, 0x65⟩] (.acc 107 .fail))
     (.fail))))))))))
    (.case ⟨true, 0x69⟩ (.lits [⟨true, 0x76⟩, ⟨true, 0x61⟩, ⟨true, 0x74⟩, ⟨true, 0x65⟩, ⟨false, 0x2d⟩, ⟨true, 0x6e⟩, ⟨true, 0x65⟩, ⟨true, 0x74⟩, ⟨true, 0x77⟩, ⟨true, 0x6f⟩, ⟨true, 0x72⟩, ⟨true, 0x6b⟩, ⟨false, 0x2d⟩, ⟨true, 0x69⟩, ⟨true, 0x6e⟩, ⟨true, 0x64⟩, ⟨true, 0x69⟩, ⟨true, 0x63⟩, ⟨true, 0x61⟩, ⟨true, 0x74⟩, ⟨true, 0x69⟩, ⟨true, 0x6f⟩, ⟨true, 0x6e⟩] (.acc 116 .fail))
    (.case ⟨true, 0x6f⟩ (.lits [⟨true, 0x66⟩, ⟨true, 0x69⟩, ⟨true, 0x6c⟩, ⟨true, 0x65⟩, ⟨false, 0x2d⟩, ⟨true, 0x6b⟩, ⟨true, 0x65⟩, ⟨true, 0x79⟩] (.acc 94 .fail))
    (.fail)))))
   (.case ⟨true, 0x72⟩ (.lits [⟨true, 0x65⟩, ⟨true, 0x66⟩, ⟨true, 0x75⟩, ⟨true, 0x73⟩, ⟨true, 0x65⟩, ⟨true, 0x64⟩, ⟨false, 0x2d⟩, ⟨true, 0x75⟩, ⟨true, 0x72⟩, ⟨true, 0x69⟩, ⟨false, 0x2d⟩, ⟨true, 0x6c⟩, ⟨true, 0x69⟩, ⟨true, 0x73⟩, ⟨true, 0x74⟩] (.acc 96 .fail))
   (.case ⟨true, 0x73⟩ (.lits [⟨true, 0x65⟩, ⟨true, 0x72⟩, ⟨true, 0x76⟩, ⟨true, 0x65⟩, ⟨true, 0x64⟩, ⟨false, 0x2d⟩, ⟨true, 0x75⟩, ⟨true, 0x73⟩, ⟨true, 0x65⟩, ⟨true, 0x72⟩] (.acc 102 .fail))
   (.case ⟨true, 0x75⟩ (.lits [⟨true, 0x73⟩, ⟨true, 0x65⟩, ⟨true, 0x72⟩, ⟨false, 0x2d⟩, ⟨true, 0x64⟩, ⟨true, 0x61⟩, ⟨true, 0x74⟩, ⟨true, 0x61⟩, ⟨true, 0x62⟩, ⟨true, 0x61⟩, ⟨true, 0x73⟩, ⟨true, 0x65⟩] (.acc 88 .fail))
   (.case ⟨true, 0x76⟩ (.lits [⟨true, 0x69⟩, ⟨true, 0x73⟩, ⟨true, 0x69⟩, ⟨true, 0x74⟩, ⟨true, 0x65⟩, ⟨true, 0x64⟩, ⟨false, 0x2d⟩, ⟨true, 0x6e⟩, ⟨true, 0x65⟩, ⟨true, 0x74⟩, ⟨true, 0x77⟩, ⟨true, 0x6f⟩, ⟨true, 0x72⟩, ⟨true, 0x6b⟩, ⟨false, 0x2d⟩, ⟨true, 0x69⟩, ⟨true, 0x64⟩] (.acc 61 .fail))
   (.fail)))))))))))
  (.case ⟨true, 0x61⟩ (.lits [⟨true, 0x74⟩, ⟨true, 0x68⟩] (.acc 55 .fail))
  (.case ⟨true, 0x65⟩ (.lits [⟨true, 0x72⟩, ⟨true, 0x6d⟩, ⟨true, 0x69⟩, ⟨true, 0x73⟩, ⟨true, 0x73⟩, ⟨true, 0x69⟩, ⟨true, 0x6f⟩, ⟨true, 0x6e⟩, ⟨false, 0x2d⟩, ⟨true, 0x6d⟩, ⟨true, 0x69⟩, ⟨true, 0x73⟩, ⟨true, 0x73⟩, ⟨true, 0x69⟩, ⟨true, 0x6e⟩, ⟨true, 0x67⟩] (.acc 97 .fail))
  (.case ⟨true, 0x6f⟩ (.byte ⟨true, 0x6c⟩ (.byte ⟨true, 0x69⟩ (.byte ⟨true, 0x63⟩ (.byte ⟨true, 0x79⟩ (.byte ⟨false, 0x2d⟩ (.case ⟨true, 0x63⟩ (.lits [⟨true, 0x6f⟩, ⟨true, 0x6e⟩, ⟨true, 0x74⟩, ⟨true, 0x61⟩, ⟨true, 0x63⟩, ⟨true, 0x74⟩] (.acc 114 .fail))
   (.case ⟨true, 0x69⟩ (.byte ⟨true, 0x64⟩ (.acc 113 .fail))
   (.fail))))))))
  (.case ⟨true, 0x72⟩ (.case ⟨true, 0x69⟩ (.case ⟨true, 0x6f⟩ (.lits [⟨true, 0x72⟩, ⟨true, 0x69⟩, ⟨true, 0x74⟩, ⟨true, 0x79⟩] (.acc 26 .fail))
    (.case ⟨true, 0x76⟩ (.case ⟨true, 0x2d⟩ (.lits [⟨true, 0x61⟩, ⟨true, 0x6e⟩, ⟨true, 0x73⟩, ⟨true, 0x77⟩, ⟨true, 0x65⟩, ⟨true, 0x72⟩, ⟨false, 0x2d⟩, ⟨true, 0x6d⟩, ⟨true, 0x6f⟩, ⟨true, 0x64⟩, ⟨true, 0x65⟩] (.acc 100 .fail))
     (.case ⟨true, 0x61⟩ (.lits [⟨true, 0x63⟩, ⟨true, 0x79⟩] (.acc 51 .fail))
     (.fail)))
    (.fail)))
   (.case ⟨true, 0x6f⟩ (.byte ⟨true, 0x78⟩ (.byte ⟨true, 0x79⟩ (.byte ⟨false, 0x2d⟩ (.case ⟨true, 0x61⟩ (.byte ⟨true, 0x75⟩ (.byte ⟨true, 0x74⟩ (.byte ⟨true, 0x68⟩ (.case ⟨true, 0x65⟩ (.lits [⟨true, 0x6e⟩, ⟨true, 0x74⟩, ⟨true, 0x69⟩, ⟨true, 0x63⟩, ⟨true, 0x61⟩, ⟨true, 0x74⟩, ⟨true, 0x65⟩] (.acc 27 .fail))
     (.case ⟨true, 0x6f⟩ (.lits [⟨true, 0x72⟩, ⟨true, 0x69⟩, ⟨true, 0x7a⟩, ⟨true, 0x61⟩, ⟨true, 0x74⟩, ⟨true, 0x69⟩, ⟨true, 0x6f⟩, ⟨true, 0x6e⟩] (.acc 28 .fail))
     (.fail))))))
    (.case ⟨true, 0x72⟩ (.lits [⟨true, 0x65⟩, ⟨true, 0x71⟩, ⟨true, 0x75⟩, ⟨true, 0x69⟩, ⟨true, 0x72⟩, ⟨true, 0x65⟩] (.acc 29 .fail))
    (.fail))))))
   (.fail)))
  (.fail)))))

/-- SipHeadersIndex.go:129-2857 `GetSipHeaderIndex`: the branch of the first byte `r`. -/
def headerTrie_r : Trie :=
  .acc 65 (.case ⟨true, 0x61⟩ (.lits [⟨true, 0x63⟩, ⟨true, 0x6b⟩] (.acc 46 .fail))
  (.case ⟨true, 0x65⟩ (.case ⟨true, 0x61⟩ (.lits [⟨true, 0x73⟩, ⟨true, 0x6f⟩, ⟨true, 0x6e⟩] (.acc 54 .fail))
   (.case ⟨true, 0x63⟩ (.case ⟨true, 0x6f⟩ (.lits [⟨true, 0x72⟩, ⟨true, 0x64⟩, ⟨false, 0x2d⟩, ⟨true, 0x72⟩, ⟨true, 0x6f⟩, ⟨true, 0x75⟩, ⟨true, 0x74⟩, ⟨true, 0x65⟩] (.acc 30 .fail))
    (.case ⟨true, 0x76⟩ (.lits [⟨false, 0x2d⟩, ⟨true, 0x69⟩, ⟨true, 0x6e⟩, ⟨true, 0x66⟩, ⟨true, 0x6f⟩] (.acc 109 .fail))
    (.fail)))
   (.case ⟨true, 0x66⟩ (.byte ⟨true, 0x65⟩ (.byte ⟨true, 0x72⟩ (.case ⟨true, 0x2d⟩ (.case ⟨true, 0x65⟩ (.lits [⟨true, 0x76⟩, ⟨true, 0x65⟩, ⟨true, 0x6e⟩, ⟨true, 0x74⟩, ⟨true, 0x73⟩, ⟨false, 0x2d⟩, ⟨true, 0x61⟩, ⟨true, 0x74⟩] (.acc 119 .fail))
     (.case ⟨true, 0x73⟩ (.lits [⟨true, 0x75⟩, ⟨true, 0x62⟩] (.acc 91 .fail))
     (.case ⟨true, 0x74⟩ (.byte ⟨true, 0x6f⟩ (.acc 65 .fail))
     (.fail))))
    (.case ⟨true, 0x72⟩ (.lits [⟨true, 0x65⟩, ⟨true, 0x64⟩, ⟨false, 0x2d⟩, ⟨true, 0x62⟩, ⟨true, 0x79⟩] (.acc 76 .fail))
    (.fail)))))
   (.case ⟨true, 0x6a⟩ (.lits [⟨true, 0x65⟩, ⟨true, 0x63⟩, ⟨true, 0x74⟩, ⟨false, 0x2d⟩, ⟨true, 0x63⟩, ⟨true, 0x6f⟩, ⟨true, 0x6e⟩, ⟨true, 0x74⟩, ⟨true, 0x61⟩, ⟨true, 0x63⟩, ⟨true, 0x74⟩] (.acc 73 .fail))
   (.case ⟨true, 0x70⟩ (.byte ⟨true, 0x6c⟩ (.case ⟨true, 0x61⟩ (.lits [⟨true, 0x63⟩, ⟨true, 0x65⟩, ⟨true, 0x73⟩] (.acc 75 .fail))
    (.case ⟨true, 0x79⟩ (.lits [⟨false, 0x2d⟩, ⟨true, 0x74⟩, ⟨true, 0x6f⟩] (.acc 31 .fail))
    (.fail))))
   (.case ⟨true, 0x71⟩ (.byte ⟨true, 0x75⟩ (.case ⟨true, 0x65⟩ (.lits [⟨true, 0x73⟩, ⟨true, 0x74⟩, ⟨false, 0x2d⟩, ⟨true, 0x64⟩, ⟨true, 0x69⟩, ⟨true, 0x73⟩, ⟨true, 0x70⟩, ⟨true, 0x6f⟩, ⟨true, 0x73⟩, ⟨true, 0x69⟩, ⟨true, 0x74⟩, ⟨true, 0x69⟩, ⟨true, 0x6f⟩, ⟨true, 0x6e⟩] (.acc 74 .fail))
    (.case ⟨true, 0x69⟩ (.lits [⟨true, 0x72⟩, ⟨true, 0x65⟩] (.acc 32 .fail))
    (.fail))))
   (.case ⟨true, 0x73⟩ (.lits [⟨true, 0x6f⟩, ⟨true, 0x75⟩, ⟨true, 0x72⟩, ⟨true, 0x63⟩, ⟨true, 0x65⟩, ⟨false, 0x2d⟩, ⟨true, 0x70⟩, ⟨true, 0x72⟩, ⟨true, 0x69⟩, ⟨true, 0x6f⟩, ⟨true, 0x72⟩, ⟨true, 0x69⟩, ⟨true, 0x74⟩, ⟨true, 0x79⟩] (.acc 86 .fail))
   (.case ⟨true, 0x74⟩ (.lits [⟨true, 0x72⟩, ⟨true, 0x79⟩, ⟨false, 0x2d⟩, ⟨true, 0x61⟩, ⟨true, 0x66⟩, ⟨true, 0x74⟩, ⟨true, 0x65⟩, ⟨true, 0x72⟩] (.acc 33 .fail))
   (.fail)))))))))
  (.case ⟨true, 0x6f⟩ (.lits [⟨true, 0x75⟩, ⟨true, 0x74⟩, ⟨true, 0x65⟩] (.acc 34 .fail))
  (.case ⟨true, 0x73⟩ (.lits [⟨true, 0x65⟩, ⟨true, 0x71⟩] (.acc 45 .fail))
  (.fail)))))

/-- SipHeadersIndex.go:129-2857 `GetSipHeaderIndex`: the branch of the first byte `s`. -/
def headerTrie_s : Trie :=
  .acc 36 (.case ⟨true, 0x65⟩ (.case ⟨true, 0x63⟩ (.byte ⟨true, 0x75⟩ (.byte ⟨true, 0x72⟩ (.byte ⟨true, 0x69⟩ (.byte ⟨true, 0x74⟩ (.byte ⟨true, 0x79⟩ (.byte ⟨false, 0x2d⟩ (.case ⟨true, 0x63⟩ (.lits [⟨true, 0x6c⟩, ⟨true, 0x69⟩, ⟨true, 0x65⟩, ⟨true, 0x6e⟩, ⟨true, 0x74⟩] (.acc 56 .fail))
    (.case ⟨true, 0x73⟩ (.lits [⟨true, 0x65⟩, ⟨true, 0x72⟩, ⟨true, 0x76⟩, ⟨true, 0x65⟩, ⟨true, 0x72⟩] (.acc 57 .fail))
    (.case ⟨true, 0x76⟩ (.lits [⟨true, 0x65⟩, ⟨true, 0x72⟩, ⟨true, 0x69⟩, ⟨true, 0x66⟩, ⟨true, 0x79⟩] (.acc 58 .fail))
    (.fail))))))))))
   (.case ⟨true, 0x72⟩ (.byte ⟨true, 0x76⟩ (.case ⟨true, 0x65⟩ (.byte ⟨true, 0x72⟩ (.acc 35 .fail))
    (.case ⟨true, 0x69⟩ (.lits [⟨true, 0x63⟩, ⟨true, 0x65⟩, ⟨false, 0x2d⟩, ⟨true, 0x72⟩, ⟨true, 0x6f⟩, ⟨true, 0x75⟩, ⟨true, 0x74⟩, ⟨true, 0x65⟩] (.acc 71 .fail))
    (.fail))))
   (.case ⟨true, 0x73⟩ (.byte ⟨true, 0x73⟩ (.byte ⟨true, 0x69⟩ (.byte ⟨true, 0x6f⟩ (.byte ⟨true, 0x6e⟩ (.byte ⟨false, 0x2d⟩ (.case ⟨true, 0x65⟩ (.lits [⟨true, 0x78⟩, ⟨true, 0x70⟩, ⟨true, 0x69⟩, ⟨true, 0x72⟩, ⟨true, 0x65⟩, ⟨true, 0x73⟩] (.acc 83 .fail))
    (.case ⟨true, 0x69⟩ (.byte ⟨true, 0x64⟩ (.acc 117 .fail))
    (.fail))))))))
   (.fail))))
  (.case ⟨true, 0x69⟩ (.byte ⟨true, 0x70⟩ (.byte ⟨false, 0x2d⟩ (.case ⟨true, 0x65⟩ (.lits [⟨true, 0x74⟩, ⟨true, 0x61⟩, ⟨true, 0x67⟩] (.acc 77 .fail))
   (.case ⟨true, 0x69⟩ (.lits [⟨true, 0x66⟩, ⟨false, 0x2d⟩, ⟨true, 0x6d⟩, ⟨true, 0x61⟩, ⟨true, 0x74⟩, ⟨true, 0x63⟩, ⟨true, 0x68⟩] (.acc 78 .fail))
   (.fail)))))
  (.case ⟨true, 0x75⟩ (.case ⟨true, 0x62⟩ (.case ⟨true, 0x6a⟩ (.lits [⟨true, 0x65⟩, ⟨true, 0x63⟩, ⟨true, 0x74⟩] (.acc 36 .fail))
    (.case ⟨true, 0x73⟩ (.lits [⟨true, 0x63⟩, ⟨true, 0x72⟩, ⟨true, 0x69⟩, ⟨true, 0x70⟩, ⟨true, 0x74⟩, ⟨true, 0x69⟩, ⟨true, 0x6f⟩, ⟨true, 0x6e⟩, ⟨false, 0x2d⟩, ⟨true, 0x73⟩, ⟨true, 0x74⟩, ⟨true, 0x61⟩, ⟨true, 0x74⟩, ⟨true, 0x65⟩] (.acc 47 .fail))
    (.fail)))
   (.case ⟨true, 0x70⟩ (.byte ⟨true, 0x70⟩ (.case ⟨true, 0x6f⟩ (.lits [⟨true, 0x72⟩, ⟨true, 0x74⟩, ⟨true, 0x65⟩, ⟨true, 0x64⟩] (.acc 37 .fail))
    (.case ⟨true, 0x72⟩ (.lits [⟨true, 0x65⟩, ⟨true, 0x73⟩, ⟨true, 0x73⟩, ⟨false, 0x2d⟩, ⟨true, 0x69⟩, ⟨true, 0x66⟩, ⟨false, 0x2d⟩, ⟨true, 0x6d⟩, ⟨true, 0x61⟩, ⟨true, 0x74⟩, ⟨true, 0x63⟩, ⟨true, 0x68⟩] (.acc 104 .fail))
    (.fail))))
   (.fail)))
  (.fail))))

/-- SipHeadersIndex.go:129-2857 `GetSipHeaderIndex`: the branch of the first byte `t`. -/
def headerTrie_t : Trie :=
  .acc 39 (.case ⟨true, 0x61⟩ (.lits [⟨true, 0x72⟩, ⟨true, 0x67⟩, ⟨true, 0x65⟩, ⟨true, 0x74⟩, ⟨false, 0x2d⟩, ⟨true, 0x64⟩, ⟨true, 0x69⟩, ⟨true, 0x61⟩, ⟨true, 0x6c⟩, ⟨true, 0x6f⟩, ⟨true, 0x67⟩] (.acc 92 .fail))
  (.case ⟨true, 0x69⟩ (.lits [⟨true, 0x6d⟩, ⟨true, 0x65⟩, ⟨true, 0x73⟩, ⟨true, 0x74⟩, ⟨true, 0x61⟩, ⟨true, 0x6d⟩, ⟨true, 0x70⟩] (.acc 38 .fail))
  (.case ⟨true, 0x6f⟩ (.acc 39 .fail)
  (.case ⟨true, 0x72⟩ (.lits [⟨true, 0x69⟩, ⟨true, 0x67⟩, ⟨true, 0x67⟩, ⟨true, 0x65⟩, ⟨true, 0x72⟩, ⟨false, 0x2d⟩, ⟨true, 0x63⟩, ⟨true, 0x6f⟩, ⟨true, 0x6e⟩, ⟨true, 0x73⟩, ⟨true, 0x65⟩, ⟨true, 0x6e⟩, ⟨true, 0x74⟩] (.acc 98 .fail))
  (.fail)))))

/-- SipHeadersIndex.go:129-2857 `GetSipHeaderIndex`: the branch of the first byte `u`. -/
def headerTrie_u : Trie :=
  .acc 48 (.case ⟨true, 0x6e⟩ (.lits [⟨true, 0x73⟩, ⟨true, 0x75⟩, ⟨true, 0x70⟩, ⟨true, 0x70⟩, ⟨true, 0x6f⟩, ⟨true, 0x72⟩, ⟨true, 0x74⟩, ⟨true, 0x65⟩, ⟨true, 0x64⟩] (.acc 40 .fail))
  (.case ⟨true, 0x73⟩ (.byte ⟨true, 0x65⟩ (.byte ⟨true, 0x72⟩ (.byte ⟨false, 0x2d⟩ (.case ⟨true, 0x61⟩ (.lits [⟨true, 0x67⟩, ⟨true, 0x65⟩, ⟨true, 0x6e⟩, ⟨true, 0x74⟩] (.acc 41 .fail))
   (.case ⟨true, 0x74⟩ (.lits [⟨true, 0x6f⟩, ⟨false, 0x2d⟩, ⟨true, 0x75⟩, ⟨true, 0x73⟩, ⟨true, 0x65⟩, ⟨true, 0x72⟩] (.acc 118 .fail))
   (.fail))))))
  (.fail)))

/-- SipHeadersIndex.go:129-2857 `GetSipHeaderIndex`: the branch of the first byte `v`. -/
def headerTrie_v : Trie :=
  .acc 42 (.lits [⟨true, 0x69⟩, ⟨true, 0x61⟩] (.acc 42 .fail))

/-- SipHeadersIndex.go:129-2857 `GetSipHeaderIndex`: the branch of the first byte `w`. -/
def headerTrie_w : Trie :=
  .case ⟨true, 0x61⟩ (.lits [⟨true, 0x72⟩, ⟨true, 0x6e⟩, ⟨true, 0x69⟩, ⟨true, 0x6e⟩, ⟨true, 0x67⟩] (.acc 43 .fail))
  (.case ⟨true, 0x77⟩ (.lits [⟨true, 0x77⟩, ⟨false, 0x2d⟩, ⟨true, 0x61⟩, ⟨true, 0x75⟩, ⟨true, 0x74⟩, ⟨true, 0x68⟩, ⟨true, 0x65⟩, ⟨true, 0x6e⟩, ⟨true, 0x74⟩, ⟨true, 0x69⟩, ⟨true, 0x63⟩, ⟨true, 0x61⟩, ⟨true, 0x74⟩, ⟨true, 0x65⟩] (.acc 44 .fail))
  (.fail))

/-- SipHeadersIndex.go:129-2857 `GetSipHeaderIndex`: the branch of the first byte `x`. -/
def headerTrie_x : Trie :=
  .acc 83 .fail

/-- SipHeadersIndex.go:129-2857 `GetSipHeaderIndex`: all branches. -/
def headerTrie : Trie :=
  .case ⟨true, 0x61⟩ headerTrie_a
  (.case ⟨true, 0x62⟩ headerTrie_b
  (.case ⟨true, 0x63⟩ headerTrie_c
  (.case ⟨true, 0x64⟩ headerTrie_d
  (.case ⟨true, 0x65⟩ headerTrie_e
  (.case ⟨true, 0x66⟩ headerTrie_f
  (.case ⟨true, 0x67⟩ headerTrie_g
  (.case ⟨true, 0x68⟩ headerTrie_h
  (.case ⟨true, 0x69⟩ headerTrie_i
  (.case ⟨true, 0x6a⟩ headerTrie_j
  (.case ⟨true, 0x6b⟩ headerTrie_k
  (.case ⟨true, 0x6c⟩ headerTrie_l
  (.case ⟨true, 0x6d⟩ headerTrie_m
  (.case ⟨true, 0x6f⟩ headerTrie_o
  (.case ⟨true, 0x70⟩ headerTrie_p
  (.case ⟨true, 0x72⟩ headerTrie_r
  (.case ⟨true, 0x73⟩ headerTrie_s
  (.case ⟨true, 0x74⟩ headerTrie_t
  (.case ⟨true, 0x75⟩ headerTrie_u
  (.case ⟨true, 0x76⟩ headerTrie_v
  (.case ⟨true, 0x77⟩ headerTrie_w
  (.case ⟨true, 0x78⟩ headerTrie_x
  (.fail))))))))))))))))))))))

end Sip
