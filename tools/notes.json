{
 "C01": "Refinement to Spec/Fips203 KeyGen_internal, byte for byte. SeedOk: the XOF streams hold 256 candidates below q (else the code loops, C31).",
 "C02": "Keys generated or parsed from any bytes. Keys extracted from parsed decapsulation keys: C50.",
 "C03": "Any decapsulation-key bytes, any ciphertext bytes.",
 "C04": "Overflow-checked arithmetic, checked indexing and length checks are explicit panics of the model; returns exactly if the seed can be expanded.",
 "C05": "Sufficient window [-832, 831] for every noise coefficient; the exact window per bit is C06.",
 "C06": "Exact: bit b survives iff -832 <= N <= 832 - b.",
 "C07": "",
 "C08": "",
 "C09": "",
 "C10": "Mask for all equal-length strings; byte comparison proved for all 256x256 pairs.",
 "C11": "Generated or parsed keys; extracted keys: C50.",
 "C12": "",
 "C13": "",
 "C14": "",
 "C15": "",
 "C16": "",
 "C17": "Encapsulation keys generated or parsed (the statement is false for keys extracted from decapsulation keys with a wrong hash: C50_extracted_counterexample).",
 "C18": "C18_sizes is generic in the parameter set, C18_table3 gives the three standard ones.",
 "C19": "",
 "C20": "",
 "C21": "",
 "C22": "",
 "C23": "",
 "C24": "Against multiplication in Z_q[X]/(X^256+1), with the quotient stated as divisibility in Mathlib's polynomials.",
 "C25": "",
 "C26": "",
 "C27": "Against Mathlib's round on rationals.",
 "C28": "C28_width_12 shows the bound d < 12 is needed.",
 "C29": "",
 "C30": "Against Mathlib's Nat.nth of the accepted positions.",
 "C31": "The loop is a partial fixpoint; non-termination is the value div.",
 "C32": "",
 "C33": "",
 "C34": "",
 "C35": "Memory contents after drop; copies made by the compiler or the allocator are outside the model.",
 "C36": "",
 "C37": "X25519 is a parameter; hypotheses: public key = function at the base point, and commutativity.",
 "C38": "Key generation, encapsulation and decapsulation against Spec/XWing.",
 "C39": "",
 "C40": "",
 "C41": "",
 "C42": "Both theorems name the hashed strings.",
 "C43": "",
 "C44": "Generic in the group; the commutativity hypothesis is proved for every commutative group and so for every Weierstrass curve.",
 "C45": "",
 "C46": "",
 "C47": "Histories of unbounded length over any number of keys, including dropped ones; for a key taken out of a decapsulation key the encapsulation is FIPS 203's with the hash stored there (C50).",
 "C48": "Complete tables.",
 "C49": "",
 "C50": "Includes a counterexample: equal encodings, different keys.",
 "C51": "Whole histories for ML-KEM and for X-Wing, and per call for X-Wing.",
 "C52": "Counting form and probability form.",
 "C53": "`Determines b f`: every continuation of the bytes b samples f.",
 "C54": "Collisions are stated on explicit inputs, not as existence.",
 "C59": "Quantifies over pairs of SHA-3 implementations, so it speaks of the code and not of a trace the model would have to produce.",
 "C61": "Hash outputs are uniform tables; this is not a statement about the fixed function SHA-3. The numbers are upper bounds for every matrix, weaker than the estimates FIPS 203 quotes for random matrices.",
 "C78": "That an unfinished call has no effect on other threads is part of the model, justified by the signatures.",
 "C79": "dhkem: both adapters have the same text; the API of Model/Threads.lean uses EcdhKem's."
}