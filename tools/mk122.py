import json
r={"mods":["Verif.NN.PropsNormNet"],"props":[["C122","Networks with normalising layers",
"A network of dense and normalising layers answers a batch like the network of dense layers in which each normalising layer divides by a constant: the number it holds, or the range of the values of the whole batch that reach it if it was last set back. All later batches are answered with the same constants, up to the next backprop, which computes for all dense layers the gradient of the cost with these constants held fixed and sets the normalising layers back. If the first layer normalises and was set back, a common positive factor of all inputs does not matter.",
"all networks of dense and normalising layers in any number and order, weights, activations, batches (with a non-zero range at every normalising layer that was set back), sequences of batches, initial values held by the normalising layers",
"all stacks, weights, batches and sequences of calls; a test can only try some.",
["src/layer/normlayer.cpp: forwardprop, backprop","src/neuralnet.cpp: forwardprop, backprop, predict"]]],
"notes":{"C122":["proved","C122_forward, C122_predict, C122_later, C122_backward, C122_gradient, C122_factor. What a user may expect beyond it is false: C122_refuted (the class of a sample depends on the other samples of the batch and on earlier predictions), C122_gradient_refuted (the reported gradient is not the derivative of the cost, because the range depends on the weights too). The real model has no 0/0: batches with range 0 are excluded by hypothesis."]},
"design":"(C122) simulation between the network and its plain version (a normalising layer against a dense layer `divider`), layer by layer forwards and backwards; C28, C29 and C32 for the plain version; two concrete networks for the refutations."}
json.dump(r,open('/tmp/gen/r122.json','w'))
